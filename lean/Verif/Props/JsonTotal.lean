import Verif.Props.ClientTotal
import Verif.Props.Shims
import Verif.Model.JsonEnv
import Verif.Lemmas.JsonTotal

/-!
# Reading JSON always comes to an end (C94)
-/

namespace RustTuf.Props
open Spec Tuf Client
variable {W : Type} (X : ShimLib) (ringVerify : Scheme → Bytes → Bytes → Bytes → Bool)
  (sigOrder : Map KeyId Signature → List (KeyId × Signature)) (hperm : ∀ m, (sigOrder m).Perm m)

/-- **C94.** Whatever the bytes are, reading them as metadata or as a signed document gives a result or an
encoding error; the reader never runs out of steps. -/
theorem C94_reading_ends (b : Bytes) :
    (∀ e, (jsonEnv X ringVerify sigOrder hperm).parseSigned b = .error e → e = .encoding) ∧
    (∀ e, (jsonEnv X ringVerify sigOrder hperm).rootFromSlice b = .error e → e = .encoding) ∧
    (∀ e, (jsonEnv X ringVerify sigOrder hperm).timestampFromSlice b = .error e → e = .encoding) ∧
    (∀ e, (jsonEnv X ringVerify sigOrder hperm).snapshotFromSlice b = .error e → e = .encoding) ∧
    (∀ e, (jsonEnv X ringVerify sigOrder hperm).targetsFromSlice b = .error e → e = .encoding) :=
  ⟨fun _ h => fromSlice_error h, fun _ h => fromSlice_error h, fun _ h => fromSlice_error h,
    fun _ h => fromSlice_error h, fun _ h => fromSlice_error h⟩

/-- **C94.** Checking the signatures of any bytes against any keys, as metadata of any kind, gives a
document or one of three errors: not readable, not representable in canonical form, not signed as
required. -/
theorem C94_verification_errors {M : Type} (f : Json → Option M) (raw : Bytes) (n : Nat)
    (keys : List PublicKey) (e : Err)
    (h : verifySignatures (jsonEnv X ringVerify sigOrder hperm) (fromSlice X.float f) raw n keys =
      .error e) : e = .encoding ∨ e = .opaqueErr ∨ e = .verification := by
  unfold verifySignatures at h
  split at h
  · cases h; exact .inr (.inr rfl)
  · dsimp only at h
    split at h
    · rename_i he; cases h; exact .inl (fromSlice_error he)
    · split at h
      · cases h; exact .inr (.inr rfl)
      · split at h
        · rename_i he; cases h; exact .inr (.inl (Json.canonicalize_error he))
        · split at h
          · cases h; exact .inr (.inr rfl)
          · exact .inl (fromSlice_error h)

/-- Code of the caller that does not panic: repositories and the path translator. -/
structure QuietCaller (R : World W) (cfg : Config) : Prop where
  fetch : ∀ src p v m h w e, ((R.provider src).fetchMetadata p v m h w).1 = .error e →
    e ≠ .panic ∧ e ≠ .diverged
  store : ∀ p v b w e, (R.storeMetadata p v b w).1 = .error e → e ≠ .panic ∧ e ≠ .diverged
  fetchTarget : ∀ p d w e, (R.remote.fetchTarget p d w).1 = .error e → e ≠ .panic ∧ e ≠ .diverged
  storeTarget : ∀ evs p w e, (R.storeTarget evs p w).1 = .error e → e ≠ .panic ∧ e ≠ .diverged
  translate : ∀ p e, cfg.realToVirtual p = .error e → e ≠ .panic ∧ e ≠ .diverged

theorem json_quiet {R : World W} {cfg : Config} (h : QuietCaller R cfg) :
    Quiet (jsonEnv X ringVerify sigOrder hperm) R cfg where
  parse := fun b e he => by rw [fromSlice_error he]; simp
  canonicalize := fun b e he => by rw [Json.canonicalize_error he]; simp
  root := fun b e he => by rw [fromSlice_error he]; simp
  timestamp := fun b e he => by rw [fromSlice_error he]; simp
  snapshot := fun b e he => by rw [fromSlice_error he]; simp
  targets := fun b e he => by rw [fromSlice_error he]; simp
  rootOfRaw := fun b e he => by
    change fromValue _ _ = _ at he
    unfold fromValue at he
    split at he <;> cases he
    simp
  fetch := h.fetch
  store := h.store
  fetchTarget := h.fetchTarget
  storeTarget := h.storeTarget
  translate := h.translate

/-- **C94.** A client that exchanges JSON comes to an end without a panic whatever bytes the repositories
serve, at whatever time, unless it trusts a root with the largest version number. -/
theorem C94_no_document_stops_the_client (D : Digest) (R : World W) (cfg : Config)
    (q : QuietCaller R cfg) (s s' : St W) (hr : Reachable (jsonEnv X ringVerify sigOrder hperm) s.tuf)
    (c : Call) (e : Err)
    (h : exec (jsonEnv X ringVerify sigOrder hperm) D R cfg c s = (.error e, s'))
    (hv : s'.tuf.root.version < 4294967295) : e ≠ .panic ∧ e ≠ .diverged := by
  have hE := C54_json_decoders X ringVerify sigOrder hperm
  have hq := json_quiet X ringVerify sigOrder hperm q
  refine ⟨?_, ?_⟩
  · rintro rfl
    have := C39_only_overflow_panics_partial _ hE D R cfg hq s s' hr c h
    omega
  · exact C38_terminates _ hE D R cfg hq s s' hr c e (.inl h)

end RustTuf.Props
