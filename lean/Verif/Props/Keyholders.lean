import Verif.Spec.Keyholders
import Verif.Props.Publishing
import Verif.Props.ClientTargets
import Verif.Props.PublishExample

/-!
# C102: roles that have their keys
C54 says that the threshold of a decoded role is at most the number of its key IDs. The keys themselves
may be missing from the document. This file shows what that means: the root role always has its keys,
so that a trusted root can always be replaced, and a role without its keys blocks the client until then.
-/

namespace RustTuf.Props
open Client Spec RustTuf Tuf

theorem canBeMet_of_authentic {E : Env} {M : Type} {decode : Bytes → Except Err M} {raw : Bytes} {n : Nat}
    {keys : List PublicKey} {m : M} (h : Authentic E decode raw n keys m) : CanBeMet n keys := by
  obtain ⟨msg, ⟨hn, sigs, signed, _, _, ids, hnd, hlen, hall⟩, _⟩ := h
  refine ⟨hn, ids, hnd, hlen, fun id hid => ?_⟩
  obtain ⟨k, _, ⟨e, pre, post, rfl, _⟩, _⟩ := hall id hid
  exact ⟨k, by simp, e⟩

/-- **C102.** After any history, the trusted root lists enough keys for the root role, so that its owners
can always replace it. -/
theorem C102_root_has_its_keys (E : Env) (hE : Decoders E) (t : Tuf) (h : Fresh E t) (ops : List Op) :
    CanBeMet (run E t ops).root.root.threshold (rootSigners (run E t ops).root) := by
  obtain ⟨raw, h⟩ := C09_root_self_signed E hE t h ops
  exact canBeMet_of_authentic h

/-- **C102.** And if timestamp, snapshot or targets metadata is trusted, the root lists enough keys for
that role. -/
theorem C102_trusted_roles_have_their_keys (E : Env) (hE : Decoders E) (t : Tuf) (h : Fresh E t)
    (ops : List Op) :
    let t' := run E t ops
    (t'.timestamp ≠ none → CanBeMet t'.root.timestamp.threshold (timestampSigners t'.root)) ∧
    (t'.snapshot ≠ none → CanBeMet t'.root.snapshot.threshold (snapshotSigners t'.root)) ∧
    (t'.targets ≠ none → CanBeMet t'.root.targets.threshold (targetsSigners t'.root)) := by
  obtain ⟨h1, h2, h3⟩ := C19_signed_under_current_root E hE t h ops
  refine ⟨fun hn => ?_, fun hn => ?_, fun hn => ?_⟩
  · obtain ⟨m, hm⟩ := Option.ne_none_iff_exists'.1 hn
    obtain ⟨_, h⟩ := h1 m hm
    exact canBeMet_of_authentic h
  · obtain ⟨m, hm⟩ := Option.ne_none_iff_exists'.1 hn
    obtain ⟨_, h⟩ := h2 m hm
    exact canBeMet_of_authentic h
  · obtain ⟨m, hm⟩ := Option.ne_none_iff_exists'.1 hn
    obtain ⟨_, h⟩ := h3 m hm
    exact canBeMet_of_authentic h

/-- **C102.** Delegated metadata is accepted only if the delegation lists enough keys. -/
theorem C102_delegations_need_their_keys (E : Env) (t : Tuf) (clk : Clock) (parent role : MetadataPath)
    (raw : Bytes) (h : (step E t (.delegation clk parent role raw)).1 = .changed) :
    ∃ ds d, Delegates t parent role ds d ∧ CanBeMet d.threshold (keysFor ds.keys d.keyIds) := by
  have hc := step_case E t (.delegation clk parent role raw)
  generalize (step E t (.delegation clk parent role raw)).2 = t' at hc
  rw [h] at hc
  cases hc with
  | delegation _ _ _ _ new hr =>
    obtain ⟨ds, d, h1, h2⟩ := hr.signed
    exact ⟨ds, d, h1, canBeMet_of_authentic h2⟩

/-- **C102.** While the trusted root lacks keys for timestamps, every timestamp is refused. -/
theorem C102_timestamp_refused (E : Env) (clk : Clock) (t : Tuf) (raw : Bytes)
    (h : ¬ CanBeMet t.root.timestamp.threshold (timestampSigners t.root)) :
    ∃ e, updateTimestamp E clk t raw = (.error e, t) := by
  unfold updateTimestamp
  cases hv : verifySignatures E E.timestampFromSlice raw t.root.timestamp.threshold
      t.root.timestampKeys with
  | error e => exact ⟨e, rfl⟩
  | ok new =>
    rw [timestampKeys_eq] at hv
    exact absurd (canBeMet_of_authentic ((verifySignatures_ok_iff E _ _ _ _ _).1 hv)) h

variable {W : Type}

/-- **C102.** An update of a client succeeds only if the root that is then trusted lists enough keys for
each of the three other roles: one role without its keys blocks every update, whatever the repository
serves, until the root is replaced. -/
theorem C102_update_needs_all_keys (E : Env) (hE : Decoders E) (D : Digest) (R : World W) (cfg : Config)
    (s s' : St W) (b : Bool) (hr : Reachable E s.tuf) (h : update E D R cfg s = (.ok b, s')) :
    CanBeMet s'.tuf.root.timestamp.threshold (timestampSigners s'.tuf.root) ∧
    CanBeMet s'.tuf.root.snapshot.threshold (snapshotSigners s'.tuf.root) ∧
    CanBeMet s'.tuf.root.targets.threshold (targetsSigners s'.tuf.root) := by
  have hr' : Reachable E s'.tuf := by
    have := update_reachable (E := E) (D := D) (R := R) cfg s hr
    rw [h] at this
    exact this
  obtain ⟨t0, ops, h0, e⟩ := hr'
  obtain ⟨⟨⟨ts, sn, e1, e2, _⟩, ⟨_, _, ta, _, _, e3, _⟩⟩, _⟩ := C29_update_complete E hE D R cfg s s' b hr h
  obtain ⟨h1, h2, h3⟩ := C102_trusted_roles_have_their_keys E hE t0 h0 ops
  rw [← e] at h1 h2 h3
  exact ⟨h1 (by rw [e1]; simp), h2 (by rw [e2]; simp), h3 (by rw [e3]; simp)⟩

/-- **C102.** Nor is a target delivered while the trusted root lacks keys for targets metadata. -/
theorem C102_targets_need_their_keys (E : Env) (hE : Decoders E) (D : Digest) (R : World W) (cfg : Config)
    (s s' : St W) (path : TargetPath) (r : Reply) (hr : Reachable E s.tuf)
    (h : exec E D R cfg (.fetchTargetToWriter path) s = (.ok r, s')) :
    CanBeMet s.tuf.root.targets.threshold (targetsSigners s.tuf.root) := by
  obtain ⟨d, l, ht, _⟩ := C33_writer_gets_the_target E D R cfg path s s' r h
  obtain ⟨t0, ops, h0, e⟩ := hr
  obtain ⟨_, _, h3⟩ := C102_trusted_roles_have_their_keys E hE t0 h0 ops
  rw [← e] at h3
  exact h3 (by obtain ⟨_, ta, _, h, _⟩ := ht; rw [h]; simp)

/-! ### The case occurs -/

namespace KeyholdersExample
open PublishExample

/-- A root whose timestamp role names the key `id`. It lists only the key `id0`. -/
def rootFor (id : KeyId) : RootMetadata := { PublishExample.root with timestamp := ⟨1, [id]⟩ }

/-- It is signed with the key that it lists. -/
def signedRoot (id : KeyId) : SignedMetadata JsonValue :=
  ⟨[⟨id0, "{\"_".toList.map fun c => c.toNat.toUInt8⟩],
    ((encodeRoot PublishExample.lib (rootFor id)).getD .null).toValue⟩

/-- The world of the example. -/
def jenv : Env := jsonEnv PublishExample.lib PublishExample.ring id fun _ => .refl _

theorem starts (id : KeyId)
    (hc : ∃ msg, Json.canonicalize (signedRoot id).metadata.1 = .ok msg ∧
      msg.take 3 = "{\"_".toList.map fun c => c.toNat.toUInt8)
    (hd : decodeRoot PublishExample.lib (signedRoot id).metadata.1 = some (rootFor id))
    (hn : Spec.nesting (signedRoot id).metadata.1 < 127) :
    ∃ raw, fromRootWithTrustedKeys jenv raw 1 [PublishExample.key] = .ok (ofRoot (rootFor id)) := by
  obtain ⟨msg, hc, ht⟩ := hc
  obtain ⟨raw, _, hv⟩ := C71_published_is_accepted PublishExample.lib PublishExample.ring _root_.id
    (fun _ => .refl _) (decodeRoot PublishExample.lib) (signedRoot id)
    (.new (signedRoot id).metadata signer (signedRoot id) (by intro m s h; cases h; rfl) (by
      unfold SignedMetadata.new
      have : (jsonInterchange (decodeRoot PublishExample.lib)).canonicalize (signedRoot id).metadata = .ok msg := hc
      rw [this]
      simp only [signer, ht]
      rfl)) (rootFor id) hd hn
    (by intro s hs; rw [List.mem_singleton.1 hs]; exact isKeyId) msg hc [PublishExample.key]
    (by intro k hk k' hk' _; rw [List.mem_singleton.1 hk, List.mem_singleton.1 hk']) 1 (le_refl _)
    [PublishExample.key] (by decide) (by decide) (by
      intro k hk
      rw [List.mem_singleton.1 hk]
      refine ⟨by simp, _, List.mem_singleton.2 rfl, rfl, by decide, ?_⟩
      show (_ == msg.take 3) = true
      rw [ht]
      decide)
  have ha := (verifySignatures_ok_iff jenv _ raw 1 [PublishExample.key] (rootFor id)).1 hv
  have hs : rootSigners (rootFor id) = [PublishExample.key] := by
    show rootSigners PublishExample.root = _
    decide +kernel
  refine ⟨raw, (C06_bootstrap_trusted_keys jenv raw 1 _ _).2 ⟨_, ha, ?_, rfl⟩⟩
  rw [hs]
  exact ha

/-- A key that is not listed. -/
def id1 : KeyId := List.replicate 64 '1'

end KeyholdersExample

open KeyholdersExample in
/-- **Limit of C54, C102.** The case occurs: a document whose timestamp role names only a key that the
document does not list is decoded, and accepted as the first root. -/
theorem C102_keys_may_be_missing :
    ∃ (E : Env) (raw : Bytes) (keys : List PublicKey) (t : Tuf), Decoders E ∧
      fromRootWithTrustedKeys E raw 1 keys = .ok t ∧ GoodRoot t.root ∧
      ¬ CanBeMet t.root.timestamp.threshold (timestampSigners t.root) := by
  obtain ⟨raw, h⟩ := starts id1
    ⟨match Json.canonicalize (signedRoot id1).metadata.1 with | .ok b => b | .error _ => [],
      by decide +kernel, by decide +kernel⟩ (by decide +kernel) (by decide +kernel)
  refine ⟨jenv, raw, _, _, C54_json_decoders _ _ _ _, h, ?_, ?_⟩
  · obtain ⟨r, ⟨msg, _, hd⟩, _, e⟩ := (C06_bootstrap_trusted_keys jenv raw 1 _ _).1 h
    have e : ofRoot (rootFor id1) = ofRoot r := e
    have : GoodRoot r := C54_root _ _ _ hd
    rw [e]
    exact this
  · have hs : timestampSigners (ofRoot (rootFor id1)).root = [] := by decide +kernel
    rintro ⟨hn, ids, _, hlen, hall⟩
    obtain ⟨id, hid⟩ : ∃ id, id ∈ ids := List.exists_mem_of_length_pos (by omega)
    obtain ⟨k, hk, _⟩ := hall id hid
    rw [hs] at hk
    cases hk

open KeyholdersExample in
/-- With a listed key the role can be met. -/
example : ∃ t, Fresh jenv t ∧ CanBeMet t.root.timestamp.threshold (timestampSigners t.root) ∧
    CanBeMet t.root.root.threshold (rootSigners t.root) := by
  obtain ⟨raw, h⟩ := starts PublishExample.id0
    ⟨match Json.canonicalize (signedRoot PublishExample.id0).metadata.1 with | .ok b => b | .error _ => [],
      by decide +kernel, by decide +kernel⟩ (by decide +kernel) (by decide +kernel)
  refine ⟨_, .inl ⟨raw, _, _, h⟩, ⟨by decide, [PublishExample.id0], by simp, by decide, ?_⟩,
    C102_root_has_its_keys jenv (C54_json_decoders _ _ _ _) _ (.inl ⟨raw, _, _, h⟩) []⟩
  intro id hid
  have hs : timestampSigners (ofRoot (rootFor PublishExample.id0)).root = [PublishExample.key] := by
    decide +kernel
  exact ⟨PublishExample.key, by rw [hs]; simp, (List.mem_singleton.1 hid).symm⟩

/-- The hypothesis of C102_update_needs_all_keys is met by the client of the toy world. -/
example : ∃ s', update Toy.env Toy.digest Toy.remoteRepo Toy.config Toy.client0 = (.ok true, s') :=
  ⟨_, Prod.ext (by decide +kernel) rfl⟩

end RustTuf.Props
