import Verif.Props.Authors
import Verif.Props.NewClient
import Verif.Props.ReleaseExample
import Verif.Props.ClientRestart

/-!
# Example for C121
The author of the release in `Props/ReleaseExample.lean`. The attacker can sign anything, but not with
the author's key.
-/

namespace RustTuf.Props
open Spec RustTuf Json Client

theorem after_update {W : Type} {E : Env} {D : Digest} {R : World W} {cfg : Config} {s s1 : St W} {u : Bool}
    (h : update E D R cfg s = (.ok u, s1)) : s1 = execAll E D R cfg s [.update] := by
  show s1 = (M.bind (update E D R cfg) _ s).2
  unfold M.bind
  rw [h]
  rfl

namespace AuthorsExample
open PublishExample ReleaseExample

/-- What the author has made. -/
def works : Works := ⟨(· = root), (· = ts), (· = sn), (· = ta)⟩

theorem works_publishable : Works.Publishable lib works where
  root m h := h ▸ publishable
  timestamp m h := h ▸ ⟨C77_built_timestamp_is_publishable D 0 ssn _ _ _ ts ts_from ts_built ts_fits, rfl⟩
  snapshot m h := by
    subst h
    obtain ⟨h1, h2⟩ := C77_built_snapshot_is_publishable D 0 snapshotCalls snBuilder sn sn_calls sn_built sn_fits
    exact ⟨h1, h2, rfl⟩
  targets m h := h ▸ ta_publishable

/-- The keys of the author and of the delegated role. -/
def honest (_ : Scheme) (value : Bytes) : Prop := value = key.value ∨ value = rsa.value

noncomputable instance : DecidablePred (works.Signs lib) := fun _ => Classical.propDecidable _

/-- A signature consists of the first three bytes. With these keys only the author's work is
signed. -/
noncomputable def verify : Scheme → Bytes → Bytes → Bytes → Bool :=
  fun _ value msg s => decide (s = msg.take 3 ∧ (value = key.value ∨ value = rsa.value → works.Signs lib msg))

theorem unforgeable : Unforgeable (jsonEnv lib verify id fun _ => .refl _) honest (works.Signs lib) := by
  intro scheme value msg sig hh hv
  exact (of_decide_eq_true hv).2 hh

-- The attacker can sign other things with other keys.
example : verify .ed25519 [1] [5, 6, 7, 8] [5, 6, 7] = true ∧ ¬ honest .ed25519 [1] :=
  ⟨decide_eq_true ⟨rfl, fun h => by revert h; decide⟩, by unfold honest; decide⟩

theorem guarded : Guarded honest 1 [key] := by
  intro ids _ h
  cases ids with
  | nil => decide
  | cons id ids =>
    obtain ⟨k, hk, -, hn⟩ := h id (by simp)
    rw [List.mem_singleton.1 hk] at hn
    exact absurd (.inl rfl) hn

theorem guards : RootGuarded honest root ∧ TargetsGuarded honest root := by
  have h1 : rootSigners root = [key] := by decide +kernel
  have h2 : targetsSigners root = [key] := by decide +kernel
  unfold RootGuarded TargetsGuarded
  rw [h1, h2]
  exact ⟨guarded, guarded⟩

theorem signed_by_author {M : Type} {encode : M → Option Json} {decode : Json → Option M} {m : M} {j : Json}
    {msg : Bytes} (he : encode m = some j) (hc : Json.canonicalize j.toValue.1 = .ok msg)
    (ht : msg.take 3 = sig.value) (hs : works.Signs lib msg) :
    Published lib verify id (fun _ => .refl _) encode decode m (sign j) [key] 1 := by
  have h := published_of (decode := decode) he hc ht
  refine ⟨h.made, h.content, h.ids, h.oneKey, h.positive, [key], by decide, by decide, fun k hk => ?_⟩
  rw [List.mem_singleton.1 hk]
  refine ⟨by simp, _, List.mem_singleton.2 rfl, rfl, fun m hm => ⟨by decide, ?_⟩⟩
  have hm : Json.canonicalize j.toValue.1 = .ok m := hm
  rw [hc] at hm
  cases hm
  exact decide_eq_true ⟨ht.symm, fun _ => hs⟩

theorem release : Release lib verify id (fun _ => .refl _) D (Config.default true) file root ta sta sn ssn
    ts sts where
  targets := ReleaseExample.release.targets
  shallow := ReleaseExample.release.shallow
  targetsSigned :=
    have hc := canonical_of (j := jta) (by decide +kernel)
    signed_by_author jta_eq hc (by decide +kernel) (.targets ta rfl ⟨jta, jta_eq, hc⟩)
  snapshot := ReleaseExample.release.snapshot
  snapshotDate := ReleaseExample.release.snapshotDate
  snapshotSigned :=
    have hc := canonical_of (j := jsn) (by decide +kernel)
    signed_by_author jsn_eq hc (by decide +kernel) (.snapshot sn rfl ⟨jsn, jsn_eq, hc⟩)
  timestamp := ReleaseExample.release.timestamp
  timestampDate := ReleaseExample.release.timestampDate
  timestampSigned :=
    have hc := canonical_of (j := jts) (by decide +kernel)
    signed_by_author jts_eq hc (by decide +kernel) (.timestamp ts rfl ⟨jts, jts_eq, hc⟩)
  targetsFile := ReleaseExample.release.targetsFile
  snapshotFile := ReleaseExample.release.snapshotFile
  timestampFile := ReleaseExample.release.timestampFile

/-- A client is installed with the author's root. -/
theorem installed : ∃ raw io', Tuf.fromTrustedRoot (jsonEnv lib verify id fun _ => .refl _) raw =
    .ok (Tuf.ofRoot root) ∧ construct (jsonEnv lib verify id fun _ => .refl _) D world (Config.default true)
    (.trustedRoot raw) ⟨Toy.Disk.empty, []⟩ = (.ok (Tuf.ofRoot root), io') := by
  have hc := canonical_of (j := encoded) (by decide +kernel)
  have hp := signed_by_author (encode := encodeRoot lib) (decode := decodeRoot lib) encoded_eq hc
    (by decide +kernel) (.root root rfl ⟨encoded, encoded_eq, hc⟩)
  have hd : decodeRoot lib encoded.toValue.1 = some root := by decide +kernel
  have hn : nesting encoded.toValue.1 < 127 := (nesting_normal _).trans_lt (by decide +kernel)
  obtain ⟨signers, g1, g2, g3⟩ := hp.enough
  obtain ⟨raw, e1, hv⟩ := C71_published_is_accepted lib verify id (fun _ => .refl _) (decodeRoot lib)
    (sign encoded) hp.made root hd hn hp.ids _ hc [key] hp.oneKey 1 (Nat.le_refl 1) signers g1 g2
    (fun k hk => ⟨(g3 k hk).1, (g3 k hk).2.imp fun s hs => ⟨hs.1, hs.2.1, hs.2.2 _ hc⟩⟩)
  obtain ⟨raw', e2, hparse⟩ := C71_to_raw_parses lib verify id (fun _ => .refl _) (sign encoded) _ hc hp.ids hn
  rw [e1] at e2
  cases e2
  have hk : rootSigners root = [key] := by decide +kernel
  have hr : (jsonEnv lib verify id fun _ => .refl _).rootOfRaw encoded.toValue = .ok root := by
    show fromValue (decodeRoot lib) encoded.toValue.1 = _
    unfold fromValue
    rw [hd]
  have ha := authentic_of_ok hv
  rw [← hk] at ha
  obtain ⟨io', h, -⟩ := C85_starts_with_root (jsonEnv lib verify id fun _ => .refl _) D world
    (Config.default true) (toy_faithful _ _ _).toReads raw root _ _ hparse hr ha (by decide)
    ⟨Toy.Disk.empty, []⟩ ⟨rfl, rfl⟩
  exact ⟨raw, io', fromTrustedRoot_self hparse hr ha, h⟩

-- Hypotheses of `C121_signed_metadata` and `C121_signed_by_builder`.
example : ∃ sm, SignedMetadata.ofMetadata (encodeTargets lib) ta signer = .ok sm := by
  have hc := canonical_of (j := jta) (by decide +kernel)
  generalize bytesOf _ = msg at hc
  unfold SignedMetadata.ofMetadata
  rw [jta_eq]
  simp only [serialize, SignedMetadata.new, hc, signer]
  exact ⟨_, rfl⟩
example : ∃ b b', SignedBuilder.fromMetadata (encodeRoot lib) (decodeRoot lib) root = .ok b ∧
    [signer, ⟨fun msg => .ok ⟨"b".toList, msg⟩, "b".toList⟩].foldlM (fun b key => b.sign key) b = .ok b' := by
  obtain ⟨b, h⟩ := C71_root_builder lib laws root publishable
  exact ⟨b, _, h, rfl⟩

-- All hypotheses of `C121_delivered_is_made` and with them of the other theorems: the client is
-- installed, updates, and gets the content.
example : ∃ start io io' t s2 s3 reply,
    construct (jsonEnv lib verify id fun _ => .refl _) D world (Config.default true) start io = (.ok t, io') ∧
    s2 = execAll (jsonEnv lib verify id fun _ => .refl _) D world (Config.default true) ⟨t, io'⟩ [.update] ∧
    (RootGuarded honest t.root ∧ TargetsGuarded honest t.root) ∧
    (∀ r, works.root r → t.root.version < r.version → RootGuarded honest r ∧ TargetsGuarded honest r) ∧
    exec (jsonEnv lib verify id fun _ => .refl _) D world (Config.default true)
      (.fetchTargetToWriter "x/y".toList) s2 = (.ok reply, s3) := by
  obtain ⟨raw, io', -, h⟩ := installed
  have hreach : Reachable (jsonEnv lib verify id fun _ => .refl _) (Tuf.ofRoot root) := by
    obtain ⟨t0, ops, h0, h1⟩ := C28_client_refines_tuf _ D world (Config.default true) _ _ io' _ h []
    exact ⟨t0, ops, startsWith_fresh h0, h1⟩
  obtain ⟨u, s1, s2, l, h1, h2, -⟩ := C78_released_target_is_delivered lib verify id (fun _ => .refl _) laws D
    world (Config.default true) file ⟨Tuf.ofRoot root, io'⟩ root ta sta sn ssn ts sts release hreach served
    (fun _ _ _ _ => rfl) (.last root (by decide +kernel) (by decide +kernel))
    ⟨fun _ _ h => (nomatch h), fun _ h => (nomatch h), fun _ h => (nomatch h)⟩ clock 0 targetsCalls taBuilder
    ta_calls ta_built "x/y".toList "x/0506.y".toList "x/y".toList source [.sha256, .sha512] content last_call
    (by decide +kernel) (by decide +kernel) (by decide +kernel) target_name target_served
    ⟨fun _ _ => rfl, fun _ => rfl⟩
  refine ⟨_, _, io', _, s1, s2, _, h, ?_, guards, fun r hr _ => hr ▸ guards, h2⟩
  exact after_update h1

end AuthorsExample

end RustTuf.Props
