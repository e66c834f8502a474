import Verif.Spec.WithdrawnMade
import Verif.Props.Withdrawn
import Verif.Props.PlantedExample

/-!
# C123 with JSON: withdrawn targets stay withdrawn
-/

namespace RustTuf.Props
open Client Spec RustTuf Json

theorem sameMap_back {K V : Type} [DecidableEq K] {S : V → V → Prop} {a b : Map K V} (h : SameMap S a b) {k : K}
    {v : V} (e : b.get? k = some v) : ∃ u, a.get? k = some u ∧ S u v := by
  cases ha : a.get? k with
  | none => rw [h.none k ha] at e; cases e
  | some u =>
    obtain ⟨v', h1, h2⟩ := h.there k u ha
    rw [e] at h1
    cases h1
    exact ⟨u, rfl, h2⟩

section
variable {W : Type} (X : ShimLib) (ring : Scheme → Bytes → Bytes → Bytes → Bool)
  (order : Map KeyId Signature → List (KeyId × Signature)) (perm : ∀ m, (order m).Perm m)
  (L : Laws X) (w : Works) (hw : Works.Publishable X w) (hb : w.NeverBack)
include L hw hb

theorem neverBack_made : NeverBack (jsonEnv X ring order perm) (w.Signs X) where
  timestamps a b ha hb' hlt := by
    obtain ⟨a', h1, h2⟩ := C121_timestamp_is_read L hw a ha
    obtain ⟨b', h3, h4⟩ := C121_timestamp_is_read L hw b hb'
    rw [← h2.snapshot.version, ← h4.snapshot.version]
    exact hb.timestamps a' b' h1 h3 (by rw [h2.version, h4.version]; exact hlt)
  snapshots a b ha hb' hle role m n hm hn := by
    obtain ⟨a', h1, h2⟩ := C121_snapshot_is_read L hw a ha
    obtain ⟨b', h3, h4⟩ := C121_snapshot_is_read L hw b hb'
    obtain ⟨m', k1, k2⟩ := sameMap_back h2.metas hm
    obtain ⟨n', k3, k4⟩ := sameMap_back h4.metas hn
    rw [← k2.version, ← k4.version]
    exact hb.snapshots a' b' h1 h3 (by rw [h2.version, h4.version]; exact hle) role m' n' k1 k3

/-- **C123.** With JSON and the crate's own writers: once a client trusts targets metadata of some version,
no call delivers, stores or describes a target that is in no targets metadata of this or a higher version
that the author has made, whatever the attacker does, until the root is replaced. -/
theorem C123_withdrawn_made (D : Digest) (R : World W) (cfg : Config) (honest : Scheme → Bytes → Prop)
    (hsig : Unforgeable (jsonEnv X ring order perm) honest (w.Signs X))
    (start : Start) (io io' : Io W) (t : Tuf)
    (h : construct (jsonEnv X ring order perm) D R cfg start io = (.ok t, io')) (before after : List Call)
    (s1 s2 s3 : St W) (hs1 : s1 = execAll (jsonEnv X ring order perm) D R cfg ⟨t, io'⟩ before)
    (hs2 : s2 = execAll (jsonEnv X ring order perm) D R cfg s1 after)
    (hg : TimeGuarded honest s1.tuf.root) (htg : TargetsGuarded honest s1.tuf.root)
    (hr : s2.tuf.root = s1.tuf.root) (a : TargetsMetadata) (ha : s1.tuf.targets = some a)
    (path : TargetPath) (virt : VirtualTargetPath) (hvirt : cfg.realToVirtual path = .ok virt)
    (hgone : ∀ m, w.targets m → a.version ≤ m.version → m.targets.get? virt = none)
    (call : Call)
    (hcall : call = .fetchTarget path ∨ call = .fetchTargetToWriter path ∨ call = .fetchTargetDescription path)
    (reply : Reply) : exec (jsonEnv X ring order perm) D R cfg call s2 ≠ (.ok reply, s3) := by
  refine C123_withdrawn hsig (neverBack_made X ring order perm L w hw hb) (C54_json_decoders X ring order perm)
    D R cfg start io io' t h before after s1 s2 s3 hs1 hs2 hg htg hr a ha path virt hvirt ?_ call hcall reply
  intro m hm hv
  obtain ⟨m', h1, h2⟩ := C121_targets_is_read L hw m hm
  exact h2.targets.none _ (hgone m' h1 (by rw [h2.version]; exact hv))

/-- **C123.** The same, until the author makes a newer root: the attacker cannot replace the root. -/
theorem C123_until_new_root (D : Digest) (R : World W) (cfg : Config) (honest : Scheme → Bytes → Prop)
    (hsig : Unforgeable (jsonEnv X ring order perm) honest (w.Signs X))
    (start : Start) (io io' : Io W) (t : Tuf)
    (h : construct (jsonEnv X ring order perm) D R cfg start io = (.ok t, io')) (before after : List Call)
    (s1 s2 s3 : St W) (hs1 : s1 = execAll (jsonEnv X ring order perm) D R cfg ⟨t, io'⟩ before)
    (hs2 : s2 = execAll (jsonEnv X ring order perm) D R cfg s1 after)
    (hg : AllGuarded honest s1.tuf.root) (hlast : ∀ r, w.root r → r.version ≤ s1.tuf.root.version)
    (a : TargetsMetadata) (ha : s1.tuf.targets = some a)
    (path : TargetPath) (virt : VirtualTargetPath) (hvirt : cfg.realToVirtual path = .ok virt)
    (hgone : ∀ m, w.targets m → a.version ≤ m.version → m.targets.get? virt = none)
    (call : Call)
    (hcall : call = .fetchTarget path ∨ call = .fetchTargetToWriter path ∨ call = .fetchTargetDescription path)
    (reply : Reply) : exec (jsonEnv X ring order perm) D R cfg call s2 ≠ (.ok reply, s3) := by
  refine C123_withdrawn_made X ring order perm L w hw hb D R cfg honest hsig start io io' t h before after
    s1 s2 s3 hs1 hs2 hg.2 hg.1.2 ?_ a ha path virt hvirt hgone call hcall reply
  rcases C121_roots_are_made X ring order perm L D R cfg honest w hw hsig s1 after hg.1.1
    (fun r hr hv => absurd hv (Nat.not_lt.2 (hlast r hr))) with e | ⟨r, hr, -, hv⟩
  · rw [hs2]; exact e
  · exact absurd hv (Nat.not_lt.2 (hlast r hr))

end

/-! ### Example -/

namespace AuthorsExample
open PublishExample ReleaseExample

theorem works_never_back : works.NeverBack where
  timestamps a b ha hb h := by
    have ha : a = ts := ha
    have hb : b = ts := hb
    subst ha hb
    exact absurd h (Nat.lt_irrefl _)
  snapshots a b ha hb _ role m n hm hn := by
    have ha : a = sn := ha
    have hb : b = sn := hb
    subst ha hb
    rw [hm] at hn
    cases hn
    exact Nat.le_refl _

-- All hypotheses of `C123_until_new_root` and with them of `C123_withdrawn_made`, for the release in
-- `Props/ReleaseExample.lean`, a target that it does not list, and any calls in between.
example : works.NeverBack ∧ ∃ start io io' t s1 a,
    construct (jsonEnv lib verify id fun _ => .refl _) D world (Config.default true) start io = (.ok t, io') ∧
    s1 = execAll (jsonEnv lib verify id fun _ => .refl _) D world (Config.default true) ⟨t, io'⟩ [.update] ∧
    AllGuarded honest s1.tuf.root ∧ (∀ r, works.root r → r.version ≤ s1.tuf.root.version) ∧
    s1.tuf.targets = some a ∧ (Config.default true).realToVirtual "z".toList = .ok "z".toList ∧
    (∀ m, works.targets m → a.version ≤ m.version → m.targets.get? "z".toList = none) ∧
    ∃ m, works.targets m ∧ a.version ≤ m.version := by
  refine ⟨works_never_back, ?_⟩
  obtain ⟨raw, io', hr, h⟩ := installed
  obtain ⟨t0, ops0, h0, h1⟩ := C28_client_refines_tuf _ D world (Config.default true) _ _ io' _ h []
  have hreach : Reachable (jsonEnv lib verify id fun _ => .refl _) (Tuf.ofRoot root) :=
    ⟨t0, ops0, startsWith_fresh h0, h1⟩
  obtain ⟨u, s', ts', sn', ta', g, g0, g5, ⟨g1, g2⟩, g3, g4⟩ := C78_release_is_adopted lib verify id
    (fun _ => .refl _) laws D world (Config.default true) file ⟨Tuf.ofRoot root, io'⟩ root ta sta sn ssn ts sts
    release hreach served (fun _ _ _ _ => rfl) (.last root (by decide +kernel) (by decide +kernel))
    ⟨fun _ _ h => (nomatch h), fun _ h => (nomatch h), fun _ h => (nomatch h)⟩ clock
  refine ⟨.trustedRoot raw, _, io', _, s', ta', h, after_update g, by rw [g0]; exact all_guarded, ?_, g3, rfl, ?_,
    ta, rfl, by rw [g4.version]⟩
  · intro r hr
    rw [g0]
    have hr : r = root := hr
    rw [hr]
  · intro m hm _
    have hm : m = ta := hm
    rw [hm]
    decide +kernel

end AuthorsExample

end RustTuf.Props
