import Verif.Spec.ExhaustionMade
import Verif.Props.Searches
import Verif.Props.WithdrawnMade

/-!
# C125 with JSON: without keys nobody can make updates and searches expensive
-/

namespace RustTuf.Props
open Client Spec RustTuf Json

section
variable {W : Type} (X : ShimLib) (ring : Scheme → Bytes → Bytes → Bytes → Bool)
  (order : Map KeyId Signature → List (KeyId × Signature)) (perm : ∀ m, (order m).Perm m)
  (L : Laws X) (w : Works) (hw : Works.Publishable X w)
include L hw

theorem modest_made {lastRoot snapshotLength targetsLength : Nat}
    (hm : w.Modest lastRoot snapshotLength targetsLength) :
    Modest (jsonEnv X ring order perm) (w.Signs X) lastRoot snapshotLength targetsLength where
  roots r hr := by
    obtain ⟨m, h1, h2⟩ := C121_root_is_read L hw r hr
    rw [← h2.version]
    exact hm.roots m h1
  timestamps ts hts := by
    obtain ⟨m, h1, h2⟩ := C121_timestamp_is_read L hw ts hts
    rw [← h2.snapshot.length]
    exact hm.timestamps m h1
  snapshots sn d hsn hd := by
    obtain ⟨m, h1, h2⟩ := C121_snapshot_is_read L hw sn hsn
    obtain ⟨d', h3, h4⟩ := sameMap_back h2.metas hd
    rw [← h4.length]
    exact hm.snapshots m d' h1 h3

theorem moderate_made {b n : Nat} (hm : w.Moderate b n) :
    Moderate (jsonEnv X ring order perm) (w.Signs X) b n where
  targets r hr := by
    obtain ⟨m, h1, h2⟩ := C121_targets_is_read L hw r hr
    intro ds hds
    have hd := h2.delegations
    rw [hds] at hd
    generalize e : m.delegations = o at hd
    cases hd with
    | some hd =>
      rw [← hd.roles.length_eq]
      exact hm.targets m h1 _ e
  timestamps ts hts := by
    obtain ⟨m, h1, h2⟩ := C121_timestamp_is_read L hw ts hts
    rw [← h2.snapshot.length]
    exact hm.timestamps m h1
  snapshots sn role d hsn hd := by
    obtain ⟨m, h1, h2⟩ := C121_snapshot_is_read L hw sn hsn
    obtain ⟨d', h3, h4⟩ := sameMap_back h2.metas hd
    rw [← h4.length]
    exact hm.snapshots m role d' h1 h3

/-- Guards of the roots that the author has made are guards of the roots that are read. -/
theorem all_guarded_read (honest : Scheme → Bytes → Prop) {v : Nat}
    (h : ∀ r, w.root r → v < r.version → AllGuarded honest r) (r : RootMetadata)
    (hr : Approved (w.Signs X) (jsonEnv X ring order perm).rootFromSlice r) (hv : v < r.version) :
    AllGuarded honest r := by
  obtain ⟨m, h1, h2⟩ := C121_root_is_read L hw _ hr
  obtain ⟨msg, -, hd⟩ := hr
  have k1 := (hw.root m h1).good.keys
  have k2 := (C54_root X msg r hd).keys
  have g := root_guards_same (honest := honest) h2 k1 k2
  obtain ⟨g1, g2⟩ := h m h1 (by rw [h2.version]; exact hv)
  refine ⟨⟨g.1 g1.1, g.2 g1.2⟩, ?_⟩
  unfold TimeGuarded timestampSigners snapshotSigners at g2 ⊢
  rw [← h2.timestamp, ← h2.snapshot]
  exact ⟨guarded_same h2.keys k1 k2 g2.1, guarded_same h2.keys k1 k2 g2.2⟩

/-- **C125.** With JSON and the crate's own writers: the bound on all further updates of a session, whatever
the attacker does, in terms of the metadata that the author has made. -/
theorem C125_updates_are_cheap_made (D : Digest) (R : World W) (cfg : Config) (honest : Scheme → Bytes → Prop)
    (hsig : Unforgeable (jsonEnv X ring order perm) honest (w.Signs X))
    (lastRoot snapshotLength targetsLength : Nat) (hm : w.Modest lastRoot snapshotLength targetsLength)
    (start : Start) (io io' : Io W) (t : Tuf)
    (h : construct (jsonEnv X ring order perm) D R cfg start io = (.ok t, io')) (before after : List Call)
    (s : St W) (hs : s = execAll (jsonEnv X ring order perm) D R cfg ⟨t, io'⟩ before)
    (hnow : AllGuarded honest s.tuf.root)
    (hlater : ∀ r, w.root r → s.tuf.root.version < r.version → AllGuarded honest r) :
    overUpdates (jsonEnv X ring order perm) D R cfg (fun l => (asked l).length) s after ≤
      (lastRoot - s.tuf.root.version) + 4 * updatesIn after ∧
    ∀ a b, cfg.maxRootLength = some a → cfg.maxTimestampLength = some b →
      overUpdates (jsonEnv X ring order perm) D R cfg receivedBytes s after ≤
        (lastRoot - s.tuf.root.version) * a + updatesIn after * (a + b + snapshotLength + targetsLength) :=
  C125_updates_are_cheap (jsonEnv X ring order perm) D R cfg honest (w.Signs X) hsig
    (C54_json_decoders X ring order perm) lastRoot snapshotLength targetsLength
    (modest_made X ring order perm L w hw hm) start io io' t h before after s hs ⟨hnow.1.1, hnow.2⟩
    fun r hr hv => by
      have g := all_guarded_read X ring order perm L w hw honest hlater r hr hv
      exact ⟨g.1.1, g.2⟩

/-- **C125.** With JSON and the crate's own writers: the bound on each search, whatever the attacker does, in
terms of the metadata that the author has made. -/
theorem C125_searches_are_made (D : Digest) (R : World W) (cfg : Config) (honest : Scheme → Bytes → Prop)
    (hsig : Unforgeable (jsonEnv X ring order perm) honest (w.Signs X)) (b n : Nat) (hm : w.Moderate b n)
    (start : Start)
    (hfirst : ∀ t0, StartsWith (jsonEnv X ring order perm) start t0 → AllGuarded honest t0.root ∧
      ∀ r, w.root r → t0.root.version < r.version → AllGuarded honest r)
    (hdel : ∀ m, w.targets m → DelegationsGuarded honest m)
    (io io' : Io W) (t : Tuf) (h : construct (jsonEnv X ring order perm) D R cfg start io = (.ok t, io'))
    (before : List Call) (s : St W) (hs : s = execAll (jsonEnv X ring order perm) D R cfg ⟨t, io'⟩ before)
    (c : Call) (hc : c ≠ .update) :
    requestCount (recordedSince s (exec (jsonEnv X ring order perm) D R cfg c s).2) ≤
      2 * chains b (cfg.maxDelegationDepth + 1) ∧
    (TakesAtMost cfg n → receivedBytes (recordedSince s (exec (jsonEnv X ring order perm) D R cfg c s).2) ≤
      2 * chains b (cfg.maxDelegationDepth + 1) * n) :=
  C125_searches_are_the_authors (jsonEnv X ring order perm) D R cfg honest (w.Signs X) hsig
    (C54_json_decoders X ring order perm) b n (moderate_made X ring order perm L w hw hm) start
    (fun t0 h0 => ⟨(hfirst t0 h0).1, all_guarded_read X ring order perm L w hw honest (hfirst t0 h0).2⟩)
    (fun m hm => by
      obtain ⟨m0, k1, k2⟩ := C121_targets_is_read L hw m hm
      obtain ⟨msg, -, hd⟩ := hm
      exact delegations_guards_same k2 (hw.targets m0 k1).good (C54_targets X msg m hd) (hdel m0 k1))
    io io' t h before s hs c hc

end

/-! ### Examples -/

namespace AuthorsExample
open PublishExample ReleaseExample

theorem works_modest : works.Modest 3 340 713 where
  roots r hr := by
    have hr : r = root := hr
    subst hr
    decide +kernel
  timestamps t ht := by
    have ht : t = ts := ht
    subst ht
    decide +kernel
  snapshots s m hs hm := by
    have hs : s = sn := hs
    subst hs
    have : ∀ p ∈ sn.metas, p.2.length ≤ 713 := by decide +kernel
    exact this _ (Map.mem_of_get? hm)

theorem works_moderate : works.Moderate 1 713 where
  targets m hm ds hds := by
    have hm : m = ta := hm
    subst hm
    cases hds
    decide +kernel
  timestamps t ht := by
    have ht : t = ts := ht
    subst ht
    decide +kernel
  snapshots s role m hs hm := by
    have hs : s = sn := hs
    subst hs
    have : ∀ p ∈ sn.metas, p.2.length ≤ 713 := by decide +kernel
    exact this _ (Map.mem_of_get? hm)

-- All hypotheses of `C125_updates_are_cheap_made` and `C125_searches_are_made`, for the author of the release
-- in `Props/ReleaseExample.lean`, with a client that has updated.
example : works.Modest 3 340 713 ∧ works.Moderate 1 713 ∧ ∃ start io io' t s,
    (∀ t0, StartsWith (jsonEnv lib verify id fun _ => .refl _) start t0 → AllGuarded honest t0.root ∧
      ∀ r, works.root r → t0.root.version < r.version → AllGuarded honest r) ∧
    (∀ m, works.targets m → DelegationsGuarded honest m) ∧
    construct (jsonEnv lib verify id fun _ => .refl _) D world (Config.default true) start io = (.ok t, io') ∧
    s = execAll (jsonEnv lib verify id fun _ => .refl _) D world (Config.default true) ⟨t, io'⟩ [.update] ∧
    AllGuarded honest s.tuf.root ∧
    (∀ r, works.root r → s.tuf.root.version < r.version → AllGuarded honest r) ∧ s.tuf.targets ≠ none := by
  refine ⟨works_modest, works_moderate, ?_⟩
  obtain ⟨raw, io', hr, h⟩ := installed
  obtain ⟨t0, ops0, h0, h1⟩ := C28_client_refines_tuf _ D world (Config.default true) _ _ io' _ h []
  have hreach : Reachable (jsonEnv lib verify id fun _ => .refl _) (Tuf.ofRoot root) :=
    ⟨t0, ops0, startsWith_fresh h0, h1⟩
  obtain ⟨u, s', ts', sn', ta', g, g0, -, -, g3, -⟩ := C78_release_is_adopted lib verify id
    (fun _ => .refl _) laws D world (Config.default true) file ⟨Tuf.ofRoot root, io'⟩ root ta sta sn ssn ts sts
    release hreach served (fun _ _ _ _ => rfl) (.last root (by decide +kernel) (by decide +kernel))
    ⟨fun _ _ h => (nomatch h), fun _ h => (nomatch h), fun _ h => (nomatch h)⟩ clock
  refine ⟨.trustedRoot raw, _, io', _, s', fun t1 k0 => ?_, delegations_guarded, h, after_update g,
    by rw [g0]; exact all_guarded, fun r hr _ => hr ▸ all_guarded, by rw [g3]; simp⟩
  have k0 : Tuf.fromTrustedRoot _ raw = .ok t1 := k0
  rw [hr] at k0
  cases k0
  exact ⟨all_guarded, fun r hr _ => hr ▸ all_guarded⟩

end AuthorsExample

end RustTuf.Props
