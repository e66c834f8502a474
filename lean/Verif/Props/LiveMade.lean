import Verif.Spec.LiveMade
import Verif.Props.Live
import Verif.Props.WithdrawnMade

/-!
# C127 with JSON: clients that start later never see expired releases
-/

namespace RustTuf.Props
open Client Spec RustTuf Json

section
variable {W : Type} (X : ShimLib) (ring : Scheme → Bytes → Bytes → Bytes → Bool)
  (order : Map KeyId Signature → List (KeyId × Signature)) (perm : ∀ m, (order m).Perm m)
  (L : Laws X) (w : Works) (hw : Works.Publishable X w)
include L hw

theorem liveSnapshot_made {time : Time} {v : Nat}
    (h : LiveSnapshot (jsonEnv X ring order perm) (w.Signs X) time v) : w.LiveSnapshot time v := by
  obtain ⟨ts, h1, h2, h3⟩ := h
  obtain ⟨m, k1, k2⟩ := C121_timestamp_is_read L hw ts h1
  exact ⟨m, k1, by rw [k2.expires]; exact h2, by rw [k2.snapshot.version]; exact h3⟩

theorem liveRole_made {time : Time} {role : MetadataPath} {v : Nat}
    (h : LiveRole (jsonEnv X ring order perm) (w.Signs X) time role v) : w.LiveRole time role v := by
  obtain ⟨sn, d, h1, h2, h3, h4, h5⟩ := h
  obtain ⟨m, k1, k2⟩ := C121_snapshot_is_read L hw sn h1
  obtain ⟨d', k3, k4⟩ := sameMap_back k2.metas h4
  exact ⟨m, d', k1, by rw [k2.expires]; exact h2,
    by rw [k2.version]; exact liveSnapshot_made X ring order perm L w hw h3, k3, by rw [k4.version]; exact h5⟩

/-- **C127.** With JSON and the crate's own writers: a client that is started at this time or later trusts
targets and delegated metadata only in versions that the author has listed in unexpired snapshots with
unexpired timestamps. -/
theorem C127_versions_are_made (D : Digest) (R : World W) (cfg : Config) (honest : Scheme → Bytes → Prop)
    (hsig : Unforgeable (jsonEnv X ring order perm) honest (w.Signs X)) (time : Time) (hR : NotBefore R time)
    (start : Start) (io io' : Io W) (t : Tuf)
    (h : construct (jsonEnv X ring order perm) D R cfg start io = (.ok t, io')) (calls : List Call)
    (s : St W) (hs : s = execAll (jsonEnv X ring order perm) D R cfg ⟨t, io'⟩ calls)
    (hg : TimeGuarded honest s.tuf.root) :
    (∀ sn, s.tuf.snapshot = some sn → w.LiveSnapshot time sn.version) ∧
    (∀ ta, s.tuf.targets = some ta → time < ta.expires ∧ w.LiveRole time targetsName ta.version) ∧
    ∀ role ta, s.tuf.delegations.get? role = some ta → time < ta.expires ∧ w.LiveRole time role ta.version := by
  subst hs
  have hl := C127_client hsig (C54_json_decoders X ring order perm) time D R cfg hR start io io' t h calls hg
  exact ⟨fun sn e => liveSnapshot_made X ring order perm L w hw (hl.snapshot sn e).2,
    fun ta e => ⟨(hl.targets ta e).1, liveRole_made X ring order perm L w hw (hl.targets ta e).2⟩,
    fun role ta e => ⟨(hl.delegated role ta e).1, liveRole_made X ring order perm L w hw (hl.delegated role ta e).2⟩⟩

/-- **C127.** So it delivers, stores and describes no target that is only in targets metadata that the author
has made for releases that have expired. -/
theorem C127_expired_releases_are_gone_made (D : Digest) (R : World W) (cfg : Config)
    (honest : Scheme → Bytes → Prop)
    (hsig : Unforgeable (jsonEnv X ring order perm) honest (w.Signs X)) (time : Time) (hR : NotBefore R time)
    (start : Start) (io io' : Io W) (t : Tuf)
    (h : construct (jsonEnv X ring order perm) D R cfg start io = (.ok t, io')) (calls : List Call)
    (s s' : St W) (hs : s = execAll (jsonEnv X ring order perm) D R cfg ⟨t, io'⟩ calls)
    (hg : TimeGuarded honest s.tuf.root) (htg : TargetsGuarded honest s.tuf.root)
    (path : TargetPath) (virt : VirtualTargetPath) (hvirt : cfg.realToVirtual path = .ok virt)
    (hgone : ∀ m, w.targets m → time < m.expires → w.LiveRole time targetsName m.version →
      m.targets.get? virt = none)
    (call : Call)
    (hcall : call = .fetchTarget path ∨ call = .fetchTargetToWriter path ∨ call = .fetchTargetDescription path)
    (reply : Reply) : exec (jsonEnv X ring order perm) D R cfg call s ≠ (.ok reply, s') := by
  refine C127_expired_releases_are_gone hsig (C54_json_decoders X ring order perm) time D R cfg hR start io io' t h
    calls s s' hs hg htg path virt hvirt ?_ call hcall reply
  intro m hm he hl
  obtain ⟨m', h1, h2⟩ := C121_targets_is_read L hw m hm
  exact h2.targets.none _ (hgone m' h1 (by rw [h2.expires]; exact he)
    (by rw [h2.version]; exact liveRole_made X ring order perm L w hw hl))

end

/-! ### Example -/

namespace AuthorsExample
open PublishExample ReleaseExample

-- All hypotheses of `C127_versions_are_made` and `C127_expired_releases_are_gone_made`, for the author of the
-- release in `Props/ReleaseExample.lean`, a client that has updated to it, and a target that it does not list.
-- The release has not expired.
example : NotBefore world 0 ∧ works.LiveRole 0 targetsName ta.version ∧ ∃ start io io' t s,
    construct (jsonEnv lib verify id fun _ => .refl _) D world (Config.default true) start io = (.ok t, io') ∧
    s = execAll (jsonEnv lib verify id fun _ => .refl _) D world (Config.default true) ⟨t, io'⟩ [.update] ∧
    TimeGuarded honest s.tuf.root ∧ TargetsGuarded honest s.tuf.root ∧ s.tuf.targets ≠ none ∧
    (Config.default true).realToVirtual "z".toList = .ok "z".toList ∧
    ∀ m, works.targets m → (0 : Int) < m.expires → works.LiveRole 0 targetsName m.version →
      m.targets.get? "z".toList = none := by
  refine ⟨fun _ _ => Int.le_refl _, ?_, ?_⟩
  · cases h : sn.metas.get? targetsName with
    | none => exact absurd h (by decide +kernel)
    | some d =>
      refine ⟨sn, d, rfl, by decide +kernel, ⟨ts, rfl, by decide +kernel, by decide +kernel⟩, h, ?_⟩
      have : (sn.metas.get? targetsName).map (·.version) = some ta.version := by decide +kernel
      rw [h] at this
      exact Option.some.inj this
  obtain ⟨raw, io', hr, h⟩ := installed
  obtain ⟨t0, ops0, h0, h1⟩ := C28_client_refines_tuf _ D world (Config.default true) _ _ io' _ h []
  have hreach : Reachable (jsonEnv lib verify id fun _ => .refl _) (Tuf.ofRoot root) :=
    ⟨t0, ops0, startsWith_fresh h0, h1⟩
  obtain ⟨u, s', ts', sn', ta', g, g0, -, -, g3, -⟩ := C78_release_is_adopted lib verify id
    (fun _ => .refl _) laws D world (Config.default true) file ⟨Tuf.ofRoot root, io'⟩ root ta sta sn ssn ts sts
    release hreach served (fun _ _ _ _ => rfl) (.last root (by decide +kernel) (by decide +kernel))
    ⟨fun _ _ h => (nomatch h), fun _ h => (nomatch h), fun _ h => (nomatch h)⟩ clock
  refine ⟨.trustedRoot raw, _, io', _, s', h, after_update g, by rw [g0]; exact all_guarded.2,
    by rw [g0]; exact all_guarded.1.2, by rw [g3]; simp, rfl, ?_⟩
  intro m hm _ _
  have hm : m = ta := hm
  rw [hm]
  decide +kernel

end AuthorsExample

end RustTuf.Props
