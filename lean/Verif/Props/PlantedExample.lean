import Verif.Props.DelegatesExample
import Verif.Props.Planted

/-!
# Example for C126
The release in `Props/ReleaseExample.lean`.
-/

namespace RustTuf.Props
open Spec RustTuf Json Client

namespace AuthorsExample
open PublishExample ReleaseExample

theorem all_guarded : AllGuarded honest root := by
  refine ⟨guards, ?_⟩
  have h1 : timestampSigners root = [key] := by decide +kernel
  have h2 : snapshotSigners root = [key] := by decide +kernel
  unfold TimeGuarded
  rw [h1, h2]
  exact ⟨guarded, guarded⟩

-- All hypotheses of `C126_stored_is_made`: the client is installed, and an update takes the author's metadata.
example : ∃ start io io' t u s',
    (∀ t0, StartsWith (jsonEnv lib verify id fun _ => .refl _) start t0 → AllGuarded honest t0.root ∧
      ∀ r, works.root r → t0.root.version < r.version → AllGuarded honest r) ∧
    (∀ m, works.targets m → DelegationsGuarded honest m) ∧
    construct (jsonEnv lib verify id fun _ => .refl _) D world (Config.default true) start io = (.ok t, io') ∧
    t.targets = none ∧
    update (jsonEnv lib verify id fun _ => .refl _) D world (Config.default true) ⟨t, io'⟩ = (.ok u, s') ∧
    s' = execAll (jsonEnv lib verify id fun _ => .refl _) D world (Config.default true) ⟨t, io'⟩ [.update] ∧
    s'.tuf.targets ≠ none := by
  obtain ⟨raw, io', hr, h⟩ := installed
  obtain ⟨t0, ops0, h0, h1⟩ := C28_client_refines_tuf _ D world (Config.default true) _ _ io' _ h []
  have hreach : Reachable (jsonEnv lib verify id fun _ => .refl _) (Tuf.ofRoot root) :=
    ⟨t0, ops0, startsWith_fresh h0, h1⟩
  obtain ⟨u, s', ts', sn', ta', g, g0, -, ⟨g1, g2⟩, g3, g4⟩ := C78_release_is_adopted lib verify id
    (fun _ => .refl _) laws D world (Config.default true) file ⟨Tuf.ofRoot root, io'⟩ root ta sta sn ssn ts sts
    release hreach served (fun _ _ _ _ => rfl) (.last root (by decide +kernel) (by decide +kernel))
    ⟨fun _ _ h => (nomatch h), fun _ h => (nomatch h), fun _ h => (nomatch h)⟩ clock
  refine ⟨.trustedRoot raw, _, io', _, u, s', fun t1 k0 => ?_, delegations_guarded, h, rfl, g, after_update g,
    by rw [g3]; simp⟩
  have k0 : Tuf.fromTrustedRoot _ raw = .ok t1 := k0
  rw [hr] at k0
  cases k0
  exact ⟨all_guarded, fun r hr _ => hr ▸ all_guarded⟩

end AuthorsExample

end RustTuf.Props
