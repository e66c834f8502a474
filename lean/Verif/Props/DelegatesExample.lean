import Verif.Props.AuthorsExample
import Verif.Props.Delegates

/-!
# Example for C122
The release in `Props/ReleaseExample.lean`, which delegates to a second key.
-/

namespace RustTuf.Props
open Spec RustTuf Json Client

namespace AuthorsExample
open PublishExample ReleaseExample

theorem delegations_guarded (m : TargetsMetadata) (h : works.targets m) : DelegationsGuarded honest m := by
  cases h
  intro ds e d hd
  cases e
  rw [List.mem_singleton.1 hd]
  have e : keysFor delegations.keys rsa2.keyIds = [rsa] := by decide +kernel
  rw [e]
  exact Attack.guarded_all (Nat.le_refl 1) fun k hk => by rw [List.mem_singleton.1 hk]; exact .inr rfl

-- All hypotheses of `C122_described_is_made`, and with them those of `C122_store`: the store of a client
-- after an update.
example : ∃ t ops clk d, Fresh (jsonEnv lib verify id fun _ => .refl _) t ∧
    (RootGuarded honest t.root ∧ TargetsGuarded honest t.root) ∧
    (∀ r, works.root r → t.root.version < r.version → RootGuarded honest r ∧ TargetsGuarded honest r) ∧
    (∀ m, works.targets m → DelegationsGuarded honest m) ∧
    Tuf.targetDescription clk (Tuf.run (jsonEnv lib verify id fun _ => .refl _) t ops) "x/y".toList = .ok d := by
  obtain ⟨raw, io', hr, h⟩ := installed
  obtain ⟨t0, ops0, h0, h1⟩ := C28_client_refines_tuf _ D world (Config.default true) _ _ io' _ h []
  have hreach : Reachable (jsonEnv lib verify id fun _ => .refl _) (Tuf.ofRoot root) :=
    ⟨t0, ops0, startsWith_fresh h0, h1⟩
  obtain ⟨u, s', ts', sn', ta', g, g0, -, ⟨g1, g2⟩, g3, g4⟩ := C78_release_is_adopted lib verify id
    (fun _ => .refl _) laws D world (Config.default true) file ⟨Tuf.ofRoot root, io'⟩ root ta sta sn ssn ts sts
    release hreach served (fun _ _ _ _ => rfl) (.last root (by decide +kernel) (by decide +kernel))
    ⟨fun _ _ h => (nomatch h), fun _ h => (nomatch h), fun _ h => (nomatch h)⟩ clock
  obtain ⟨t1, ops, k0, k1⟩ := C28_client_refines_tuf _ D world (Config.default true) _ _ io' _ h [.update]
  rw [← after_update g] at k1
  have hroot : t1.root = root := by
    have k0 : Tuf.fromTrustedRoot _ raw = .ok t1 := k0
    rw [hr] at k0
    cases k0
    rfl
  obtain ⟨d, hd, -⟩ := g4.targets.there "x/y".toList _ (by decide +kernel : ta.targets.get? "x/y".toList =
      some ⟨4, [(.sha512, [5, 6]), (.sha256, [5, 6])], none⟩)
  refine ⟨t1, ops, fun _ => 0, d, startsWith_fresh k0, by rw [hroot]; exact guards,
    fun r hr _ => hr ▸ guards, delegations_guarded, ?_⟩
  rw [← k1]
  exact C24_top_level_precedence _ _ _ _ sn' ta' (by rw [g0]; decide) g1 (by rw [← g2.expires]; decide) g3
    (by rw [← g4.expires]; decide) hd

end AuthorsExample

end RustTuf.Props
