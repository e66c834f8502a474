import Verif.Props.Nesting
import Verif.Props.ReleaseExample

/-!
# Examples for the limits of C71 on nesting
-/

namespace RustTuf.Props
open Spec RustTuf Json Client

namespace NestingExample
open PublishExample

/-- `[[…null…]]`. -/
def nested : Nat → Json
  | 0 => .null
  | n + 1 => .arr [nested n]

/-- Custom data nested 123 levels deep. -/
def custom : JsonValue := (nested 123).toValue

/-- Targets with one target, which has this custom data. -/
def targets : TargetsMetadata :=
  { version := 1, expires := 1,
    targets := [("app".toList, ⟨4, hashes, some [("data".toList, custom.1)]⟩)], delegations := none }

def encoded : Json := (encodeTargets lib targets).getD .null

-- Hypotheses of `C71_deep_custom_data_is_unreadable` and `C71_readable_iff_not_deep`.
example : 123 ≤ nesting custom.1 ∧ (Map.keys targets.targets).Nodup := by decide +kernel

theorem signs : ∃ sm, SignedMetadata.ofMetadata (encodeTargets lib) targets signer = .ok sm := by
  have e : encodeTargets lib targets = some encoded := by decide +kernel
  have hi : integral encoded.toValue.1 = true := by decide +kernel
  obtain ⟨msg, hc⟩ := (C52_total_on_integers _).1 hi
  refine ⟨⟨[⟨id0, msg.take 3⟩], encoded.toValue⟩, ?_⟩
  unfold SignedMetadata.ofMetadata
  rw [e]
  simp only [serialize, SignedMetadata.new, hc, signer]

example : ∃ sm raw, SignedMetadata.ofMetadata (encodeTargets lib) targets signer = .ok sm ∧
    sm.toRaw = .ok raw ∧
    ∃ e, verifySignatures (jsonEnv lib ring id fun _ => .refl _) (RustTuf.fromSlice lib.float (decodeTargets lib))
      raw 1 [key] = .error e := by
  obtain ⟨sm, h⟩ := signs
  obtain ⟨raw, h1, h2⟩ := C71_deep_custom_data_is_unreadable lib ring id (fun _ => .refl _) targets signer sm
    h (by decide +kernel) "app".toList _ (List.mem_singleton.2 rfl) _ rfl (by decide +kernel)
    "data".toList custom (List.mem_singleton.2 rfl) (by decide +kernel) _ 1 [key]
  exact ⟨sm, raw, h, h1, h2⟩

end NestingExample

end RustTuf.Props
