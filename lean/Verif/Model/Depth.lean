import Verif.Model.Client

/-!
# The depth counter of the search for a target
`Client.lookupIn` counts down what is left of the configured depth. Here is the same function with the
counter of the code, a `u32` that counts up.
-/

namespace RustTuf.Client

variable {W : Type}

/-- src/client.rs:1007 `current_depth + 1` for a `u32`: without a result (a panic) on overflow if the
build has overflow checks, else modulo 2^32. -/
def nextDepth (overflowChecks : Bool) (depth : Nat) : Option Nat :=
  if depth + 1 < 2 ^ 32 then some (depth + 1) else if overflowChecks then none else some 0

/-- src/client.rs:856-1027 `lookup_target_description` below the choice of the targets metadata. The
fuel is not part of the code: how many nested calls are allowed before the model gives up. -/
def lookupAt (E : Env) (D : Digest) (R : World W) (overflowChecks : Bool) (max : Nat)
    (target : VirtualTargetPath) (sn : SnapshotMetadata) :
    Nat → Nat → Bool → TargetsMetadata → MetadataPath → M (St W) Found
  | 0 => fun _ _ _ _ => M.fail .diverged
  | fuel + 1 => fun depth dflt targets role =>
    -- 864-870
    if depth > max then return (dflt, .error .notFound) else
    -- 883-885
    match targets.targets.get? target with
    | some d => return (dflt, .ok d)
    | none =>
      -- 887-890
      match targets.delegations with
      | none => return (dflt, .error .notFound)
      | some ds =>
        lookupLoop E D R (fun dflt' targets' role' =>
          match nextDepth overflowChecks depth with
          | none => M.fail .panic
          | some depth' => lookupAt E D R overflowChecks max target sn fuel depth' dflt' targets' role')
          dflt target sn role ds.roles

/-- src/client.rs:821-836 `fetch_target_description`, with the counter of the code, which starts at 0. -/
def fetchTargetDescriptionCounting (E : Env) (D : Digest) (R : World W)
    (fuel : Nat) (cfg : Config) (target : TargetPath) : M (St W) TargetDescription := do
  let virt ← M.ofExcept (cfg.realToVirtual target)
  let t ← getTuf
  match t.snapshot with
  | none => M.fail (.missing .snapshot)
  | some sn =>
    match t.targets with
    | none => M.fail (.missing .targets)
    | some ta =>
      let (_, res) ← lookupAt E D R cfg.overflowChecks cfg.maxDelegationDepth virt sn fuel 0 false ta
        (MetadataPath.fromRole .targets)
      M.ofExcept res

end RustTuf.Client
