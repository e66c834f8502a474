import Verif.Spec.WF

/-!
# Specification of histories of update calls
-/

namespace RustTuf.Spec
open Tuf

/-- A store just created by one of the two constructors. -/
def Fresh (E : Env) (t : Tuf) : Prop :=
  (∃ raw n keys, fromRootWithTrustedKeys E raw n keys = .ok t) ∨ (∃ raw, fromTrustedRoot E raw = .ok t)

/-- The state after the first `i` calls. -/
def at_ (E : Env) (t : Tuf) (ops : List Op) (i : Nat) : Tuf := run E t (ops.take i)

/-- Number of successful root updates in a history. -/
def rootUpdates (E : Env) : Tuf → List Op → Nat
  | _, [] => 0
  | t, .root raw :: ops =>
    (if (step E t (.root raw)).1 = .changed then 1 else 0) + rootUpdates E (step E t (.root raw)).2 ops
  | t, op :: ops => rootUpdates E (step E t op).2 ops

/-- `b` can be reached from `a` by roots with consecutive versions, each signed by a threshold of
its predecessor's root keys and by a threshold of its own. -/
inductive RootChain (E : Env) : RootMetadata → RootMetadata → Prop
  | refl (a : RootMetadata) : RootChain E a a
  | step (a b c : RootMetadata) (raw : Bytes) : RootChain E a b →
      Authentic E E.rootFromSlice raw b.root.threshold (rootSigners b) c →
      Authentic E E.rootFromSlice raw c.root.threshold (rootSigners c) c →
      c.version = b.version + 1 → RootChain E a c

/-- Snapshot version announced by the trusted timestamp. -/
def announced (t : Tuf) : Option Nat := t.timestamp.map (·.snapshot.version)

/-- Version the trusted snapshot lists for a role. -/
def listedNow (role : MetadataPath) (t : Tuf) : Option Nat :=
  t.snapshot.bind fun s => (s.metas.get? role).map (·.version)

/-- The values of `g`, where there are any, never decrease in the course of the history. -/
def NonDecreasing (E : Env) (t : Tuf) (ops : List Op) (g : Tuf → Option Nat) : Prop :=
  ∀ i j, i ≤ j → j ≤ ops.length → ∀ x y,
    g (at_ E t ops i) = some x → g (at_ E t ops j) = some y → x ≤ y

end RustTuf.Spec
