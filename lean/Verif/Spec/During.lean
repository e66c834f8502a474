import Verif.Model.Repository

/-!
# What happens to the outside world while the client is running
-/

namespace RustTuf.Spec
variable {W : Type}

/-- One of the things that can be done to the outside world, and what it does to it. -/
inductive Action (R : World W) : W → W → Prop
  | fetchRemote (p v m h w) : Action R w (R.remote.fetchMetadata p v m h w).2
  | fetchCache (p v m h w) : Action R w (R.cache.fetchMetadata p v m h w).2
  | targetRemote (p d w) : Action R w (R.remote.fetchTarget p d w).2
  | targetCache (p d w) : Action R w (R.cache.fetchTarget p d w).2
  | store (p v raw w) : Action R w (R.storeMetadata p v raw w).2
  | storeTarget (evs p w) : Action R w (R.storeTarget evs p w).2
  | write (bs w) : Action R w (R.write bs w).2
  | flush (w) : Action R w (R.flush w).2
  | clock (w) : Action R w (R.clock w).2

/-- The state of the outside world before and after some actions. -/
inductive Evolves (R : World W) : W → W → Prop
  | refl (w) : Evolves R w w
  | step (w w' w'') : Evolves R w w' → Action R w' w'' → Evolves R w w''

/-- Some state in between, both included, has the property. -/
def During (R : World W) (w w' : W) (P : W → Prop) : Prop := ∃ x, Evolves R w x ∧ P x ∧ Evolves R x w'

end RustTuf.Spec
