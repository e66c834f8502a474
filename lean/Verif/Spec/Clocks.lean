import Verif.Model.Client
import Verif.Spec.ClientTargets

/-! Clocks that go slow. -/

namespace RustTuf.Spec
open Client Tuf

/-- Every reading is earlier, or the same. -/
def NotAhead (clk clk' : Clock) : Prop := ∀ site, clk site ≤ clk' site

/-- The same call, with these readings of the clock. -/
def withClock (clk : Clock) : Op → Op
  | .root raw => .root raw
  | .timestamp _ raw => .timestamp clk raw
  | .snapshot _ raw => .snapshot clk raw
  | .targets _ raw => .targets clk raw
  | .delegation _ parent role raw => .delegation clk parent role raw

/-- The same world, but for what the clock shows. -/
structure OtherClock {W : Type} (R R' : World W) : Prop where
  remote : R.remote = R'.remote
  cache : R.cache = R'.cache
  storeMetadata : R.storeMetadata = R'.storeMetadata
  storeTarget : R.storeTarget = R'.storeTarget
  write : R.write = R'.write
  flush : R.flush = R'.flush
  next : ∀ w, (R.clock w).2 = (R'.clock w).2

/-- The same world, but the clock of the first one is behind, now and then or always. -/
structure SlowClock {W : Type} (R R' : World W) : Prop extends OtherClock R R' where
  behind : ∀ w, NotAhead (R.clock w).1 (R'.clock w).1

/-- The call asks for a target that the trusted top-level targets metadata list. -/
def AsksListed (cfg : Config) (t : Tuf) : Call → Prop
  | .update => False
  | .fetchTarget p => ∃ d, TopEntry cfg t p d
  | .fetchTargetToWriter p => ∃ d, TopEntry cfg t p d
  | .fetchTargetDescription p => ∃ d, TopEntry cfg t p d

end RustTuf.Spec
