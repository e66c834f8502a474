import Verif.Spec.Withdrawn
import Verif.Spec.UpdateWork

/-!
# Specification of the work that all updates of a session cause together
-/

namespace RustTuf.Spec
open Client

/-- Bounds on what the author has approved of: the last version of the root, the lengths that timestamps
announce for snapshots, the lengths that snapshots list for the top-level targets. -/
structure Modest (E : Env) (author : Bytes → Prop) (lastRoot snapshotLength targetsLength : Nat) : Prop where
  roots : ∀ r, Approved author E.rootFromSlice r → r.version ≤ lastRoot
  timestamps : ∀ ts, Approved author E.timestampFromSlice ts → ts.snapshot.length ≤ snapshotLength
  snapshots : ∀ sn m, Approved author E.snapshotFromSlice sn → sn.metas.get? targetsName = some m →
    m.length ≤ targetsLength

/-- What the second state records beyond the first. -/
def recordedSince {W : Type} (s s' : St W) : List LogEntry := s'.io.log.drop s.io.log.length

/-- A quantity summed over all updates among a sequence of calls. -/
def overUpdates {W : Type} (E : Env) (D : Digest) (R : World W) (cfg : Config) (q : List LogEntry → Nat) :
    St W → List Call → Nat
  | _, [] => 0
  | s, c :: cs =>
    (if c = .update then q (recordedSince s (exec E D R cfg c s).2) else 0) +
      overUpdates E D R cfg q (exec E D R cfg c s).2 cs

/-- The number of updates among the calls. -/
def updatesIn (calls : List Call) : Nat := calls.count .update

end RustTuf.Spec
