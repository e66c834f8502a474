import Verif.Model.Copy
import Verif.Spec.Readers

/-! What is expected of copying to a writer. -/

namespace RustTuf.Spec

variable {W : Type}

/-- What a reader gives after it has reported its end for the first time. -/
def afterEnd : List Ev → List Ev
  | [] => []
  | .pending :: evs => afterEnd evs
  | .err _ :: _ => []
  | .data bs :: evs => if bs = [] then evs else afterEnd evs

/-- The reader gives no more data once it has reported its end. It may report errors. -/
def NoneAfterEnd (evs : List Ev) : Prop := ∀ bs, .data bs ∈ afterEnd evs → bs = []

/-- The reader stays at its end. -/
def StaysAtEnd (evs : List Ev) : Prop := ∀ e ∈ afterEnd evs, e = .data [] ∨ e = .pending

/-- The writer tells the truth about how much it took. -/
def TruthfulWriter (P : PollWriter W) : Prop :=
  ∀ bs w n w', P.pollWrite bs w = (.ready (.ok n), w') → n ≤ bs.length

/-- The writer after that many polls with the same buffer. -/
def writePolls (P : PollWriter W) (bs : Bytes) : Nat → W → W
  | 0, w => w
  | n + 1, w => writePolls P bs n (P.pollWrite bs w).2

/-- The writer after that many polls for the flush. -/
def flushPolls (P : PollWriter W) : Nat → W → W
  | 0, w => w
  | n + 1, w => flushPolls P n (P.pollFlush w).2

/-- The writer does not keep its caller waiting for ever. -/
structure RespondingWriter (P : PollWriter W) : Prop where
  write : ∀ bs w, bs ≠ [] → ∃ n, (P.pollWrite bs (writePolls P bs n w)).1 ≠ .pending
  flush : ∀ w, ∃ n, (P.pollFlush (flushPolls P n w)).1 ≠ .pending

/-- The writer has reported this error, or taken nothing, and is in this state since. -/
inductive WriterFailed (P : PollWriter W) : IoKind → W → Prop
  | write {bs w k w'} : bs ≠ [] → P.pollWrite bs w = (.ready (.error k), w') → WriterFailed P k w'
  | zero {bs w w'} : bs ≠ [] → P.pollWrite bs w = (.ready (.ok 0), w') → WriterFailed P .other w'
  | flush {w k w'} : P.pollFlush w = (.ready (.error k), w') → WriterFailed P k w'

/-- The writer never fails. -/
def FaultlessWriter (P : PollWriter W) : Prop := ∀ k w, ¬ WriterFailed P k w

/-- Polling the writer until it has taken everything or fails. -/
inductive WritesAll (P : PollWriter W) : Bytes → W → Except IoKind Unit → W → Prop
  | done {w} : WritesAll P [] w (.ok ()) w
  | wait {bs w w' r w''} : bs ≠ [] → P.pollWrite bs w = (.pending, w') →
      WritesAll P bs w' r w'' → WritesAll P bs w r w''
  | some {bs w n w' r w''} : bs ≠ [] → P.pollWrite bs w = (.ready (.ok n), w') → n ≠ 0 →
      WritesAll P (bs.drop n) w' r w'' → WritesAll P bs w r w''
  | zero {bs w w'} : bs ≠ [] → P.pollWrite bs w = (.ready (.ok 0), w') →
      WritesAll P bs w (.error .other) w'
  | fail {bs w k w'} : bs ≠ [] → P.pollWrite bs w = (.ready (.error k), w') →
      WritesAll P bs w (.error k) w'

/-- Polling the writer until it is flushed or fails. -/
inductive FlushesAll (P : PollWriter W) : W → Except IoKind Unit → W → Prop
  | wait {w w' r w''} : P.pollFlush w = (.pending, w') → FlushesAll P w' r w'' → FlushesAll P w r w''
  | done {w r w'} : P.pollFlush w = (.ready r, w') → FlushesAll P w r w'

/-- The writer of this world, in large steps, is that writer, polled again and again. -/
structure IsPolled (R : World W) (P : PollWriter W) : Prop where
  write : ∀ bs w, bs ≠ [] → WritesAll P bs w (R.write bs w).1 (R.write bs w).2
  flush : ∀ w, FlushesAll P w (R.flush w).1 (R.flush w).2

/-- A writer that takes one byte every other time, and is flushed at the second attempt. -/
def haltingWriter : PollWriter (Bool × Bytes) where
  pollWrite bs := fun
    | (false, out) => (.pending, (true, out))
    | (true, out) => (.ready (.ok (min 1 bs.length)), (false, out ++ bs.take 1))
  pollFlush := fun
    | (false, out) => (.pending, (true, out))
    | (true, out) => (.ready (.ok ()), (false, out))

end RustTuf.Spec
