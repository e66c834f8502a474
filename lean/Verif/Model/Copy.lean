import Verif.Model.Repository

/-!
# `futures_util::io::copy`, poll by poll
Called at src/client.rs:816 with the caller's writer. The function is third-party; it is modelled
after futures-util 0.3: a loop that fills its buffer when it is empty, hands the buffer to the writer,
and flushes the writer when the reader is at its end. `copyToWriter` (Model/Repository) describes it in
larger steps; Props/Copy relates the two.
-/

namespace RustTuf

/-- `std::task::Poll<io::Result<α>>`. -/
inductive Poll (α : Type) where
  | pending
  | ready (r : Except IoKind α)

/-- `futures_io::AsyncWrite`, as far as `copy` uses it (src/client.rs:52, 813): `poll_write` tells how
many bytes of the buffer it took. -/
structure PollWriter (W : Type) where
  pollWrite : Bytes → W → Poll Nat × W
  pollFlush : W → Poll Unit × W

/-- The future that src/client.rs:816 awaits. `got` is not part of the code: all bytes the writer has
taken so far. -/
structure Copying (W : Type) where
  /-- what further polls of the reader give -/
  rest : List Ev
  /-- read, but not yet taken by the writer -/
  buf : Bytes
  /-- the reader has reported its end -/
  ended : Bool
  amt : Nat
  w : W
  got : Bytes
deriving DecidableEq

variable {W : Type}

/-- The future before its first poll (src/client.rs:816). -/
def Copying.start (evs : List Ev) (w : W) : Copying W := ⟨evs, [], false, 0, w, []⟩

/-- The last part of the loop of `copy` (src/client.rs:816): the reader is at its end. -/
def Copying.flush (P : PollWriter W) (c : Copying W) : Option (Except IoKind Nat) × Copying W :=
  match P.pollFlush c.w with
  | (.pending, w') => (none, { c with w := w' })
  | (.ready (.ok ()), w') => (some (.ok c.amt), { c with w := w' })
  | (.ready (.error k), w') => (some (.error k), { c with w := w' })

/-- One turn of the loop of `copy` (src/client.rs:816): a poll of the reader if the buffer is empty,
else one of the writer. A turn that finds something pending is repeated when the future is polled
again. Releases of futures-util differ in whether `copy` remembers that the reader was at its end
while it waits for the writer to flush (`remember`), or polls the reader once more. A writer that takes
0 bytes is an error (`WriteZero`). -/
def Copying.step (P : PollWriter W) (remember : Bool) (c : Copying W) :
    Option (Except IoKind Nat) × Copying W :=
  if c.buf = [] then
    if remember && c.ended then c.flush P else
    match c.rest with
    | [] => Copying.flush P { c with ended := true }
    | .pending :: evs => (none, { c with rest := evs })
    | .err k :: evs => (some (.error k), { c with rest := evs })
    | .data bs :: evs =>
      if bs = [] then Copying.flush P { c with rest := evs, ended := true }
      else (none, { c with rest := evs, buf := bs })
  else
    match P.pollWrite c.buf c.w with
    | (.pending, w') => (none, { c with w := w' })
    | (.ready (.error k), w') => (some (.error k), { c with w := w' })
    | (.ready (.ok 0), w') => (some (.error .other), { c with w := w' })
    | (.ready (.ok (n + 1)), w') =>
      (none, { c with w := w', buf := c.buf.drop (n + 1), amt := c.amt + (n + 1),
                      got := c.got ++ c.buf.take (n + 1) })

/-- At most that many turns (src/client.rs:816): `none` if the future is not done then. -/
def Copying.run (P : PollWriter W) (remember : Bool) :
    Nat → Copying W → Option (Except IoKind Nat) × Copying W
  | 0, c => (none, c)
  | n + 1, c =>
    match c.step P remember with
    | (some r, c') => (some r, c')
    | (none, c') => Copying.run P remember n c'

end RustTuf
