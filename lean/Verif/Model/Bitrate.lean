import Verif.Model.Readers
import Mathlib.Data.Int.Log
import Mathlib.Data.Rat.Floor

/-!
# `EnforceMinimumBitrate`
Floating point numbers are rationals with explicit rounding. All values that occur are zero or
between 2^-64 and 2^94, so neither overflow nor subnormal numbers arise.
-/

namespace RustTuf

/-- Nearest integer, ties to even. -/
def roundEven (x : ℚ) : ℤ :=
  let f := ⌊x⌋
  let r := x - f
  if r < 1 / 2 then f else if 1 / 2 < r then f + 1 else if f % 2 = 0 then f else f + 1

/-- IEEE 754 binary32 rounding (24 significant bits, to nearest, ties to even) of a non-negative
number. -/
def f32 (q : ℚ) : ℚ :=
  if q = 0 then 0
  else
    let ulp : ℚ := 2 ^ (Int.log 2 q - 23)
    roundEven (q / ulp) * ulp

/-- `Duration::as_secs_f32`: `(secs as f32) + (nanos as f32) / (1_000_000_000 as f32)`, each
operation rounded. The duration is given in nanoseconds. -/
def asSecsF32 (ns : Nat) : ℚ :=
  f32 (f32 ((ns / 1000000000 : Nat) : ℚ) +
    f32 (f32 ((ns % 1000000000 : Nat) : ℚ) / f32 ((1000000000 : Nat) : ℚ)))

/-- src/util.rs:94: `(bytes_read as f32) / duration.as_secs_f32() < min as f32`. -/
def tooSlow (bytes ns min : Nat) : Bool :=
  decide (f32 (f32 (bytes : ℚ) / asSecsF32 ns) < f32 (min : ℚ))

/-- src/util.rs:50-55 `EnforceMinimumBitrate`, without the inner reader. -/
structure Bitrate where
  min : Nat
  start : Option Nat
  bytesRead : Nat
deriving DecidableEq, Repr

/-- src/util.rs:57-67 `EnforceMinimumBitrate::new`. -/
def Bitrate.new (min : Nat) : Bitrate := ⟨min, none, 0⟩

/-- src/util.rs:69-70 `BITRATE_GRACE_PERIOD` in nanoseconds. -/
def graceNs : Nat := 30000000000

/-- src/util.rs:74-105 `EnforceMinimumBitrate::poll_read`, given what the inner reader returns, the
instant of line 83 and the instant of line 92 (nanoseconds). `bytes_read` is a `u64` in the code;
the model does not bound it. -/
def Bitrate.poll (b : Bitrate) (ev : Ev) (t1 t2 : Nat) : Ev × Bitrate :=
  match ev with
  -- 81
  | .pending => (.pending, b)
  | .err k => (.err k, b)
  | .data bs =>
    -- 83
    let start := b.start.getD t1
    -- 85-87
    if bs = [] then (.data [], { b with start := some start })
    else
      -- 89-104
      let b' : Bitrate := { b with start := some start, bytesRead := b.bytesRead + bs.length }
      let duration := t2 - start
      if graceNs ≤ duration then
        if tooSlow b'.bytesRead duration b.min then (.err .timedOut, b') else (.data bs, b')
      else (.data bs, b')

/-- A sequence of polls: results, and the state after it. -/
def Bitrate.run (b : Bitrate) : List (Ev × Nat × Nat) → List Ev × Bitrate
  | [] => ([], b)
  | (ev, t1, t2) :: rest =>
    let r := b.poll ev t1 t2
    let rr := Bitrate.run r.2 rest
    (r.1 :: rr.1, rr.2)

end RustTuf
