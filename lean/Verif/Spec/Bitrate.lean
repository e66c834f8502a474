import Verif.Model.Bitrate
import Verif.Spec.Readers

/-! When a transfer began, how much was read, and when it is fast enough. A transfer is a list of read
results, each with the instant at which the first check and the second check read the clock. -/

namespace RustTuf.Spec

/-- Duration in seconds. -/
def secs (ns : Nat) : ℚ := (ns : ℚ) / 1000000000

/-- Instant of the first read that returned (data or end). -/
def began : List (Ev × Nat × Nat) → Option Nat
  | [] => none
  | (.data _, t, _) :: _ => some t
  | _ :: rest => began rest

/-- Bytes the source delivered. -/
def received : List (Ev × Nat × Nat) → Nat
  | [] => 0
  | (.data bs, _, _) :: rest => bs.length + received rest
  | _ :: rest => received rest

/-- Whenever data arrives, the transfer is less than 30 seconds old, or what has arrived so far,
reduced by the tolerance of C50, is as much as the minimum rate asks for. -/
def Brisk (min : Nat) (polls : List (Ev × Nat × Nat)) : Prop :=
  ∀ history bs t1 t2 rest, polls = history ++ (.data bs, t1, t2) :: rest →
    secs (t2 - (began history).getD t1) < 30 ∨
    (min : ℚ) * secs (t2 - (began history).getD t1) ≤
      ((received history + bs.length : Nat) : ℚ) * (1 - 1 / 2097152)

end RustTuf.Spec
