import Verif.Model.Readers

/-! What a source delivers, independent of chunking. -/

namespace RustTuf.Spec

/-- How a source ends: normally or with an error. -/
inductive Ending where
  | eof | error (k : IoKind)
deriving DecidableEq, Repr

/-- The bytes before the first end or error, and how the source ends. -/
def delivered : List Ev → Bytes × Ending
  | [] => ([], .eof)
  | .pending :: evs => delivered evs
  | .err k :: _ => ([], .error k)
  | .data bs :: evs => if bs = [] then ([], .eof) else (bs ++ (delivered evs).1, (delivered evs).2)

/-- Bytes handed to the consumer in a sequence of poll results. -/
def handedOut : List Ev → Bytes
  | [] => []
  | .data bs :: evs => bs ++ handedOut evs
  | _ :: evs => handedOut evs

/-- The outcome of a complete checked read, as a function of what the source delivers. -/
def checkedRead (D : Digest) (max : Nat) (expect : Option (HashAlg × HashValue)) :
    Bytes × Ending → Except IoKind Bytes
  | (bs, ending) =>
    if bs.length > max then .error .invalidData
    else match ending with
      | .error k => .error k
      | .eof =>
        match expect with
        | none => .ok bs
        | some (alg, v) => if D alg bs = v then .ok bs else .error .invalidData

end RustTuf.Spec
