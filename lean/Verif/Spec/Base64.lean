import Verif.Model.Basic

/-!
# base64 for URLs and file names (RFC 4648, section 5)
-/

namespace RustTuf.Spec

/-- The alphabet. -/
def base64Alphabet : Str :=
  "ABCDEFGHIJKLMNOPQRSTUVWXYZabcdefghijklmnopqrstuvwxyz0123456789-_".toList

/-- The lowest `w` bits of a number, the most significant first. -/
def bits : Nat → Nat → List Nat
  | 0, _ => []
  | w + 1, n => n / 2 ^ w % 2 :: bits w n

/-- The bits of the bytes, in order and filled up with zeros, are cut into groups of six; every group
is written as a symbol. The text is padded to a multiple of four. -/
structure IsBase64 (b : Bytes) (s : Str) : Prop where
  text : ∃ (ns : List Nat) (p k : Nat), s = ns.map (fun n => base64Alphabet[n]?.getD '?') ++ List.replicate p '=' ∧
    (∀ n ∈ ns, n < 64) ∧ p ≤ 2 ∧ k < 6 ∧
    ns.flatMap (bits 6) = b.flatMap (fun x => bits 8 x.toNat) ++ List.replicate k 0
  blocks : s.length % 4 = 0

end RustTuf.Spec
