import Verif.Conformance.Sha2

/-!
# Verification of Ed25519 signatures (RFC 8032)
Not part of the model, in which the verification of signatures is a parameter. As `ring` does, this
compares the encoding of `[s]B - [h]A` with the first half of the signature.
-/

namespace RustTuf.Conformance.Ed25519

def p : Nat := 2 ^ 255 - 19
/-- The order of the base point. -/
def order : Nat := 2 ^ 252 + 27742317777372353535851937790883648493

/-- `b ^ e` modulo `p`; `fuel` is at least the number of bits of `e`. -/
def power : Nat → Nat → Nat → Nat
  | 0, _, _ => 1
  | fuel + 1, b, e =>
    if e = 0 then 1
    else
      let h := power fuel (b * b % p) (e / 2)
      if e % 2 = 1 then h * b % p else h

def pow (b e : Nat) : Nat := power 256 (b % p) e
def inv (x : Nat) : Nat := pow x (p - 2)
def sub (x y : Nat) : Nat := (x + p - y % p) % p
def d : Nat := sub 0 (121665 * inv 121666)

/-- Extended coordinates: x = X/Z, y = Y/Z, x·y = T/Z. -/
structure Point where
  x : Nat
  y : Nat
  z : Nat
  t : Nat

def zero : Point := ⟨0, 1, 1, 0⟩

def add (a b : Point) : Point :=
  let A := sub a.y a.x * sub b.y b.x % p
  let B := (a.y + a.x) * (b.y + b.x) % p
  let C := 2 * a.t * b.t * d % p
  let D := 2 * a.z * b.z % p
  let E := sub B A
  let F := sub D C
  let G := (D + C) % p
  let H := (B + A) % p
  ⟨E * F % p, G * H % p, F * G % p, E * H % p⟩

def neg (a : Point) : Point := ⟨sub 0 a.x, a.y, a.z, sub 0 a.t⟩

/-- `[n]a`; `fuel` is at least the number of bits of `n`. -/
def mul : Nat → Nat → Point → Point
  | 0, _, _ => zero
  | fuel + 1, n, a =>
    if n = 0 then zero
    else
      let h := mul fuel (n / 2) (add a a)
      if n % 2 = 1 then add h a else h

def ofLittle (b : Bytes) : Nat := b.foldr (fun x n => x.toNat + 256 * n) 0
def toLittle (x : Nat) : Bytes := (Sha2.toBytes 32 x).reverse

/-- The point with the given y coordinate and sign of x. -/
def decompress (b : Bytes) : Option Point :=
  let n := ofLittle b
  let y := n % 2 ^ 255
  let sign := n / 2 ^ 255
  let u := sub (y * y) 1
  let v := (d * (y * y % p) + 1) % p
  let r := u * pow v 3 * pow (u * pow v 7) ((p - 5) / 8) % p
  let check := v * (r * r % p) % p
  let x := if check = u then some r else if check = sub 0 u then some (r * pow 2 ((p - 1) / 4) % p) else none
  match x with
  | none => none
  | some x =>
    if b.length ≠ 32 ∨ y ≥ p ∨ (x = 0 ∧ sign = 1) then none
    else
      let x := if x % 2 = sign then x else sub 0 x
      some ⟨x, y, 1, x * y % p⟩

def compress (a : Point) : Bytes :=
  let z := inv a.z
  let x := a.x * z % p
  let y := a.y * z % p
  toLittle (y + (x % 2) * 2 ^ 255)

def base : Point := (decompress (toLittle (4 * inv 5 % p))).getD zero

def verify (key msg sig : Bytes) : Bool :=
  match decompress key with
  | none => false
  | some a =>
    let r := sig.take 32
    let s := ofLittle (sig.drop 32)
    let h := ofLittle (sha512 (r ++ key ++ msg)) % order
    sig.length == 64 && s < order && compress (add (mul 256 s base) (mul 256 h (neg a))) == r

end RustTuf.Conformance.Ed25519
