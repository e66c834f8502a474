import Verif.Model.Basic

/-!
# SHA-256 and SHA-512 (FIPS 180-4)
Not part of the model, in which digests are parameters. They make the model executable, so that it can
be compared with the test data of the crate.
-/

namespace RustTuf.Conformance

/-- Everything that differs between SHA-256 and SHA-512. -/
structure Sha2 where
  /-- bits of a word -/
  bits : Nat
  k : List Nat
  h : List Nat
  bigSigma0 : Nat × Nat × Nat
  bigSigma1 : Nat × Nat × Nat
  /-- two rotations and a shift -/
  sigma0 : Nat × Nat × Nat
  sigma1 : Nat × Nat × Nat

namespace Sha2
variable (S : Sha2)

def add (x y : Nat) : Nat := (x + y) % 2 ^ S.bits
def rotr (n x : Nat) : Nat := (x >>> n) ||| ((x <<< (S.bits - n)) % 2 ^ S.bits)
def complement (x : Nat) : Nat := 2 ^ S.bits - 1 - x
def big (r : Nat × Nat × Nat) (x : Nat) : Nat := S.rotr r.1 x ^^^ S.rotr r.2.1 x ^^^ S.rotr r.2.2 x
def small (r : Nat × Nat × Nat) (x : Nat) : Nat := S.rotr r.1 x ^^^ S.rotr r.2.1 x ^^^ (x >>> r.2.2)
def ch (x y z : Nat) : Nat := (x &&& y) ^^^ (S.complement x &&& z)
def maj (x y z : Nat) : Nat := (x &&& y) ^^^ (x &&& z) ^^^ (y &&& z)

/-- The message schedule, the last word first. -/
def schedule : Nat → List Nat → List Nat
  | 0, w => w
  | n + 1, w =>
    let at' := fun i => w.getD i 0
    schedule n (S.add (S.add (S.small S.sigma1 (at' 1)) (at' 6))
      (S.add (S.small S.sigma0 (at' 14)) (at' 15)) :: w)

def round (s : List Nat) (kw : Nat × Nat) : List Nat :=
  match s with
  | [a, b, c, d, e, f, g, h] =>
    let t1 := S.add (S.add (S.add h (S.big S.bigSigma1 e)) (S.add (S.ch e f g) kw.1)) kw.2
    let t2 := S.add (S.big S.bigSigma0 a) (maj a b c)
    [S.add t1 t2, a, b, c, S.add d t1, e, f, g]
  | s => s

def compress (s : List Nat) (block : List Nat) : List Nat :=
  let w := (S.schedule (S.k.length - 16) block.reverse).reverse
  List.zipWith S.add s ((S.k.zip w).foldl S.round s)

/-- A number as big-endian bytes. -/
def toBytes : Nat → Nat → Bytes
  | 0, _ => []
  | n + 1, x => toBytes n (x / 256) ++ [(x % 256).toUInt8]

def ofBytes (b : Bytes) : Nat := b.foldl (fun n x => 256 * n + x.toNat) 0

/-- Cut into pieces of `n` (`fuel` bounds their number). -/
def pieces {α : Type} (n : Nat) : Nat → List α → List (List α)
  | 0, _ => []
  | _, [] => []
  | fuel + 1, l => l.take n :: pieces n fuel (l.drop n)

def pad (b : Bytes) : Bytes :=
  let size := S.bits * 2
  let len := S.bits / 4
  b ++ 0x80 :: List.replicate ((2 * size - (b.length + 1 + len) % size) % size) 0 ++ toBytes len (8 * b.length)

def digest (b : Bytes) : Bytes :=
  let words := (pieces (S.bits / 8) (b.length + 256) (S.pad b)).map ofBytes
  (((pieces 16 words.length words).foldl S.compress S.h).map (toBytes (S.bits / 8))).flatten

end Sha2

def sha2_256 : Sha2 where
  bits := 32
  k := [
    0x428a2f98, 0x71374491, 0xb5c0fbcf, 0xe9b5dba5, 0x3956c25b, 0x59f111f1, 0x923f82a4, 0xab1c5ed5,
    0xd807aa98, 0x12835b01, 0x243185be, 0x550c7dc3, 0x72be5d74, 0x80deb1fe, 0x9bdc06a7, 0xc19bf174,
    0xe49b69c1, 0xefbe4786, 0x0fc19dc6, 0x240ca1cc, 0x2de92c6f, 0x4a7484aa, 0x5cb0a9dc, 0x76f988da,
    0x983e5152, 0xa831c66d, 0xb00327c8, 0xbf597fc7, 0xc6e00bf3, 0xd5a79147, 0x06ca6351, 0x14292967,
    0x27b70a85, 0x2e1b2138, 0x4d2c6dfc, 0x53380d13, 0x650a7354, 0x766a0abb, 0x81c2c92e, 0x92722c85,
    0xa2bfe8a1, 0xa81a664b, 0xc24b8b70, 0xc76c51a3, 0xd192e819, 0xd6990624, 0xf40e3585, 0x106aa070,
    0x19a4c116, 0x1e376c08, 0x2748774c, 0x34b0bcb5, 0x391c0cb3, 0x4ed8aa4a, 0x5b9cca4f, 0x682e6ff3,
    0x748f82ee, 0x78a5636f, 0x84c87814, 0x8cc70208, 0x90befffa, 0xa4506ceb, 0xbef9a3f7, 0xc67178f2]
  h := [
    0x6a09e667, 0xbb67ae85, 0x3c6ef372, 0xa54ff53a, 0x510e527f, 0x9b05688c, 0x1f83d9ab, 0x5be0cd19]
  bigSigma0 := (2, 13, 22)
  bigSigma1 := (6, 11, 25)
  sigma0 := (7, 18, 3)
  sigma1 := (17, 19, 10)

def sha2_512 : Sha2 where
  bits := 64
  k := [
    0x428a2f98d728ae22, 0x7137449123ef65cd, 0xb5c0fbcfec4d3b2f, 0xe9b5dba58189dbbc,
    0x3956c25bf348b538, 0x59f111f1b605d019, 0x923f82a4af194f9b, 0xab1c5ed5da6d8118,
    0xd807aa98a3030242, 0x12835b0145706fbe, 0x243185be4ee4b28c, 0x550c7dc3d5ffb4e2,
    0x72be5d74f27b896f, 0x80deb1fe3b1696b1, 0x9bdc06a725c71235, 0xc19bf174cf692694,
    0xe49b69c19ef14ad2, 0xefbe4786384f25e3, 0x0fc19dc68b8cd5b5, 0x240ca1cc77ac9c65,
    0x2de92c6f592b0275, 0x4a7484aa6ea6e483, 0x5cb0a9dcbd41fbd4, 0x76f988da831153b5,
    0x983e5152ee66dfab, 0xa831c66d2db43210, 0xb00327c898fb213f, 0xbf597fc7beef0ee4,
    0xc6e00bf33da88fc2, 0xd5a79147930aa725, 0x06ca6351e003826f, 0x142929670a0e6e70,
    0x27b70a8546d22ffc, 0x2e1b21385c26c926, 0x4d2c6dfc5ac42aed, 0x53380d139d95b3df,
    0x650a73548baf63de, 0x766a0abb3c77b2a8, 0x81c2c92e47edaee6, 0x92722c851482353b,
    0xa2bfe8a14cf10364, 0xa81a664bbc423001, 0xc24b8b70d0f89791, 0xc76c51a30654be30,
    0xd192e819d6ef5218, 0xd69906245565a910, 0xf40e35855771202a, 0x106aa07032bbd1b8,
    0x19a4c116b8d2d0c8, 0x1e376c085141ab53, 0x2748774cdf8eeb99, 0x34b0bcb5e19b48a8,
    0x391c0cb3c5c95a63, 0x4ed8aa4ae3418acb, 0x5b9cca4f7763e373, 0x682e6ff3d6b2b8a3,
    0x748f82ee5defb2fc, 0x78a5636f43172f60, 0x84c87814a1f0ab72, 0x8cc702081a6439ec,
    0x90befffa23631e28, 0xa4506cebde82bde9, 0xbef9a3f7b2c67915, 0xc67178f2e372532b,
    0xca273eceea26619c, 0xd186b8c721c0c207, 0xeada7dd6cde0eb1e, 0xf57d4f7fee6ed178,
    0x06f067aa72176fba, 0x0a637dc5a2c898a6, 0x113f9804bef90dae, 0x1b710b35131c471b,
    0x28db77f523047d84, 0x32caab7b40c72493, 0x3c9ebe0a15c9bebc, 0x431d67c49c100d4c,
    0x4cc5d4becb3e42b6, 0x597f299cfc657e2a, 0x5fcb6fab3ad6faec, 0x6c44198c4a475817]
  h := [
    0x6a09e667f3bcc908, 0xbb67ae8584caa73b, 0x3c6ef372fe94f82b, 0xa54ff53a5f1d36f1,
    0x510e527fade682d1, 0x9b05688c2b3e6c1f, 0x1f83d9abfb41bd6b, 0x5be0cd19137e2179]
  bigSigma0 := (28, 34, 39)
  bigSigma1 := (14, 18, 41)
  sigma0 := (1, 8, 7)
  sigma1 := (19, 61, 6)

def sha256 (b : Bytes) : Bytes := sha2_256.digest b
def sha512 (b : Bytes) : Bytes := sha2_512.digest b

end RustTuf.Conformance
