import Verif.Model.Metadata

/-!
# Specification of DER as used for RSA keys
X.690 (lengths, integers), RFC 5958 (PKCS#8) and RFC 8017 (RSA keys), written without the readers and
writers of the model.
-/

namespace RustTuf.Spec

/-- The number that bytes stand for, the most significant first. -/
def bigEndian (b : Bytes) : Nat := b.foldl (fun n x => n * 256 + x.toNat) 0

/-- X.690 8.1.3, 10.1: the length of an element, in the shortest form. -/
def DerLength (n : Nat) (l : Bytes) : Prop :=
  (n < 128 ∧ ∃ x : UInt8, l = [x] ∧ x.toNat = n) ∨
  (128 ≤ n ∧ ∃ (x : UInt8) (b : Bytes), l = x :: b ∧ x.toNat = 128 + b.length ∧ bigEndian b = n ∧
    b.head? ≠ some 0)

/-- An element with this tag and content. -/
def Tlv (tag : UInt8) (content b : Bytes) : Prop :=
  ∃ l, DerLength content.length l ∧ b = tag :: l ++ content

/-- X.690 8.3: the content of an integer that is not negative: as many bytes as necessary, of which the
first has its highest bit clear. -/
structure DerNat (n : Nat) (b : Bytes) : Prop where
  value : bigEndian b = n
  clear : ∃ x r, b = x :: r ∧ x.toNat < 128
  short : ∀ y r, b = 0 :: y :: r → 128 ≤ y.toNat

/-- An integer that is not negative. -/
def DerInteger (n : Nat) (b : Bytes) : Prop := ∃ c, DerNat n c ∧ Tlv 0x02 c b

/-- RFC 8017 A.1.1: an RSA public key with modulus `n` and exponent `e`. -/
def RsaPublicKey (n e : Nat) (b : Bytes) : Prop :=
  ∃ bn be, DerInteger n bn ∧ DerInteger e be ∧ Tlv 0x30 (bn ++ be) b

/-- RFC 8017 A.1.2: an RSA private key with modulus `n` and public exponent `e`. The private numbers
follow. -/
def RsaPrivateKey (n e : Nat) (b : Bytes) : Prop :=
  ∃ v bn be rest, DerInteger 0 v ∧ DerInteger n bn ∧ DerInteger e be ∧
    Tlv 0x30 (v ++ bn ++ be ++ rest) b

/-- RFC 5958: the PKCS#8 form of an RSA private key, without attributes. The parameters of the
algorithm are a NULL with the content `null`, which should be empty. -/
def Pkcs8Rsa (n e : Nat) (null b : Bytes) : Prop :=
  ∃ v oid par alg key octets, DerInteger 0 v ∧
    Tlv 0x06 [0x2a, 0x86, 0x48, 0x86, 0xf7, 0x0d, 0x01, 0x01, 0x01] oid ∧ Tlv 0x05 null par ∧
    Tlv 0x30 (oid ++ par) alg ∧ RsaPrivateKey n e key ∧ Tlv 0x04 key octets ∧
    Tlv 0x30 (v ++ alg ++ octets) b

end RustTuf.Spec
