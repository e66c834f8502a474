import Verif.Model.Keys
import Verif.Spec.Der
import Verif.Spec.Signed
import Verif.Model.Verify

/-!
# Specification of signing
What is expected of `ring`, and which keys signed a document.
-/

namespace RustTuf.Spec
open Keys

/-- The scheme that goes with an algorithm. -/
def schemeOf : RsaAlg → Scheme
  | .sha256 => .rsaSsaPssSha256
  | .sha512 => .rsaSsaPssSha512

/-- `ring` accepts the signatures that it makes: with an Ed25519 pair under the public key it reports,
with an RSA key under the public key that has the same modulus and exponent. -/
structure RingLaw (R : Ring) (verify : Scheme → Bytes → Bytes → Bytes → Bool) : Prop where
  ed : ∀ k msg, verify .ed25519 (R.edPublic k) msg (R.edSign k msg) = true
  edLength : ∀ k, (R.edPublic k).length = 32
  rsa : ∀ d k n e null p a random msg s, R.rsaFromPkcs8 d = some k → 256 ≤ R.rsaModulusLen k →
    Pkcs8Rsa n e null d → RsaPublicKey n e p → R.rsaSign k a random msg = some s →
    verify (schemeOf a) p msg s = true

/-- Whatever the private key signs is a valid signature by the public key, filed under its ID. -/
def SignsFor (verify : Scheme → Bytes → Bytes → Bytes → Bool) (k : PrivateKey) (pub : PublicKey) :
    Prop :=
  k.publicKeyId = pub.keyId ∧
  pub.scheme ∈ [Scheme.ed25519, Scheme.rsaSsaPssSha256, Scheme.rsaSsaPssSha512] ∧
  ∀ msg s, k.sign msg = .ok s → s.keyId = pub.keyId ∧ verify pub.scheme pub.value msg s.value = true

variable {Raw : Type} [DecidableEq Raw]

/-- A builder for the content `raw` with which these keys have signed. -/
inductive BuiltWith (X : Interchange Raw) (raw : Raw) : List PrivateKey → SignedBuilder Raw → Prop
  | start (b) : SignedBuilder.fromRawMetadata X raw = .ok b → BuiltWith X raw [] b
  | sign (ks b k b') : BuiltWith X raw ks b → b.sign k = .ok b' → BuiltWith X raw (k :: ks) b'
  /-- the iteration order of the hash map is arbitrary -/
  | reorder (ks b l) : BuiltWith X raw ks b → l.Perm b.signatures →
      BuiltWith X raw ks { b with signatures := l }

/-- Signed metadata with the content `raw` that these keys have signed. -/
inductive SignedWith (X : Interchange Raw) (raw : Raw) : List PrivateKey → SignedMetadata Raw → Prop
  | build (ks b) : BuiltWith X raw ks b → SignedWith X raw ks b.build
  | new (k m) : SignedMetadata.new X raw k = .ok m → SignedWith X raw [k] m
  | add (ks m k m') : SignedWith X raw ks m → m.addSignature X k = (.ok (), m') →
      SignedWith X raw (k :: ks) m'
  | merge (ks ks' m other m') : SignedWith X raw ks m → SignedWith X raw ks' other →
      m.mergeSignatures other = (.ok (), m') → SignedWith X raw (ks ++ ks') m'

end RustTuf.Spec
