import Verif.Model.Signed

/-! Signed metadata a program can make from its own keys. -/

namespace RustTuf.Spec
variable {Raw : Type}

/-- At most one signature for each key ID. -/
def OnePerKey (m : SignedMetadata Raw) : Prop := (m.signatures.map Signature.keyId).Nodup

/-- A key whose signatures carry its own key ID. -/
def PrivateKey.Own (k : PrivateKey) : Prop := ∀ msg s, k.sign msg = .ok s → s.keyId = k.publicKeyId

/-- Builders that a program can hold. -/
inductive MadeBuilder (X : Interchange Raw) : SignedBuilder Raw → Prop
  | start (raw b) : SignedBuilder.fromRawMetadata X raw = .ok b → MadeBuilder X b
  | sign (b k b') : MadeBuilder X b → PrivateKey.Own k → b.sign k = .ok b' → MadeBuilder X b'
  /-- the iteration order of the hash map is arbitrary -/
  | reorder (b l) : MadeBuilder X b → l.Perm b.signatures → MadeBuilder X { b with signatures := l }

/-- Signed metadata that a program can make from keys, without parsing any. -/
inductive Made [DecidableEq Raw] (X : Interchange Raw) : SignedMetadata Raw → Prop
  | build (b) : MadeBuilder X b → Made X b.build
  | new (raw k m) : PrivateKey.Own k → SignedMetadata.new X raw k = .ok m → Made X m
  | add (m k) : Made X m → PrivateKey.Own k → Made X (m.addSignature X k).2
  | merge (m other) : Made X m → Made X other → Made X (m.mergeSignatures other).2

end RustTuf.Spec
