import Mathlib.Data.List.Forall2
import Verif.Model.Shims
import Verif.Spec.Decoded

/-!
# When are two metadata records the same?
Rust compares hash maps and hash sets without regard to order.
-/

namespace RustTuf.Spec

/-- Two hash maps with the same keys and related values. -/
structure SameMap {K V : Type} [DecidableEq K] (R : V → V → Prop) (a b : Map K V) : Prop where
  there : ∀ k v, a.get? k = some v → ∃ w, b.get? k = some w ∧ R v w
  none : ∀ k, a.get? k = none → b.get? k = none

/-- Two hash sets, given by lists without repetition. -/
def SameSet {α : Type} (a b : List α) : Prop := b.Nodup ∧ a.length = b.length ∧ ∀ x, x ∈ a ↔ x ∈ b

structure SameRoot (a b : RootMetadata) : Prop where
  version : a.version = b.version
  expires : a.expires = b.expires
  consistent : a.consistentSnapshot = b.consistentSnapshot
  keys : SameMap Eq a.keys b.keys
  root : a.root = b.root
  snapshot : a.snapshot = b.snapshot
  targets : a.targets = b.targets
  timestamp : a.timestamp = b.timestamp

structure SameDescription (a b : MetadataDescription) : Prop where
  version : a.version = b.version
  length : a.length = b.length
  hashes : SameMap Eq a.hashes b.hashes

structure SameTimestamp (a b : TimestampMetadata) : Prop where
  version : a.version = b.version
  expires : a.expires = b.expires
  snapshot : SameDescription a.snapshot b.snapshot

structure SameSnapshot (a b : SnapshotMetadata) : Prop where
  version : a.version = b.version
  expires : a.expires = b.expires
  metas : SameMap SameDescription a.metas b.metas

/-- Custom members: both absent, or the same. -/
def SameCustom : Option (Map Str Json) → Option (Map Str Json) → Prop
  | none, none => True
  | some a, some b => SameMap Eq a b
  | _, _ => False

structure SameTarget (a b : TargetDescription) : Prop where
  length : a.length = b.length
  hashes : SameMap Eq a.hashes b.hashes
  custom : SameCustom a.custom b.custom

structure SameDelegation (a b : Delegation) : Prop where
  role : a.role = b.role
  terminating : a.terminating = b.terminating
  threshold : a.threshold = b.threshold
  keyIds : SameSet a.keyIds b.keyIds
  paths : SameSet a.paths b.paths

structure SameDelegations (a b : Delegations) : Prop where
  keys : SameMap Eq a.keys b.keys
  roles : List.Forall₂ SameDelegation a.roles b.roles

structure SameTargets (a b : TargetsMetadata) : Prop where
  version : a.version = b.version
  expires : a.expires = b.expires
  targets : SameMap SameTarget a.targets b.targets
  delegations : Option.Rel SameDelegations a.delegations b.delegations

/-- The key can be written in the SPKI format and read back. -/
def SpkiReadable (X : ShimLib) (t : KeyType) (v : Bytes) : Prop :=
  ∃ d, X.writeSpki t v = some d ∧ X.readSpki d = some (t, v)

/-- What the two key formats of the libraries owe: base64 can be read back; a key that was read in
the SPKI format can be written in it and read again. (Writing an arbitrary key need not give
something readable: derp refuses to read lengths above 65535.) -/
structure Laws (X : ShimLib) : Prop where
  base64 : ∀ b, X.base64Decode (X.base64Encode b) = some b
  spki : ∀ t v d, X.readSpki d = some (t, v) → SpkiReadable X t v

/-- A key as it can be listed in metadata: its ID is the computed one, an Ed25519 key has 32 bytes
and the matching scheme, any other key is an RSA key that survives the SPKI format. -/
structure GoodKey (X : ShimLib) (k : PublicKey) : Prop where
  id : calculateKeyId X k.typ k.scheme k.keyidHashAlgorithms k.value = some k.keyId
  kind : (k.typ = .ed25519 ∧ k.scheme = .ed25519 ∧ k.value.length = 32) ∨
    (k.typ = .rsa ∧ SpkiReadable X .rsa k.value)

/-- The date survives being written and read. -/
def GoodDate (X : ShimLib) (t : Time) : Prop := X.parseDate (X.formatDate t) = some t

end RustTuf.Spec
