import Verif.Model.Metadata
import Verif.Model.Http
import Verif.Spec.FilePath

/-!
# What decoded metadata looks like
-/

namespace RustTuf.Spec

/-- A key ID has 64 bytes. -/
def IsKeyId (s : KeyId) : Prop := (utf8 s).length = 64

/-- Some set of distinct key IDs, at least one and at most all of which must sign. -/
structure GoodRole (threshold : Nat) (ids : List KeyId) : Prop where
  least : 1 ≤ threshold
  most : threshold ≤ ids.length
  nodup : ids.Nodup
  ids : ∀ i ∈ ids, IsKeyId i

/-- Versions are positive and fit `u32`. -/
def GoodVersion (n : Nat) : Prop := 1 ≤ n ∧ n < 2 ^ 32

/-- A description names at least one digest, no algorithm twice and only known algorithms. -/
structure GoodHashes (h : Map HashAlg HashValue) : Prop where
  nonempty : h ≠ []
  nodup : (h.map Prod.fst).Nodup
  known : ∀ p ∈ h, p.1 = .sha256 ∨ p.1 = .sha512

structure GoodDescription (d : MetadataDescription) : Prop where
  version : GoodVersion d.version
  length : d.length < 2 ^ 64
  hashes : GoodHashes d.hashes

structure GoodTarget (d : TargetDescription) : Prop where
  length : d.length < 2 ^ 64
  hashes : GoodHashes d.hashes

structure GoodRoot (r : RootMetadata) : Prop where
  version : GoodVersion r.version
  root : GoodRole r.root.threshold r.root.keyIds
  snapshot : GoodRole r.snapshot.threshold r.snapshot.keyIds
  targets : GoodRole r.targets.threshold r.targets.keyIds
  timestamp : GoodRole r.timestamp.threshold r.timestamp.keyIds
  /-- no key ID twice -/
  keys : (r.keys.map Prod.fst).Nodup
  /-- every key is listed under its own ID -/
  own : ∀ p ∈ r.keys, p.1 = p.2.keyId

structure GoodTimestamp (m : TimestampMetadata) : Prop where
  version : GoodVersion m.version
  snapshot : GoodDescription m.snapshot

structure GoodSnapshot (m : SnapshotMetadata) : Prop where
  version : GoodVersion m.version
  metas : ∀ p ∈ m.metas, GoodDescription p.2
  nodup : (m.metas.map Prod.fst).Nodup

structure GoodDelegation (d : Delegation) : Prop where
  role : GoodRole d.threshold d.keyIds
  paths : d.paths ≠ []
  nodup : d.paths.Nodup

structure GoodDelegations (d : Delegations) : Prop where
  keys : (d.keys.map Prod.fst).Nodup
  roles : ∀ r ∈ d.roles, GoodDelegation r
  names : (d.roles.map Delegation.role).Nodup
  some_key : d.keys ≠ []
  some_role : d.roles ≠ []

structure GoodTargets (m : TargetsMetadata) : Prop where
  version : GoodVersion m.version
  targets : ∀ p ∈ m.targets, GoodTarget p.2
  nodup : (m.targets.map Prod.fst).Nodup
  delegations : ∀ d, m.delegations = some d → GoodDelegations d

/-- A name that can be appended to a directory without leaving it. -/
structure SafeName (s : Str) : Prop where
  nonempty : s ≠ []
  relative : s.head? ≠ some '/'
  pieces : ∀ c ∈ pieces s, Harmless c

/-- All names in targets metadata. -/
structure SafeTargets (m : TargetsMetadata) : Prop where
  targets : ∀ p ∈ m.targets, SafeName p.1
  roles : ∀ d, m.delegations = some d → ∀ r ∈ d.roles, SafeName r.role
  paths : ∀ d, m.delegations = some d → ∀ r ∈ d.roles, ∀ p ∈ r.paths, SafeName p

end RustTuf.Spec
