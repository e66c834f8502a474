import Verif.Spec.RoundTrip
import Verif.Spec.Signed

/-!
# Lists that stand for hash maps and sets
-/

namespace RustTuf.Spec

/-- A hash map holds no key twice. -/
def MapLike {K V : Type} (m : Map K V) : Prop := (m.map Prod.fst).Nodup

def RootMaps (r : RootMetadata) : Prop := MapLike r.keys

def TimestampMaps (m : TimestampMetadata) : Prop := MapLike m.snapshot.hashes

structure SnapshotMaps (m : SnapshotMetadata) : Prop where
  metas : MapLike m.metas
  hashes : ∀ p ∈ m.metas, MapLike p.2.hashes

structure TargetsMaps (m : TargetsMetadata) : Prop where
  targets : MapLike m.targets
  hashes : ∀ p ∈ m.targets, MapLike p.2.hashes
  custom : ∀ p ∈ m.targets, ∀ c, p.2.custom = some c → MapLike c
  keys : ∀ d, m.delegations = some d → MapLike d.keys
  sets : ∀ d, m.delegations = some d → ∀ r ∈ d.roles, r.keyIds.Nodup ∧ r.paths.Nodup

/-- `sign` with one key after the other. -/
def signAll {Raw : Type} (b : SignedBuilder Raw) : List PrivateKey → Except Err (SignedBuilder Raw)
  | [] => .ok b
  | k :: ks =>
    match b.sign k with
    | .error e => .error e
    | .ok b => signAll b ks

end RustTuf.Spec
