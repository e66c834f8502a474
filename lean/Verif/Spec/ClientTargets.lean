import Verif.Spec.Client
import Verif.Spec.Readers

/-!
# Specification of target downloads
-/

namespace RustTuf.Spec

/-- All bytes handed to the caller's writer in a record. -/
def written : List LogEntry → Bytes
  | [] => []
  | .wrote b :: l => b ++ written l
  | _ :: l => written l

/-- The trusted top-level targets metadata lists `d` for the caller's path. -/
def TopEntry (cfg : Config) (t : Tuf) (path : TargetPath) (d : TargetDescription) : Prop :=
  ∃ virt ta, cfg.realToVirtual path = .ok virt ∧ t.targets = some ta ∧ ta.targets.get? virt = some d

/-- The content is what the description announces: not longer, and with the listed digest of the
preferred algorithm. -/
def Matches (D : Digest) (d : TargetDescription) (content : Bytes) : Prop :=
  ∃ a v, Preferred d.hashes a v ∧ content.length ≤ d.length ∧ D a content = v

/-- The local repository keeps targets faithfully (`get` reads the current content): a store that
reports success has kept everything its source delivered and the source ended normally; a store that
reports an error has changed nothing; other targets and other operations do not interfere. This is
what `Props/FileStore` proves about single stores in the file system repository and `Props/Ephemeral`
about the in-memory repository. -/
structure KeepsTargets {W : Type} (R : World W) (get : W → TargetPath → Option Bytes) : Prop where
  ok : ∀ evs p w w', R.storeTarget evs p w = (.ok (), w') →
    ∃ bs, delivered evs = (bs, .eof) ∧ get w' p = some bs ∧ ∀ q, q ≠ p → get w' q = get w q
  error : ∀ evs p w e w', R.storeTarget evs p w = (.error e, w') → get w' = get w
  metas : ∀ p v b w, get (R.storeMetadata p v b w).2 = get w
  fetch : ∀ src p v m h w, get ((R.provider src).fetchMetadata p v m h w).2 = get w
  target : ∀ p d w, get (R.remote.fetchTarget p d w).2 = get w
  clock : ∀ w, get (R.clock w).2 = get w

/-- `role` is `n` delegations below the top-level targets of `t`, as far as a client with record `l`
has seen: it is delegated to by the top-level targets, or by metadata that was trusted at some moment
of the record for a role one level higher. -/
inductive Depth (E : Env) (t : Tuf) (l : List LogEntry) : Nat → MetadataPath → Prop
  | top (ta : TargetsMetadata) (ds : Delegations) (d : Delegation) :
      t.targets = some ta → ta.delegations = some ds → d ∈ ds.roles → Depth E t l 1 d.role
  | deeper (n : Nat) (role : MetadataPath) (pre post : List LogEntry) (m : TargetsMetadata)
      (ds : Delegations) (d : Delegation) :
      Depth E t l n role → l = pre ++ post → (after E t pre).delegations.get? role = some m →
      m.delegations = some ds → d ∈ ds.roles → Depth E t l (n + 1) d.role

end RustTuf.Spec
