import Verif.Model.Tuf

/-!
# Specification of signature thresholds
Written without the functions used by the model of `verify_signatures` (no maps, no counting loop)
and without those that select the keys of a role.
-/

namespace RustTuf.Spec

/-- `x` is the last element of `l` with property `p`. -/
def LastWith {α : Type} (p : α → Prop) (l : List α) (x : α) : Prop :=
  p x ∧ ∃ pre post, l = pre ++ x :: post ∧ ∀ y ∈ post, ¬ p y

/-- A signature is valid: the scheme of the key is a supported one and the primitive for that scheme
accepts. -/
def Valid (E : Env) (k : PublicKey) (msg : Bytes) (s : Signature) : Prop :=
  k.scheme ∈ [Scheme.ed25519, Scheme.rsaSsaPssSha256, Scheme.rsaSsaPssSha512] ∧
  E.ringVerify k.scheme k.value msg s.value = true

/-- The document `raw` has signed part with canonical form `msg`, and at least `n ≥ 1` different key
IDs have an authorised key whose listed signature is valid over `msg`. If a key ID occurs several
times in the signature list (or in the key list) the last occurrence counts. -/
def SignedBy (E : Env) (raw msg : Bytes) (n : Nat) (keys : List PublicKey) : Prop :=
  1 ≤ n ∧ ∃ sigs signed,
    E.parseSigned raw = .ok (sigs, signed) ∧
    E.canonicalize signed = .ok msg ∧
    ∃ ids : List KeyId, ids.Nodup ∧ n ≤ ids.length ∧
      ∀ id ∈ ids, ∃ k s,
        LastWith (fun k : PublicKey => k.keyId = id) keys k ∧
        LastWith (fun s : Signature => s.keyId = id) sigs s ∧
        Valid E k msg s

/-- `raw` is an authentic document with content `m`: enough signatures over the bytes `m` is
decoded from. -/
def Authentic (E : Env) {M : Type} (decode : Bytes → Except Err M) (raw : Bytes) (n : Nat)
    (keys : List PublicKey) (m : M) : Prop :=
  ∃ msg, SignedBy E raw msg n keys ∧ decode msg = .ok m

/-- The keys that a map lists under one of these IDs. -/
def keysFor (keys : Map KeyId PublicKey) (ids : List KeyId) : List PublicKey :=
  keys.filterMap fun p => if ids.contains p.1 then some p.2 else none

/-- The keys with which a root says that roots are signed. -/
def rootSigners (r : RootMetadata) : List PublicKey := keysFor r.keys r.root.keyIds
/-- The keys with which a root says that snapshots are signed. -/
def snapshotSigners (r : RootMetadata) : List PublicKey := keysFor r.keys r.snapshot.keyIds
/-- The keys with which a root says that targets metadata is signed. -/
def targetsSigners (r : RootMetadata) : List PublicKey := keysFor r.keys r.targets.keyIds
/-- The keys with which a root says that timestamps are signed. -/
def timestampSigners (r : RootMetadata) : List PublicKey := keysFor r.keys r.timestamp.keyIds

end RustTuf.Spec
