import Verif.Spec.Trust

/-!
# Signatures under the key IDs that a role names
-/

namespace RustTuf.Spec

/-- The document `raw`, with canonical signed part `msg`, has valid signatures under at least `n ≥ 1`
different key IDs out of `ids`, each by a key with this ID. -/
def SignedUnder (E : Env) (raw msg : Bytes) (n : Nat) (ids : List KeyId) : Prop :=
  1 ≤ n ∧ ∃ sigs signed, E.parseSigned raw = .ok (sigs, signed) ∧ E.canonicalize signed = .ok msg ∧
    ∃ named : List KeyId, named.Nodup ∧ n ≤ named.length ∧
      ∀ id ∈ named, id ∈ ids ∧ ∃ k s, k.keyId = id ∧ s ∈ sigs ∧ s.keyId = id ∧ Valid E k msg s

/-- `m` was read from a document with enough signatures under these key IDs. -/
def ComesFrom (E : Env) {M : Type} (decode : Bytes → Except Err M) (n : Nat) (ids : List KeyId)
    (m : M) : Prop :=
  ∃ raw msg, SignedUnder E raw msg n ids ∧ decode msg = .ok m

end RustTuf.Spec
