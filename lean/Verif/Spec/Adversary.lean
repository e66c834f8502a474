import Verif.Spec.Trust

/-!
# Specification of attacks
The attacker has all private keys but those of honest key holders, and controls the repositories, the
network, the clock and the local files. Honest key holders sign only what the author approves of.
-/

namespace RustTuf.Spec

/-- Key holders are honest and their signatures are not forged: a valid signature of an honest key is
over something the author approves of. Keys are given by scheme and value. -/
def Unforgeable (E : Env) (honest : Scheme → Bytes → Prop) (author : Bytes → Prop) : Prop :=
  ∀ scheme value msg sig, honest scheme value → E.ringVerify scheme value msg sig = true → author msg

/-- Fewer than `n` of the key IDs belong to keys that the attacker has. -/
def Guarded (honest : Scheme → Bytes → Prop) (n : Nat) (keys : List PublicKey) : Prop :=
  ∀ ids : List KeyId, ids.Nodup →
    (∀ id ∈ ids, ∃ k ∈ keys, k.keyId = id ∧ ¬ honest k.scheme k.value) → ids.length < n

/-- The metadata is what the author has approved of. -/
def Approved {M : Type} (author : Bytes → Prop) (decode : Bytes → Except Err M) (m : M) : Prop :=
  ∃ msg, author msg ∧ decode msg = .ok m

/-- The root keys of a root are guarded. -/
def RootGuarded (honest : Scheme → Bytes → Prop) (r : RootMetadata) : Prop :=
  Guarded honest r.root.threshold (rootSigners r)

/-- The targets keys of a root are guarded. -/
def TargetsGuarded (honest : Scheme → Bytes → Prop) (r : RootMetadata) : Prop :=
  Guarded honest r.targets.threshold (targetsSigners r)

end RustTuf.Spec
