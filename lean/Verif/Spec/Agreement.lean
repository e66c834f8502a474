import Verif.Spec.Anchored
import Verif.Spec.History

/-!
# Specification of agreement between clients
-/

namespace RustTuf.Spec
open RustTuf Client

/-- `s` is a state of some session of a client: constructed in any way, after any calls. -/
def Session (E : Env) (D : Digest) {W : Type} (R : World W) (cfg : Config) (s : St W) : Prop :=
  ∃ start io io' t calls, construct E D R cfg start io = (.ok t, io') ∧ s = execAll E D R cfg ⟨t, io'⟩ calls

/-- The author gives a version number to one document of a kind only. -/
def OncePerVersion {M : Type} (author : Bytes → Prop) (decode : Bytes → Except Err M) (version : M → Nat) :
    Prop :=
  ∀ m m', Approved author decode m → Approved author decode m' → version m = version m' → m = m'

/-- Two byte strings are equal, or a collision of a digest has been found. -/
def SameBytes (D : Digest) (a b : Bytes) : Prop :=
  a = b ∨ ∃ alg, (alg = .sha256 ∨ alg = .sha512) ∧ D alg a = D alg b ∧ a ≠ b

end RustTuf.Spec
