import Verif.Spec.Authors
import Verif.Spec.TufRules

/-!
# Specification of what an author has made that has not expired
-/

namespace RustTuf.Spec

/-- The author has made an unexpired timestamp that announces this version of the snapshot. -/
def Works.LiveSnapshot (w : Works) (time : Time) (version : Nat) : Prop :=
  ∃ ts, w.timestamp ts ∧ time < ts.expires ∧ ts.snapshot.version = version

/-- The author has made an unexpired snapshot, announced by an unexpired timestamp, which lists this version
of the metadata of `role`. -/
def Works.LiveRole (w : Works) (time : Time) (role : MetadataPath) (version : Nat) : Prop :=
  ∃ sn m, w.snapshot sn ∧ time < sn.expires ∧ w.LiveSnapshot time sn.version ∧
    sn.metas.get? role = some m ∧ m.version = version

end RustTuf.Spec
