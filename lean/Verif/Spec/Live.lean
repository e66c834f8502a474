import Verif.Spec.Withdrawn
import Verif.Spec.Client

/-!
# Specification of releases that have not expired
-/

namespace RustTuf.Spec
open Tuf

/-- The clock of a call shows `time` or later whenever it is read. -/
def CalledFrom (time : Time) : Op → Prop
  | .root _ => True
  | .timestamp clk _ => ∀ site, time ≤ clk site
  | .snapshot clk _ => ∀ site, time ≤ clk site
  | .targets clk _ => ∀ site, time ≤ clk site
  | .delegation clk _ _ _ => ∀ site, time ≤ clk site

/-- The clock of a world shows `time` or later whenever it is read. -/
def NotBefore {W : Type} (R : World W) (time : Time) : Prop := ∀ w site, time ≤ (R.clock w).1 site

/-- An unexpired timestamp of the author announces this version of the snapshot. -/
def LiveSnapshot (E : Env) (author : Bytes → Prop) (time : Time) (version : Nat) : Prop :=
  ∃ ts, Approved author E.timestampFromSlice ts ∧ time < ts.expires ∧ ts.snapshot.version = version

/-- An unexpired snapshot of the author, announced by an unexpired timestamp of the author, lists this version
of the metadata of `role`. -/
def LiveRole (E : Env) (author : Bytes → Prop) (time : Time) (role : MetadataPath) (version : Nat) : Prop :=
  ∃ sn m, Approved author E.snapshotFromSlice sn ∧ time < sn.expires ∧
    LiveSnapshot E author time sn.version ∧ sn.metas.get? role = some m ∧ m.version = version

/-- The trusted metadata belong to releases of the author that have not expired at `time`. -/
structure TrustsLive (E : Env) (author : Bytes → Prop) (time : Time) (t : Tuf) : Prop where
  timestamp : ∀ ts, t.timestamp = some ts → Approved author E.timestampFromSlice ts ∧ time < ts.expires
  snapshot : ∀ sn, t.snapshot = some sn → Approved author E.snapshotFromSlice sn ∧
    LiveSnapshot E author time sn.version
  targets : ∀ ta, t.targets = some ta → time < ta.expires ∧ LiveRole E author time targetsName ta.version
  delegated : ∀ role ta, t.delegations.get? role = some ta → time < ta.expires ∧
    LiveRole E author time role ta.version

end RustTuf.Spec
