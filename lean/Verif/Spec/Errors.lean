import Verif.Spec.TufRules
import Verif.Spec.During

/-!
# What error values claim
-/

namespace RustTuf.Spec

/-- The trusted metadata of a role have expired by the clock. -/
def TrustedExpired (clk : Clock) (t : Tuf) : Role → Prop
  | .root => t.root.expires ≤ clk .root
  | .timestamp => ∃ m, t.timestamp = some m ∧ m.expires ≤ clk .timestamp
  | .snapshot => ∃ m, t.snapshot = some m ∧ m.expires ≤ clk .snapshot
  | .targets => ∃ m, t.targets = some m ∧ m.expires ≤ clk .targets

/-- No metadata of the role are trusted. -/
def NotTrusted (t : Tuf) : Role → Prop
  | .root => False
  | .timestamp => t.timestamp = none
  | .snapshot => t.snapshot = none
  | .targets => t.targets = none

/-- The clock a call reads. Root updates read none. -/
def ReadsClock (clk : Clock) : Tuf.Op → Prop
  | .root _ => False
  | .timestamp c _ => c = clk
  | .snapshot c _ => c = clk
  | .targets c _ => c = clk
  | .delegation c _ _ _ => c = clk

/-- The document handed to a call is authentic metadata of the role that have expired. Delegated
metadata are metadata of the targets role. -/
def OfferedExpired (E : Env) (t : Tuf) : Tuf.Op → Role → Prop
  | .timestamp clk raw, .timestamp => ∃ new, new.expires ≤ clk .new ∧
      Authentic E E.timestampFromSlice raw t.root.timestamp.threshold (timestampSigners t.root) new
  | .targets clk raw, .targets => ∃ new, new.expires ≤ clk .new ∧
      Authentic E E.targetsFromSlice raw t.root.targets.threshold (targetsSigners t.root) new
  | .delegation clk parent role raw, .targets => ∃ new, new.expires ≤ clk .new ∧
      DelegationSigned E t parent role raw new
  | _, _ => False

/-- An error that speaks about a role. -/
def AboutRole (e : Err) : Prop := ∃ r, e = .expired r ∨ e = .missing r

/-- Reading a document never fails with an error about expiry or missing metadata. -/
structure DecoderErrors (E : Env) : Prop where
  parse : ∀ b e, E.parseSigned b = .error e → ¬ AboutRole e
  canonicalize : ∀ b e, E.canonicalize b = .error e → ¬ AboutRole e
  root : ∀ b e, E.rootFromSlice b = .error e → ¬ AboutRole e
  timestamp : ∀ b e, E.timestampFromSlice b = .error e → ¬ AboutRole e
  snapshot : ∀ b e, E.snapshotFromSlice b = .error e → ¬ AboutRole e
  targets : ∀ b e, E.targetsFromSlice b = .error e → ¬ AboutRole e

/-- Nor do the repositories. -/
structure RepositoryErrors {W : Type} (R : World W) : Prop where
  fetch : ∀ src p v m h w e, ((R.provider src).fetchMetadata p v m h w).1 = .error e → ¬ AboutRole e
  store : ∀ p v b w e, (R.storeMetadata p v b w).1 = .error e → ¬ AboutRole e

end RustTuf.Spec
