import Verif.Model.Client

/-! Limits that are raised, and what is the same apart from them. -/

namespace RustTuf.Spec
open Client

/-- The second limit lets through all that the first one does; `none` is no limit. Lengths are `usize`
values. -/
def Raised : Option Nat → Option Nat → Prop
  | some n, some n' => n ≤ n'
  | some n, none => n ≤ usizeMax
  | none, none => True
  | none, some _ => False

/-- The second configuration has limits for metadata that are at least as high. The rest is the same. -/
structure RaisedLimits (cfg cfg' : Config) : Prop where
  root : Raised cfg.maxRootLength cfg'.maxRootLength
  timestamp : Raised cfg.maxTimestampLength cfg'.maxTimestampLength
  depth : cfg.maxDelegationDepth = cfg'.maxDelegationDepth
  translator : cfg.realToVirtual = cfg'.realToVirtual
  checks : cfg.overflowChecks = cfg'.overflowChecks

/-- The remote repository pays no attention to the limit that it is told. -/
def LimitBlind {W : Type} (R : World W) : Prop :=
  ∀ p v m m' h, R.remote.fetchMetadata p v m h = R.remote.fetchMetadata p v m' h

/-- What was done, without the limits that the repositories were told. -/
def withoutLimit : LogEntry → LogEntry
  | .fetch src p v _ h => .fetch src p v none h
  | e => e

/-- The same trusted metadata, the same outside world, and the same done so far apart from the limits. -/
structure SameButLimits {W : Type} (s s' : St W) : Prop where
  tuf : s.tuf = s'.tuf
  w : s.io.w = s'.io.w
  log : s.io.log.map withoutLimit = s'.io.log.map withoutLimit

/-- The target that a call asks for. -/
def askedFor : Call → Option TargetPath
  | .update => none
  | .fetchTarget p => some p
  | .fetchTargetToWriter p => some p
  | .fetchTargetDescription p => some p

end RustTuf.Spec
