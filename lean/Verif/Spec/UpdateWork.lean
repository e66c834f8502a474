import Verif.Spec.Client
import Verif.Spec.TufRules

/-!
# Specification of the requests and the traffic of an update (C99)
-/

namespace RustTuf.Spec

/-- A request for metadata: whom, what, and which version. -/
abbrev Ask := Source × MetadataPath × MetadataVersion

/-- The requests for metadata in a record, in order. -/
def asked (l : List LogEntry) : List Ask :=
  l.filterMap fun e => match e with
    | .fetch src p v _ _ => some (src, p, v)
    | _ => none

/-- The number of bytes of metadata received in a record. -/
def receivedBytes (l : List LogEntry) : Nat :=
  (l.map fun e => match e with
    | .got _ _ raw => raw.length
    | _ => 0).sum

/-- Requests for the `n` roots that follow version `v`, in order. Version numbers have 32 bits. -/
def rootAsks (v n : Nat) : List Ask :=
  (List.range n).map fun i => (.remote, "root".toList, .number ((v + 1 + i) % 4294967296))

/-- The request for a timestamp. -/
def timestampAsk : Ask := (.remote, "timestamp".toList, .none)

/-- The request for a snapshot. -/
def snapshotAsk (t : Tuf) (v : Nat) : Ask := (.remote, "snapshot".toList, fileVersion t v .remote)

/-- The request for the top-level targets. -/
def targetsAsk (t : Tuf) (v : Nat) : Ask := (.remote, "targets".toList, fileVersion t v .remote)

/-- The roles that an update asks for once the roots are up to date, in order. -/
def laterRoles : List (Source × MetadataPath) :=
  [(.remote, "timestamp".toList), (.remote, "snapshot".toList), (.remote, "targets".toList)]

/-- The length that the trusted timestamp announces for the snapshot. -/
def announcedSnapshot (t : Tuf) : Nat := verOf (fun ts : TimestampMetadata => ts.snapshot.length) t.timestamp

/-- The length that the trusted snapshot announces for the top-level targets. -/
def announcedTargets (t : Tuf) : Nat :=
  verOf (fun sn : SnapshotMetadata => verOf MetadataDescription.length (sn.metas.get? targetsName)) t.snapshot

end RustTuf.Spec
