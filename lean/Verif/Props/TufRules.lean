import Verif.Lemmas.Tuf
import Verif.Spec.WF
import Verif.Spec.TufWorld

/-!
# The update rules (C06, C07, C10, C11, C13, C16, C18, C21, C22, C23)
-/

namespace RustTuf.Props
open Spec Tuf

/-! ### C06 -/

/-- **C06.** Bootstrapping with pinned keys succeeds exactly if the document meets the given
threshold of the given keys and its own root threshold; the new store trusts that root only. -/
theorem C06_bootstrap_trusted_keys (E : Env) (raw : Bytes) (n : Nat) (keys : List PublicKey)
    (t : Tuf) :
    fromRootWithTrustedKeys E raw n keys = .ok t ↔
      ∃ r, Authentic E E.rootFromSlice raw n keys r ∧
        Authentic E E.rootFromSlice raw r.root.threshold (rootSigners r) r ∧
        t = ⟨r, none, none, none, []⟩ := by
  unfold fromRootWithTrustedKeys
  constructor
  · intro h
    split at h
    · cases h
    · rename_i r₀ h1
      split at h
      · cases h
      · rename_i r h2
        rw [verifySignatures_ok_iff] at h1 h2
        have := Authentic.unique h1 h2
        subst this
        cases h
        exact ⟨r₀, h1, h2, rfl⟩
  · rintro ⟨r, h1, h2, rfl⟩
    have e2 : verifySignatures E E.rootFromSlice raw r.root.threshold (filterKeys r.keys r.root.keyIds) =
        .ok r := (verifySignatures_ok_iff E _ _ _ _ _).2 h2
    simp only [(verifySignatures_ok_iff E _ _ _ _ _).2 h1, e2]
    rfl

/-- **C06.** Trust on first use succeeds only for a document that meets its own root threshold. -/
theorem C06_bootstrap_tofu (E : Env) (hE : Decoders E) (raw : Bytes) (t : Tuf)
    (h : fromTrustedRoot E raw = .ok t) :
    ∃ r, Authentic E E.rootFromSlice raw r.root.threshold (rootSigners r) r ∧
      t = ⟨r, none, none, none, []⟩ := by
  unfold fromTrustedRoot at h
  split at h
  · cases h
  · rename_i sigs signed hp
    split at h
    · cases h
    · rename_i u hu
      split at h
      · cases h
      · rename_i r hr
        rw [verifySignatures_ok_iff] at hr
        cases h
        obtain ⟨msg, ⟨hn, sigs', signed', e1, e2, hs⟩, hd⟩ := hr
        rw [hp] at e1; cases e1
        have := hE.coherent _ _ _ _ e2 hd hu
        subst this
        exact ⟨r, ⟨msg, ⟨hn, _, _, hp, e2, hs⟩, hd⟩, rfl⟩

example : fromRootWithTrustedKeys Toy.env [1] 1 [Toy.key "k".toList 7] = .ok Toy.boot := by decide
example : fromTrustedRoot Toy.env [1] = .ok Toy.boot := by decide
/-- Not enough of the pinned keys. -/
example : fromRootWithTrustedKeys Toy.env [1] 2 [Toy.key "k".toList 7] = .error .verification := by
  decide

/-! ### C07, C10 -/

/-- **C07.** Exact rule for root updates, with the resulting state. -/
theorem C07_root_rule (E : Env) (t t' : Tuf) (raw : Bytes) :
    updateRoot E t raw = (.ok (), t') ↔
      ∃ new, RootRule E t raw new ∧ t' = ⟨new, none, none, none, []⟩ :=
  updateRoot_ok_iff E t t' raw

/-- **C10.** After a successful root update nothing but the new root is trusted. -/
theorem C10_root_forgets (E : Env) (t t' : Tuf) (raw : Bytes)
    (h : updateRoot E t raw = (.ok (), t')) :
    t'.timestamp = none ∧ t'.snapshot = none ∧ t'.targets = none ∧
      ∀ role, t'.delegations.get? role = none := by
  obtain ⟨new, _, rfl⟩ := (C07_root_rule E t t' raw).1 h
  exact ⟨rfl, rfl, rfl, fun _ => rfl⟩

/-- **C10.** Every call other than a successful root update leaves the trusted root alone. -/
theorem C10_root_only_by_root (E : Env) (t : Tuf) (op : Op)
    (h : ∀ raw, op = .root raw → (step E t op).1 ≠ .changed) :
    (step E t op).2.root = t.root := by
  have hc := step_case E t op
  generalize (step E t op).1 = o at hc h
  generalize (step E t op).2 = t' at hc
  cases hc with
  | root raw new _ => exact absurd rfl (h raw rfl)
  | snapshot clk raw new t' _ hp => exact hp.root
  | _ => rfl

example : updateRoot Toy.env Toy.full [2] = (.ok (), ⟨Toy.root 2 1000, none, none, none, []⟩) := by
  decide
/-- Skipping a version fails. -/
example : updateRoot Toy.env Toy.full [3] = (.error .verification, Toy.full) := by decide
example : (step Toy.env Toy.full (.root [3])).1 ≠ .changed := by decide

/-! ### C11 -/

/-- **C11.** Exact rule for installing a timestamp, with the resulting state: the snapshot is kept
only if it has the announced version. -/
theorem C11_timestamp_rule (E : Env) (clk : Clock) (t t' : Tuf) (raw : Bytes)
    (new : TimestampMetadata) :
    updateTimestamp E clk t raw = (.ok (some new), t') ↔
      TimestampRule E clk t raw new ∧
      t' = { t with
        timestamp := some new
        snapshot := if verOf (·.version) t.snapshot = new.snapshot.version then t.snapshot else none } :=
  updateTimestamp_some_iff E clk t t' raw new

/-- **C11.** An authentic timestamp of the trusted version is a successful no-op. -/
theorem C11_timestamp_same_version (E : Env) (clk : Clock) (t t' : Tuf) (raw : Bytes) :
    updateTimestamp E clk t raw = (.ok none, t') ↔
      t' = t ∧ ∃ new, Authentic E E.timestampFromSlice raw t.root.timestamp.threshold
        (timestampSigners t.root) new ∧ new.version = verOf (·.version) t.timestamp :=
  updateTimestamp_none_iff E clk t t' raw

/-- **C11.** A lower version is rejected without effect. -/
theorem C11_timestamp_lower_rejected (E : Env) (clk : Clock) (t : Tuf) (raw : Bytes)
    (new : TimestampMetadata)
    (ha : Authentic E E.timestampFromSlice raw t.root.timestamp.threshold (timestampSigners t.root) new)
    (hlt : new.version < verOf (·.version) t.timestamp) :
    updateTimestamp E clk t raw = (.error .verification, t) := by
  unfold updateTimestamp
  simp only [timestampKeys_eq, (verifySignatures_ok_iff E _ _ _ _ _).2 ha]
  rw [timestampVersion_eq]
  simp [hlt]

example : updateTimestamp Toy.env (Toy.clk 100) Toy.full [11] =
    (.ok (some (Toy.timestamp 2 500 2)),
      { Toy.full with timestamp := some (Toy.timestamp 2 500 2), snapshot := none }) := by decide
example : updateTimestamp Toy.env (Toy.clk 100) Toy.full [10] = (.ok none, Toy.full) := by decide
example : updateTimestamp Toy.env (Toy.clk 100)
    { Toy.full with timestamp := some (Toy.timestamp 2 500 1) } [10] =
    (.error .verification, { Toy.full with timestamp := some (Toy.timestamp 2 500 1) }) := by decide

/-! ### C13 -/

/-- **C13.** A snapshot is installed exactly under the rule. -/
theorem C13_snapshot_rule (E : Env) (clk : Clock) (t : Tuf) (raw : Bytes) :
    (∃ t', updateSnapshot E clk t raw = (.ok true, t')) ↔ ∃ new, SnapshotRule E clk t raw new := by
  constructor
  · rintro ⟨t', h⟩
    obtain ⟨new, h1, _⟩ := updateSnapshot_true E clk t t' raw h
    exact ⟨new, h1⟩
  · rintro ⟨new, h⟩
    exact updateSnapshot_true_of_rule E clk t raw new h

/-- **C13.** What the state looks like afterwards. -/
theorem C13_snapshot_post (E : Env) (clk : Clock) (t t' : Tuf) (raw : Bytes)
    (h : updateSnapshot E clk t raw = (.ok true, t')) :
    ∃ new, SnapshotRule E clk t raw new ∧ SnapshotPost t t' new :=
  updateSnapshot_true E clk t t' raw h

/-- **C13.** The call is a successful no-op exactly if the announced version is trusted. -/
theorem C13_snapshot_same_version (E : Env) (clk : Clock) (t t' : Tuf) (raw : Bytes) :
    updateSnapshot E clk t raw = (.ok false, t') ↔
      t' = t ∧ clk .root < t.root.expires ∧ ∃ ts, t.timestamp = some ts ∧
        clk .timestamp < ts.expires ∧ ts.snapshot.version = verOf (·.version) t.snapshot :=
  updateSnapshot_false_iff E clk t t' raw

/-- A state in which snapshot 2 is announced, and the effect of installing it: the targets metadata
goes (version 2 is listed), role `a` stays (version 2 is listed, 1 trusted), role `b` stays
(unlisted). -/
example : updateSnapshot Toy.env (Toy.clk 100)
    { Toy.full with timestamp := some (Toy.timestamp 2 500 2), snapshot := none } [21] =
    (.ok true, { Toy.full with
      timestamp := some (Toy.timestamp 2 500 2)
      snapshot := some (Toy.snapshot 2 500 [("targets", 2), ("a", 2)])
      targets := none }) := by decide
example : updateSnapshot Toy.env (Toy.clk 100) Toy.full [21] = (.ok false, Toy.full) := by decide

/-! ### C16 -/

/-- **C16.** Exact rule for installing targets metadata, with the resulting state. -/
theorem C16_targets_rule (E : Env) (clk : Clock) (t t' : Tuf) (raw : Bytes) :
    updateTargets E clk t raw = (.ok true, t') ↔
      ∃ new, TargetsRule E clk t raw new ∧ t' = { t with targets := some new } :=
  updateTargets_true_iff E clk t t' raw

/-- **C16.** The call is a successful no-op exactly if the listed version is trusted. -/
theorem C16_targets_same_version (E : Env) (clk : Clock) (t t' : Tuf) (raw : Bytes) :
    updateTargets E clk t raw = (.ok false, t') ↔
      t' = t ∧ clk .root < t.root.expires ∧ ∃ sn m, t.snapshot = some sn ∧
        clk .snapshot < sn.expires ∧ sn.metas.get? targetsName = some m ∧
        m.version = verOf (·.version) t.targets :=
  updateTargets_false_iff E clk t t' raw

example : updateTargets Toy.env (Toy.clk 100) { Toy.full with targets := none } [30] =
    (.ok true, Toy.full) := by decide
example : updateTargets Toy.env (Toy.clk 100) Toy.full [30] = (.ok false, Toy.full) := by decide

/-! ### C18 -/

/-- **C18.** Exact rule for installing delegated metadata, with the resulting state. -/
theorem C18_delegation_rule (E : Env) (clk : Clock) (t t' : Tuf) (parent role : MetadataPath)
    (raw : Bytes) :
    updateDelegation E clk t parent role raw = (.ok true, t') ↔
      ∃ new, DelegationRule E clk t parent role raw new ∧
        t' = { t with delegations := t.delegations.insert role new } :=
  updateDelegation_true_iff E clk t t' parent role raw

/-- **C18.** The effect of an installation, role by role. -/
theorem C18_delegation_effect (E : Env) (clk : Clock) (t t' : Tuf) (parent role : MetadataPath)
    (raw : Bytes) (h : updateDelegation E clk t parent role raw = (.ok true, t')) :
    (∃ new, DelegationRule E clk t parent role raw new ∧ t'.delegations.get? role = some new) ∧
    ∀ other, other ≠ role → t'.delegations.get? other = t.delegations.get? other := by
  obtain ⟨new, h1, rfl⟩ := (C18_delegation_rule E clk t t' parent role raw).1 h
  refine ⟨⟨new, h1, ?_⟩, ?_⟩
  · simp [Map.get?_insert]
  · intro other ho
    simp [Map.get?_insert, ho]

/-- **C18.** When the call is a successful no-op. -/
theorem C18_delegation_same_version (E : Env) (clk : Clock) (t t' : Tuf)
    (parent role : MetadataPath) (raw : Bytes) :
    updateDelegation E clk t parent role raw = (.ok false, t') ↔
      t' = t ∧ ∃ m, DelegationContext clk t role m ∧
        verOf (·.version) (t.delegations.get? role) = m.version ∧
        ∃ new, DelegationSigned E t parent role raw new :=
  updateDelegation_false_iff E clk t t' parent role raw

example : updateDelegation Toy.env (Toy.clk 100) { Toy.full with delegations := [] }
    "targets".toList "a".toList [40] =
    (.ok true, { Toy.full with
      delegations := [("a".toList, Toy.targets 1 500 [("p/y", 3)] none)] }) := by decide
/-- Not listed in the snapshot at this version. -/
example : updateDelegation Toy.env (Toy.clk 100) { Toy.full with delegations := [] }
    "targets".toList "a".toList [41] =
    (.error .verification, { Toy.full with delegations := [] }) := by decide
example : (run Toy.env Toy.boot Toy.ops1) = Toy.full := by decide

/-! ### C21 -/

/-- **C21 (partial).** A call that fails leaves the whole state as it was, except that a correctly
signed, newer but expired timestamp announcing another snapshot version makes the store forget its
snapshot. Missing: the full claim, which is false (`C21_failure_can_change_state`). -/
theorem C21_failed_update_partial (E : Env) (t : Tuf) (op : Op) (e : Err)
    (h : (step E t op).1 = .failed e) :
    (step E t op).2 = t ∨
      ∃ clk raw new, op = .timestamp clk raw ∧ e = .expired .timestamp ∧
        Authentic E E.timestampFromSlice raw t.root.timestamp.threshold (timestampSigners t.root) new ∧
        verOf (·.version) t.timestamp < new.version ∧ new.expires ≤ clk .new ∧
        new.snapshot.version ≠ verOf (·.version) t.snapshot ∧
        (step E t op).2 = { t with snapshot := none } := by
  have hc := step_case E t op
  generalize (step E t op).1 = o at hc h
  generalize (step E t op).2 = t' at hc
  subst h
  cases hc with
  | failed => exact .inl rfl
  | timestampExpired clk raw new a b c d => exact .inr ⟨clk, raw, new, rfl, rfl, a, b, c, d, rfl⟩

/-- **C21.** Calls that succeed without a change leave the state alone as well. -/
theorem C21_noop_changes_nothing (E : Env) (t : Tuf) (op : Op)
    (h : (step E t op).1 = .unchanged) : (step E t op).2 = t := by
  have hc := step_case E t op
  generalize (step E t op).1 = o at hc h
  generalize (step E t op).2 = t' at hc
  subst h
  cases hc with
  | same => rfl

/-- **C21 is false for the code**: an expired timestamp is refused, and yet the trusted snapshot is
gone (src/tuf.rs:316-331). -/
theorem C21_failure_can_change_state :
    ∃ (E : Env) (t : Tuf) (op : Op) (e : Err),
      (step E t op).1 = .failed e ∧ t.snapshot ≠ none ∧ (step E t op).2.snapshot = none :=
  ⟨Toy.env, Toy.full, .timestamp (Toy.clk 100) [12], .expired .timestamp, by decide, by decide,
    by decide⟩

example : (step Toy.env Toy.full (.timestamp (Toy.clk 100) [1])).1 = .failed .encoding := by decide

/-! ### C22 -/

/-- **C22 (partial).** Installed timestamps, targets and delegated metadata are unexpired at the time
of the call. Missing: root and snapshot metadata, which are installed without looking at their
expiry (`C22_expired_snapshot_installed`, `C22_expired_root_installed`). -/
theorem C22_unexpired_when_installed_partial (E : Env) (t : Tuf) (clk : Clock) (raw : Bytes) :
    (∀ new t', updateTimestamp E clk t raw = (.ok (some new), t') →
      t'.timestamp = some new ∧ clk .new < new.expires) ∧
    (∀ t', updateTargets E clk t raw = (.ok true, t') →
      ∃ new, t'.targets = some new ∧ clk .new < new.expires) ∧
    (∀ parent role t', updateDelegation E clk t parent role raw = (.ok true, t') →
      ∃ new, t'.delegations.get? role = some new ∧ clk .new < new.expires) := by
  refine ⟨?_, ?_, ?_⟩
  · intro new t' h
    obtain ⟨h1, rfl⟩ := (C11_timestamp_rule E clk t t' raw new).1 h
    exact ⟨rfl, h1.unexpired⟩
  · intro t' h
    obtain ⟨new, h1, rfl⟩ := (C16_targets_rule E clk t t' raw).1 h
    exact ⟨new, rfl, h1.unexpired⟩
  · intro parent role t' h
    obtain ⟨⟨new, h1, h2⟩, _⟩ := C18_delegation_effect E clk t t' parent role raw h
    exact ⟨new, h2, h1.unexpired⟩

/-- **C22 is false for snapshots**: an expired snapshot becomes trusted (it can then not be used,
see C23). -/
theorem C22_expired_snapshot_installed :
    ∃ (E : Env) (t t' : Tuf) (raw : Bytes) (s : SnapshotMetadata),
      updateSnapshot E (Toy.clk 100) t raw = (.ok true, t') ∧ t'.snapshot = some s ∧
      s.expires ≤ Toy.clk 100 .new :=
  ⟨Toy.env, { Toy.full with timestamp := some (Toy.timestamp 4 500 3), snapshot := none },
    { Toy.full with timestamp := some (Toy.timestamp 4 500 3),
                    snapshot := some (Toy.snapshot 3 0 [("targets", 1), ("a", 1)]) },
    [22], Toy.snapshot 3 0 [("targets", 1), ("a", 1)], by decide, by decide, by decide⟩

/-- **C22 is false for roots**: `update_root` does not look at the clock at all. (The specification
allows this for intermediate roots; the client checks the last one.) -/
theorem C22_expired_root_installed :
    ∃ (E : Env) (t t' : Tuf) (raw : Bytes),
      updateRoot E t raw = (.ok (), t') ∧ t'.root.expires ≤ 0 :=
  ⟨(Toy.World.mk [(1, Toy.root 1 1000), (2, Toy.root 2 0)] [] [] []).env, Toy.boot,
    ⟨Toy.root 2 0, none, none, none, []⟩, [2], by decide, by decide⟩

/-! ### C23 -/

/-- **C23.** With an expired root, snapshot, targets and delegation updates fail with the expiry
error and change nothing, and no target description is returned. -/
theorem C23_expired_root_blocks (E : Env) (clk : Clock) (t : Tuf)
    (h : t.root.expires ≤ clk .root) :
    (∀ raw, updateSnapshot E clk t raw = (.error (.expired .root), t)) ∧
    (∀ raw, updateTargets E clk t raw = (.error (.expired .root), t)) ∧
    (∀ parent role raw, updateDelegation E clk t parent role raw = (.error (.expired .root), t)) ∧
    (∀ path, targetDescription clk t path = .error (.expired .root)) := by
  have e : t.rootUnexpired clk = .error (.expired .root) := by simp [rootUnexpired, h]
  refine ⟨?_, ?_, ?_, ?_⟩ <;> intros <;>
    simp [updateSnapshot, updateTargets, updateDelegation, targetDescription, e]

/-- **C23.** With an expired timestamp no snapshot update changes anything or succeeds. -/
theorem C23_expired_timestamp_blocks (E : Env) (clk : Clock) (t : Tuf) (ts : TimestampMetadata)
    (hts : t.timestamp = some ts) (h : ts.expires ≤ clk .timestamp) (raw : Bytes) :
    ∃ r, updateSnapshot E clk t raw = (.error (.expired r), t) ∧ (r = .root ∨ r = .timestamp) := by
  have e : t.timestampUnexpired clk = .error (.expired .timestamp) := by
    simp [timestampUnexpired, hts, h]
  by_cases hr : t.root.expires ≤ clk .root
  · exact ⟨.root, (C23_expired_root_blocks E clk t hr).1 raw, .inl rfl⟩
  · exact ⟨.timestamp, by simp [updateSnapshot, rootUnexpired, hr, e], .inr rfl⟩

/-- **C23.** With an expired snapshot no targets update, delegation update or lookup succeeds or
changes anything. -/
theorem C23_expired_snapshot_blocks (E : Env) (clk : Clock) (t : Tuf) (sn : SnapshotMetadata)
    (hsn : t.snapshot = some sn) (h : sn.expires ≤ clk .snapshot) :
    ∃ r, (r = .root ∨ r = .snapshot) ∧
    (∀ raw, updateTargets E clk t raw = (.error (.expired r), t)) ∧
    (∀ parent role raw, updateDelegation E clk t parent role raw = (.error (.expired r), t)) ∧
    (∀ path, targetDescription clk t path = .error (.expired r)) := by
  have e : t.snapshotUnexpired clk = .error (.expired .snapshot) := by
    simp [snapshotUnexpired, hsn, h]
  by_cases hr : t.root.expires ≤ clk .root
  · exact ⟨.root, .inl rfl, (C23_expired_root_blocks E clk t hr).2⟩
  · refine ⟨.snapshot, .inr rfl, ?_, ?_, ?_⟩ <;> intros <;>
      simp [updateTargets, updateDelegation, targetDescription, rootUnexpired, hr, e]

/-- **C23.** With expired targets metadata no delegation update or lookup succeeds or changes
anything (and the error is an expiry error if the snapshot is there). -/
theorem C23_expired_targets_blocks (E : Env) (clk : Clock) (t : Tuf) (ta : TargetsMetadata)
    (hta : t.targets = some ta) (h : ta.expires ≤ clk .targets) :
    ∃ e, (t.snapshot ≠ none → ∃ r, e = .expired r ∧ (r = .root ∨ r = .snapshot ∨ r = .targets)) ∧
    (∀ parent role raw, updateDelegation E clk t parent role raw = (.error e, t)) ∧
    (∀ path, targetDescription clk t path = .error e) := by
  have e : t.targetsUnexpired clk = .error (.expired .targets) := by
    simp [targetsUnexpired, hta, h]
  by_cases hr : t.root.expires ≤ clk .root
  · exact ⟨.expired .root, fun _ => ⟨.root, rfl, .inl rfl⟩,
      (C23_expired_root_blocks E clk t hr).2.2⟩
  · cases hsn : t.snapshot with
    | none =>
      refine ⟨.missing .snapshot, fun h => absurd rfl h, ?_, ?_⟩ <;> intros <;>
        simp [updateDelegation, targetDescription, rootUnexpired, hr, snapshotUnexpired, hsn]
    | some sn =>
      by_cases hs : sn.expires ≤ clk .snapshot
      · refine ⟨.expired .snapshot, fun _ => ⟨.snapshot, rfl, .inr (.inl rfl)⟩, ?_, ?_⟩ <;> intros <;>
          simp [updateDelegation, targetDescription, rootUnexpired, hr, snapshotUnexpired, hsn, hs]
      · refine ⟨.expired .targets, fun _ => ⟨.targets, rfl, .inr (.inr rfl)⟩, ?_, ?_⟩ <;> intros <;>
          simp [updateDelegation, targetDescription, rootUnexpired, hr, snapshotUnexpired, hsn, hs, e]

example : Toy.full.root.expires ≤ Toy.clk 1000 .root := by decide
example : (Toy.timestamp 1 500 1).expires ≤ Toy.clk 600 .timestamp ∧
    Toy.full.timestamp = some (Toy.timestamp 1 500 1) := by decide
example : ∃ sn, Toy.full.snapshot = some sn ∧ sn.expires ≤ Toy.clk 600 .snapshot :=
  ⟨_, rfl, by decide⟩
example : ∃ ta, Toy.full.targets = some ta ∧ ta.expires ≤ Toy.clk 600 .targets :=
  ⟨_, rfl, by decide⟩
/-- Just before expiry the same state answers. -/
example : targetDescription (Toy.clk 499) Toy.full "x".toList = .ok (Toy.target 1) := by decide

end RustTuf.Props
