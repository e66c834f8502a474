import Verif.Props.TufRules
import Verif.Spec.History
import Mathlib.Data.List.Induction

/-!
# Properties of histories of update calls (C08, C09, C12, C14, C15, C17, C19, C20)
-/

namespace RustTuf.Props
open Spec Tuf

theorem run_nil (E : Env) (t : Tuf) : run E t [] = t := rfl
theorem run_cons (E : Env) (t : Tuf) (op : Op) (ops : List Op) :
    run E t (op :: ops) = run E (step E t op).2 ops := rfl
theorem run_append (E : Env) (t : Tuf) (a b : List Op) :
    run E t (a ++ b) = run E (run E t a) b := by
  simp [run, List.foldl_append]
theorem run_snoc (E : Env) (t : Tuf) (a : List Op) (op : Op) :
    run E t (a ++ [op]) = (step E (run E t a) op).2 := by
  simp [run, List.foldl_append]

/-- An invariant of single calls is an invariant of histories. -/
theorem run_invariant (E : Env) (P : Tuf → Prop) (hstep : ∀ t op, P t → P (step E t op).2)
    (t : Tuf) (h0 : P t) (ops : List Op) : P (run E t ops) := by
  induction ops generalizing t with
  | nil => exact h0
  | cons op ops ih => rw [run_cons]; exact ih _ (hstep t op h0)

theorem Fresh.eq (E : Env) (hE : Decoders E) (t : Tuf) (h : Fresh E t) :
    ∃ r, t = ⟨r, none, none, none, []⟩ ∧
      ∃ raw, Authentic E E.rootFromSlice raw r.root.threshold (rootSigners r) r := by
  rcases h with ⟨raw, n, keys, h⟩ | ⟨raw, h⟩
  · obtain ⟨r, _, h2, rfl⟩ := (C06_bootstrap_trusted_keys E raw n keys t).1 h
    exact ⟨r, rfl, raw, h2⟩
  · obtain ⟨r, h2, rfl⟩ := C06_bootstrap_tofu E hE raw t h
    exact ⟨r, rfl, raw, h2⟩

theorem decoders_of_authentic {E : Env} {M : Type} {decode : Bytes → Except Err M} {raw n keys} {m : M}
    {P : M → Prop} (hd : ∀ b m, decode b = .ok m → P m)
    (h : Authentic E decode raw n keys m) : P m := by
  obtain ⟨msg, _, h⟩ := h
  exact hd _ _ h

/-! ### C08, C09 -/

/-- **C08.** The root version is the starting version plus the number of successful root updates. -/
theorem C08_root_version_counts (E : Env) (t : Tuf) (ops : List Op) :
    (run E t ops).root.version = t.root.version + rootUpdates E t ops := by
  induction ops generalizing t with
  | nil => rfl
  | cons op ops ih =>
    rw [run_cons, ih]
    have hc := step_case E t op
    cases op with
    | root raw =>
      have e : rootUpdates E t (.root raw :: ops) =
        (if (step E t (.root raw)).1 = .changed then 1 else 0) +
          rootUpdates E (step E t (.root raw)).2 ops := rfl
      rw [e]
      clear e
      generalize (step E t (.root raw)).1 = o at hc
      generalize (step E t (.root raw)).2 = t' at hc
      cases hc with
      | failed => simp
      | same _ h => exact absurd rfl (h raw)
      | root _ new hr => have := hr.nextVersion; simp [ofRoot]; omega
    | timestamp | snapshot | targets | delegation =>
      rw [C10_root_only_by_root E t _ (by intro raw h; cases h)]
      rfl

/-- **C08.** The root version never exceeds `u32::MAX` if it does not at the start. -/
theorem C08_root_version_bounded (E : Env) (t : Tuf) (ops : List Op)
    (h : t.root.version ≤ 4294967295) : (run E t ops).root.version ≤ 4294967295 := by
  refine run_invariant E (fun t => t.root.version ≤ 4294967295) ?_ t h ops
  intro t op h
  have hc := step_case E t op
  generalize (step E t op).1 = o at hc
  generalize (step E t op).2 = t' at hc
  cases hc with
  | root raw new hr => have := hr.nextVersion; have := hr.noOverflow; simp only [ofRoot]; omega
  | snapshot clk raw new t' _ hp => rw [hp.root]; exact h
  | _ => exact h

/-- **C09.** The trusted root is linked to the initial one by an unbroken chain. -/
theorem C09_root_chain (E : Env) (t : Tuf) (ops : List Op) :
    RootChain E t.root (run E t ops).root := by
  refine run_invariant E (fun t' => RootChain E t.root t'.root) ?_ t (.refl _) ops
  intro t' op h
  have hc := step_case E t' op
  generalize (step E t' op).1 = o at hc
  generalize (step E t' op).2 = t'' at hc
  cases hc with
  | root raw new hr => exact .step _ _ _ raw h hr.signedByOld hr.signedBySelf hr.nextVersion
  | snapshot clk raw new t' _ hp => rw [hp.root]; exact h
  | _ => exact h

/-- **C09.** In particular a store from a constructor has a root that is signed by itself, and so has
every later state. -/
theorem C09_root_self_signed (E : Env) (hE : Decoders E) (t : Tuf) (h : Fresh E t) (ops : List Op) :
    ∃ raw, Authentic E E.rootFromSlice raw (run E t ops).root.root.threshold
      (rootSigners (run E t ops).root) (run E t ops).root := by
  obtain ⟨r, rfl, h0⟩ := Fresh.eq E hE t h
  refine run_invariant E (fun t => ∃ raw, Authentic E E.rootFromSlice raw t.root.root.threshold
      (rootSigners t.root) t.root) ?_ _ h0 ops
  intro t' op h
  have hc := step_case E t' op
  generalize (step E t' op).1 = o at hc
  generalize (step E t' op).2 = t'' at hc
  cases hc with
  | root raw new hr => exact ⟨raw, hr.signedBySelf⟩
  | snapshot clk raw new t' _ hp => rw [hp.root]; exact h
  | _ => exact h

/-- A history with two rotations. -/
example : (run Toy.env Toy.boot (Toy.ops1 ++ [.root [2], .root [2], .root [3]])).root.version = 3 ∧
    rootUpdates Toy.env Toy.boot (Toy.ops1 ++ [.root [2], .root [2], .root [3]]) = 2 := by decide
example : Fresh Toy.env Toy.boot := .inl ⟨[1], 1, [Toy.key "k".toList 7], by decide⟩
example : Decoders Toy.env := Toy.env_decoders

/-! ### C12 -/

theorem root_version_mono (E : Env) (t : Tuf) (ops : List Op) :
    t.root.version ≤ (run E t ops).root.version := by
  rw [C08_root_version_counts]; omega

/-- **C12.** As long as the root is not rotated, the trusted timestamp stays and its version does
not decrease. -/
theorem C12_timestamp_no_rollback (E : Env) (t : Tuf) (ops : List Op)
    (hroot : rootUpdates E t ops = 0) (ts : TimestampMetadata) (h : t.timestamp = some ts) :
    ∃ ts', (run E t ops).timestamp = some ts' ∧ ts.version ≤ ts'.version := by
  have hv := C08_root_version_counts E t ops
  rw [hroot] at hv
  clear hroot
  induction ops generalizing t ts with
  | nil => exact ⟨ts, h, Nat.le_refl _⟩
  | cons op ops ih =>
    rw [run_cons] at hv ⊢
    have hm := root_version_mono E (step E t op).2 ops
    have hc := step_case E t op
    generalize (step E t op).1 = o at hc
    generalize (step E t op).2 = t' at hc hm hv ⊢
    have key : t'.root.version = t.root.version →
        ∃ ts', t'.timestamp = some ts' ∧ ts.version ≤ ts'.version := by
      cases hc with
      | failed | same | timestampExpired | targets | delegation =>
        intro _; exact ⟨ts, h, Nat.le_refl _⟩
      | root raw new hr => intro e; have := hr.nextVersion; simp only [ofRoot] at e; omega
      | timestamp clk raw new hr =>
        intro _
        have := hr.newer
        simp only [h, verOf] at this
        exact ⟨new, rfl, by omega⟩
      | snapshot clk raw new t' _ hp => intro _; rw [hp.timestamp]; exact ⟨ts, h, Nat.le_refl _⟩
    have hle : t.root.version ≤ t'.root.version := by
      have := root_version_mono E t [op]
      cases hc with
      | root raw new hr => have := hr.nextVersion; simp only [ofRoot]; omega
      | snapshot clk raw new t' _ hp => rw [hp.root]; exact Nat.le_refl _
      | _ => exact Nat.le_refl _
    obtain ⟨ts1, h1, h2⟩ := key (by omega)
    obtain ⟨ts2, h3, h4⟩ := ih t' ts1 h1 (by omega)
    exact ⟨ts2, h3, by omega⟩

example : rootUpdates Toy.env Toy.full [.timestamp (Toy.clk 100) [11], .timestamp (Toy.clk 100) [10],
    .root [3], .timestamp (Toy.clk 100) [13]] = 0 ∧
    (run Toy.env Toy.full [.timestamp (Toy.clk 100) [11], .timestamp (Toy.clk 100) [10],
      .root [3], .timestamp (Toy.clk 100) [13]]).timestamp = some (Toy.timestamp 3 500 1) := by decide

/-! ### C14 -/

/-- The pieces of trusted metadata agree with each other. -/
structure Consistent (t : Tuf) : Prop where
  snapshot : ∀ s, t.snapshot = some s → ∃ ts, t.timestamp = some ts ∧ s.version = ts.snapshot.version
  targets : ∀ s ta, t.snapshot = some s → t.targets = some ta →
    ∃ m, s.metas.get? targetsName = some m ∧ ta.version = m.version
  delegated : ∀ s role d m, t.snapshot = some s → t.delegations.get? role = some d →
    s.metas.get? role = some m → d.version ≤ m.version

/-- **C14.** Every reachable state is consistent. -/
theorem C14_consistent (E : Env) (hE : Decoders E) (t : Tuf) (h : Fresh E t) (ops : List Op) :
    Consistent (run E t ops) := by
  obtain ⟨r, rfl, _⟩ := Fresh.eq E hE t h
  suffices hh : Consistent (run E ⟨r, none, none, none, []⟩ ops) ∧
      ∀ ta, (run E ⟨r, none, none, none, []⟩ ops).targets = some ta → 1 ≤ ta.version from hh.1
  refine run_invariant E (fun t => Consistent t ∧ ∀ ta, t.targets = some ta → 1 ≤ ta.version)
    ?_ _ ?_ ops
  · rintro t op ⟨⟨h1, h2, h3⟩, h4⟩
    have hc := step_case E t op
    generalize (step E t op).1 = o at hc
    generalize (step E t op).2 = t' at hc
    cases hc with
    | failed | same => exact ⟨⟨h1, h2, h3⟩, h4⟩
    | root raw new hr =>
      exact ⟨⟨by simp [ofRoot], by simp [ofRoot], by simp [ofRoot]⟩, by simp [ofRoot]⟩
    | timestamp clk raw new hr =>
      refine ⟨⟨?_, ?_, ?_⟩, h4⟩
      · intro s hs
        simp only at hs
        split at hs
        · rename_i e
          refine ⟨new, rfl, ?_⟩
          rw [hs] at e
          exact e
        · cases hs
      · intro s ta hs hta
        simp only at hs
        split at hs
        · exact h2 s ta hs hta
        · cases hs
      · intro s role d m hs hd hm
        simp only at hs
        split at hs
        · exact h3 s role d m hs hd hm
        · cases hs
    | timestampExpired =>
      exact ⟨⟨by simp, by simp, by simp⟩, h4⟩
    | snapshot clk raw new t' hr hp =>
      obtain ⟨ts, e1, e2, e3, e4⟩ := hr.announced
      have htk : ∀ ta, t'.targets = some ta → t.targets = some ta ∧ ta.version = listed new targetsName := by
        intro ta hta
        by_cases hl : verOf (·.version) t.targets = listed new targetsName
        · rw [hp.targetsKept hl] at hta
          refine ⟨hta, ?_⟩
          rw [← hl, hta]; rfl
        · rw [hp.targetsDropped hl] at hta; cases hta
      refine ⟨⟨?_, ?_, ?_⟩, ?_⟩
      · intro s hs
        rw [hp.snapshot] at hs; cases hs
        exact ⟨ts, by rw [hp.timestamp]; exact e1, e4⟩
      · intro s ta hs hta
        rw [hp.snapshot] at hs; cases hs
        obtain ⟨a, b⟩ := htk ta hta
        have := h4 ta a
        unfold listed at b
        cases hg : new.metas.get? targetsName with
        | none => rw [hg] at b; simp only [verOf] at b; omega
        | some m => rw [hg] at b; exact ⟨m, rfl, b⟩
      · intro s role d m hs hd hm
        rw [hp.snapshot] at hs; cases hs
        obtain ⟨a, b⟩ := (hp.delegations role d).1 hd
        have := Map.mem_of_get? hm
        by_contra hlt
        exact b ⟨m, this, by omega⟩
      · intro ta hta
        exact h4 ta (htk ta hta).1
    | targets clk raw new hr =>
      obtain ⟨sn, m, e1, e2, e3, e4, e5⟩ := hr.announced
      refine ⟨⟨h1, ?_, h3⟩, ?_⟩
      · intro s ta hs hta
        simp only at hs hta
        rw [e1] at hs; cases hs
        cases hta
        exact ⟨m, e3, e5⟩
      · intro ta hta
        simp only at hta
        cases hta
        exact (decoders_of_authentic hE.targets hr.signed).1
    | delegation clk parent role raw new hr =>
      obtain ⟨m, ⟨_, ⟨sn, e1, e2, e3⟩, _⟩, e4, e5⟩ := hr.context
      refine ⟨⟨h1, h2, ?_⟩, h4⟩
      intro s role' d m' hs hd hm
      simp only at hs hd
      rw [Map.get?_insert] at hd
      split at hd
      · rename_i e
        cases hd
        subst e
        rw [e1] at hs; cases hs
        rw [e3] at hm; cases hm
        omega
      · exact h3 s role' d m' hs hd hm
  · exact ⟨⟨by simp, by simp, by simp⟩, by simp⟩

/-- A reachable state in which everything is present. -/
example : run Toy.env Toy.boot Toy.ops1 = Toy.full ∧ Toy.full.snapshot.isSome ∧
    Toy.full.targets.isSome ∧ (Toy.full.delegations.get? "a".toList).isSome := by decide

/-! ### C15, C17 -/

theorem at_succ (E : Env) (t : Tuf) (ops : List Op) (i : Nat) (h : i < ops.length) :
    at_ E t ops (i + 1) = (step E (at_ E t ops i) ops[i]).2 := by
  unfold at_
  rw [List.take_succ_eq_append_getElem h, run_snoc]

/-- If a slot `f` is only ever filled with the value announced by `g`, and announcements do not
decrease, then the slot does not roll back. -/
theorem mono_of_announced (E : Env) (t : Tuf) (ops : List Op) (f g : Tuf → Option Nat)
    (hstep : ∀ t op, f (step E t op).2 = f t ∨ f (step E t op).2 = none ∨
      ∃ v, f (step E t op).2 = some v ∧ g (step E t op).2 = some v)
    (h0 : f t = none) (hg : NonDecreasing E t ops g) : NonDecreasing E t ops f := by
  have hA : ∀ i ≤ ops.length, ∀ a, f (at_ E t ops i) = some a →
      ∃ k ≤ i, g (at_ E t ops k) = some a := by
    intro i
    induction i with
    | zero => intro _ a ha; simp [at_, run, h0] at ha
    | succ i ih =>
      intro hi a ha
      rw [at_succ E t ops i (by omega)] at ha
      rcases hstep (at_ E t ops i) ops[i] with h | h | ⟨v, h, h'⟩
      · rw [h] at ha
        obtain ⟨k, hk, e⟩ := ih (by omega) a ha
        exact ⟨k, by omega, e⟩
      · rw [h] at ha; cases ha
      · rw [h] at ha; cases ha
        exact ⟨i + 1, Nat.le_refl _, by rw [at_succ E t ops i (by omega)]; exact h'⟩
  intro i j
  induction j with
  | zero =>
    intro hij _ x y hx hy
    obtain rfl : i = 0 := by omega
    rw [hx] at hy; cases hy; exact Nat.le_refl _
  | succ j ih =>
    intro hij hj x y hx hy
    by_cases e : i = j + 1
    · subst e; rw [hx] at hy; cases hy; exact Nat.le_refl _
    · have hs := hstep (at_ E t ops j) ops[j]
      rw [← at_succ E t ops j (by omega)] at hs
      rcases hs with h | h | ⟨v, h, h'⟩
      · rw [h] at hy; exact ih (by omega) (by omega) x y hx hy
      · rw [h] at hy; cases hy
      · rw [h] at hy; cases hy
        obtain ⟨k, hk, e'⟩ := hA i (by omega) x hx
        exact hg k (j + 1) (by omega) hj x y e' h'

theorem snapshot_slot (E : Env) (t : Tuf) (op : Op) :
    (step E t op).2.snapshot.map (·.version) = t.snapshot.map (·.version) ∨
    (step E t op).2.snapshot.map (·.version) = none ∨
    ∃ v, (step E t op).2.snapshot.map (·.version) = some v ∧ announced (step E t op).2 = some v := by
  have hc := step_case E t op
  generalize (step E t op).1 = o at hc
  generalize (step E t op).2 = t' at hc
  cases hc with
  | failed | same | targets | delegation => exact .inl rfl
  | root | timestampExpired => exact .inr (.inl rfl)
  | timestamp clk raw new hr =>
    simp only
    split
    · exact .inl rfl
    · exact .inr (.inl rfl)
  | snapshot clk raw new t' hr hp =>
    obtain ⟨ts, e1, _, _, e4⟩ := hr.announced
    right; right
    refine ⟨new.version, by rw [hp.snapshot]; rfl, ?_⟩
    rw [announced, hp.timestamp, e1, e4]; rfl

theorem targets_slot (E : Env) (t : Tuf) (op : Op) :
    (step E t op).2.targets.map (·.version) = t.targets.map (·.version) ∨
    (step E t op).2.targets.map (·.version) = none ∨
    ∃ v, (step E t op).2.targets.map (·.version) = some v ∧
      listedNow targetsName (step E t op).2 = some v := by
  have hc := step_case E t op
  generalize (step E t op).1 = o at hc
  generalize (step E t op).2 = t' at hc
  cases hc with
  | failed | same | timestampExpired | delegation | timestamp => exact .inl rfl
  | root => exact .inr (.inl rfl)
  | snapshot clk raw new t' hr hp =>
    by_cases hl : verOf (·.version) t.targets = listed new targetsName
    · rw [hp.targetsKept hl]; exact .inl rfl
    · rw [hp.targetsDropped hl]; exact .inr (.inl rfl)
  | targets clk raw new hr =>
    obtain ⟨sn, m, e1, _, e3, _, e5⟩ := hr.announced
    right; right
    exact ⟨new.version, rfl, by simp [listedNow, e1, e3, e5]⟩

theorem delegation_slot (E : Env) (role : MetadataPath) (t : Tuf) (op : Op) :
    ((step E t op).2.delegations.get? role).map (·.version) = (t.delegations.get? role).map (·.version) ∨
    ((step E t op).2.delegations.get? role).map (·.version) = none ∨
    ∃ v, ((step E t op).2.delegations.get? role).map (·.version) = some v ∧
      listedNow role (step E t op).2 = some v := by
  have hc := step_case E t op
  generalize (step E t op).1 = o at hc
  generalize (step E t op).2 = t' at hc
  cases hc with
  | failed | same | timestampExpired | targets | timestamp => exact .inl rfl
  | root => exact .inr (.inl rfl)
  | snapshot clk raw new t' hr hp =>
    cases hd : t'.delegations.get? role with
    | none => exact .inr (.inl rfl)
    | some d => rw [((hp.delegations role d).1 hd).1]; exact .inl rfl
  | delegation clk parent role' raw new hr =>
    obtain ⟨m, ⟨_, ⟨sn, e1, e2, e3⟩, _⟩, e4, e5⟩ := hr.context
    simp only [Map.get?_insert]
    by_cases e : role = role'
    · subst e
      right; right
      exact ⟨new.version, by simp, by simp [listedNow, e1, e3, e5]⟩
    · left; simp [e]

/-- **C15 (partial).** If the snapshot versions announced by the successively trusted timestamps do
not decrease, the trusted snapshot never rolls back (not even across a period with no snapshot).
Missing: without that assumption the claim is false (`C15_snapshot_can_roll_back`): the timestamp
role alone can order a rollback. -/
theorem C15_snapshot_no_rollback_partial (E : Env) (hE : Decoders E) (t : Tuf) (h : Fresh E t)
    (ops : List Op) (hann : NonDecreasing E t ops announced) :
    NonDecreasing E t ops (fun t => t.snapshot.map (·.version)) := by
  obtain ⟨r, rfl, _⟩ := Fresh.eq E hE t h
  exact mono_of_announced E _ ops _ _ (snapshot_slot E) rfl hann

/-- **C15 (partial).** One snapshot is directly replaced by another only with a higher version. -/
theorem C15_direct_replacement_partial (E : Env) (t : Tuf) (op : Op) (s s' : SnapshotMetadata)
    (h : t.snapshot = some s) (h' : (step E t op).2.snapshot = some s') :
    s' = s ∨ s.version < s'.version := by
  have hc := step_case E t op
  generalize (step E t op).1 = o at hc
  generalize (step E t op).2 = t' at hc h'
  cases hc with
  | failed | same | targets | delegation => rw [h] at h'; cases h'; exact .inl rfl
  | root | timestampExpired => cases h'
  | timestamp clk raw new hr =>
    simp only at h'
    split at h'
    · rw [h] at h'; cases h'; exact .inl rfl
    · cases h'
  | snapshot clk raw new t' hr hp =>
    obtain ⟨ts, e1, _, e3, e4⟩ := hr.announced
    rw [hp.snapshot] at h'; cases h'
    rw [h] at e3
    simp only [verOf] at e3
    right; omega

/-- **C17 (partial).** If the versions that the successively trusted snapshots list for the targets
role do not decrease, trusted targets metadata never rolls back. Missing: the assumption cannot be
dropped (`C17_targets_can_roll_back`). -/
theorem C17_targets_no_rollback_partial (E : Env) (hE : Decoders E) (t : Tuf) (h : Fresh E t)
    (ops : List Op) (hl : NonDecreasing E t ops (listedNow targetsName)) :
    NonDecreasing E t ops (fun t => t.targets.map (·.version)) := by
  obtain ⟨r, rfl, _⟩ := Fresh.eq E hE t h
  exact mono_of_announced E _ ops _ _ (targets_slot E) rfl hl

/-- **C17 (partial).** The same for each delegated role. -/
theorem C17_delegated_no_rollback_partial (E : Env) (hE : Decoders E) (t : Tuf) (h : Fresh E t)
    (ops : List Op) (role : MetadataPath) (hl : NonDecreasing E t ops (listedNow role)) :
    NonDecreasing E t ops (fun t => (t.delegations.get? role).map (·.version)) := by
  obtain ⟨r, rfl, _⟩ := Fresh.eq E hE t h
  exact mono_of_announced E _ ops _ _ (delegation_slot E role) rfl hl

/-- **C17 (partial).** Direct replacement only goes upwards, for targets and delegated roles. -/
theorem C17_direct_replacement_partial (E : Env) (t : Tuf) (op : Op) :
    (∀ s s', t.targets = some s → (step E t op).2.targets = some s' →
      s' = s ∨ s.version < s'.version) ∧
    (∀ role s s', t.delegations.get? role = some s → (step E t op).2.delegations.get? role = some s' →
      s' = s ∨ s.version < s'.version) := by
  have hc := step_case E t op
  generalize (step E t op).1 = o at hc
  generalize (step E t op).2 = t' at hc
  cases hc with
  | failed | same | timestamp | timestampExpired =>
    refine ⟨fun s s' h h' => ?_, fun role s s' h h' => ?_⟩
    · rw [h] at h'; cases h'; exact .inl rfl
    · rw [h] at h'; cases h'; exact .inl rfl
  | root => exact ⟨fun s s' h h' => (by cases h'), fun role s s' h h' => (by cases h')⟩
  | snapshot clk raw new t' hr hp =>
    refine ⟨fun s s' h h' => ?_, fun role s s' h h' => ?_⟩
    · by_cases hl : verOf (·.version) t.targets = listed new targetsName
      · rw [hp.targetsKept hl, h] at h'; cases h'; exact .inl rfl
      · rw [hp.targetsDropped hl] at h'; cases h'
    · rw [((hp.delegations role s').1 h').1] at h; cases h; exact .inl rfl
  | targets clk raw new hr =>
    refine ⟨fun s s' h h' => ?_, fun role s s' h h' => ?_⟩
    · obtain ⟨sn, m, e1, _, e3, e4, e5⟩ := hr.announced
      cases h'
      rw [h] at e4; simp only [verOf] at e4
      right; omega
    · simp only at h'; rw [h] at h'; cases h'; exact .inl rfl
  | delegation clk parent role' raw new hr =>
    refine ⟨fun s s' h h' => ?_, fun role s s' h h' => ?_⟩
    · simp only at h'; rw [h] at h'; cases h'; exact .inl rfl
    · simp only [Map.get?_insert] at h'
      split at h'
      · rename_i e
        subst e
        cases h'
        obtain ⟨m, _, e4, e5⟩ := hr.context
        rw [h] at e4; simp only [verOf] at e4
        right; omega
      · rw [h] at h'; cases h'; exact .inl rfl

/-- **C15 is false for the code**: after a newer timestamp announces an older snapshot, the older
snapshot replaces the trusted one, without any root rotation. -/
theorem C15_snapshot_can_roll_back :
    ∃ (E : Env) (t : Tuf) (pre post : List Op) (s s' : SnapshotMetadata), Fresh E t ∧
      rootUpdates E t (pre ++ post) = 0 ∧ (run E t pre).snapshot = some s ∧
      (run E t (pre ++ post)).snapshot = some s' ∧ s'.version < s.version :=
  ⟨Toy.env, Toy.boot, [.timestamp (Toy.clk 100) [11], .snapshot (Toy.clk 100) [21]],
    [.timestamp (Toy.clk 100) [13], .snapshot (Toy.clk 100) [20]],
    Toy.snapshot 2 500 [("targets", 2), ("a", 2)],
    Toy.snapshot 1 500 [("targets", 1), ("a", 1), ("b", 1)],
    .inl ⟨[1], 1, [Toy.key "k".toList 7], by decide⟩, by decide, by decide, by decide, by decide⟩

/-- **C17 is false for the code**: a newer snapshot listing an older version rolls the targets (and
delegated) metadata back. -/
theorem C17_targets_can_roll_back :
    ∃ (E : Env) (t : Tuf) (pre post : List Op) (a a' d d' : TargetsMetadata) (role : MetadataPath),
      Fresh E t ∧ rootUpdates E t (pre ++ post) = 0 ∧
      (run E t pre).targets = some a ∧ (run E t (pre ++ post)).targets = some a' ∧
      a'.version < a.version ∧
      (run E t pre).delegations.get? role = some d ∧
      (run E t (pre ++ post)).delegations.get? role = some d' ∧ d'.version < d.version :=
  ⟨Toy.env, Toy.boot,
    [.timestamp (Toy.clk 100) [11], .snapshot (Toy.clk 100) [21], .targets (Toy.clk 100) [31],
     .delegation (Toy.clk 100) "targets".toList "a".toList [41]],
    [.timestamp (Toy.clk 100) [15], .snapshot (Toy.clk 100) [23], .targets (Toy.clk 100) [30],
     .delegation (Toy.clk 100) "targets".toList "a".toList [40]],
    Toy.targets 2 500 [("x", 2)] Toy.topTargets.delegations, Toy.topTargets,
    Toy.targets 2 500 [("p/y", 4)] none, Toy.targets 1 500 [("p/y", 3)] none, "a".toList,
    .inl ⟨[1], 1, [Toy.key "k".toList 7], by decide⟩, by decide, by decide, by decide, by decide,
    by decide, by decide, by decide⟩

/-- A history meeting the assumptions, in which the versions really grow. -/
def growing : List Op :=
  Toy.ops1 ++ [.timestamp (Toy.clk 100) [11], .snapshot (Toy.clk 100) [21],
    .targets (Toy.clk 100) [31], .delegation (Toy.clk 100) "targets".toList "a".toList [41]]
example : (run Toy.env Toy.boot growing).snapshot.map (·.version) = some 2 ∧
    (run Toy.env Toy.boot growing).targets.map (·.version) = some 2 ∧
    ((run Toy.env Toy.boot growing).delegations.get? "a".toList).map (·.version) = some 2 := by decide
theorem nonDecreasing_of_check (E : Env) (t : Tuf) (ops : List Op) (g : Tuf → Option Nat)
    (h : ∀ j ∈ List.range (ops.length + 1), ∀ i ∈ List.range (j + 1),
      ∀ x ∈ g (at_ E t ops i), ∀ y ∈ g (at_ E t ops j), x ≤ y) : NonDecreasing E t ops g := by
  intro i j hij hj x y hx hy
  exact h j (by simp; omega) i (by simp; omega) x hx y hy
example : NonDecreasing Toy.env Toy.boot growing announced :=
  nonDecreasing_of_check _ _ _ _ (by decide)
example : NonDecreasing Toy.env Toy.boot growing (listedNow targetsName) :=
  nonDecreasing_of_check _ _ _ _ (by decide)
example : NonDecreasing Toy.env Toy.boot growing (listedNow "a".toList) :=
  nonDecreasing_of_check _ _ _ _ (by decide)

/-! ### C19, C20 -/

/-- **C19.** Trusted timestamp, snapshot and targets metadata come from documents that meet the
threshold of the root trusted now. -/
theorem C19_signed_under_current_root (E : Env) (hE : Decoders E) (t : Tuf) (h : Fresh E t)
    (ops : List Op) :
    let t' := run E t ops
    (∀ m, t'.timestamp = some m → ∃ raw, Authentic E E.timestampFromSlice raw
      t'.root.timestamp.threshold (timestampSigners t'.root) m) ∧
    (∀ m, t'.snapshot = some m → ∃ raw, Authentic E E.snapshotFromSlice raw
      t'.root.snapshot.threshold (snapshotSigners t'.root) m) ∧
    (∀ m, t'.targets = some m → ∃ raw, Authentic E E.targetsFromSlice raw
      t'.root.targets.threshold (targetsSigners t'.root) m) := by
  obtain ⟨r, rfl, _⟩ := Fresh.eq E hE t h
  refine run_invariant E (fun t' =>
    (∀ m, t'.timestamp = some m → ∃ raw, Authentic E E.timestampFromSlice raw
      t'.root.timestamp.threshold (timestampSigners t'.root) m) ∧
    (∀ m, t'.snapshot = some m → ∃ raw, Authentic E E.snapshotFromSlice raw
      t'.root.snapshot.threshold (snapshotSigners t'.root) m) ∧
    (∀ m, t'.targets = some m → ∃ raw, Authentic E E.targetsFromSlice raw
      t'.root.targets.threshold (targetsSigners t'.root) m)) ?_ _ ?_ ops
  · rintro t op ⟨h1, h2, h3⟩
    have hc := step_case E t op
    generalize (step E t op).1 = o at hc
    generalize (step E t op).2 = t' at hc
    cases hc with
    | failed | same | delegation => exact ⟨h1, h2, h3⟩
    | root => exact ⟨fun m h => (by cases h), fun m h => (by cases h), fun m h => (by cases h)⟩
    | timestamp clk raw new hr =>
      refine ⟨?_, ?_, h3⟩
      · intro m hm; cases hm; exact ⟨raw, hr.signed⟩
      · intro m hm
        simp only at hm
        split at hm
        · exact h2 m hm
        · cases hm
    | timestampExpired => exact ⟨h1, fun m h => (by cases h), h3⟩
    | snapshot clk raw new t' hr hp =>
      refine ⟨?_, ?_, ?_⟩
      · rw [hp.timestamp, hp.root]; exact h1
      · rw [hp.snapshot, hp.root]
        intro m hm; cases hm; exact ⟨raw, hr.signed⟩
      · rw [hp.root]
        intro m hm
        by_cases hl : verOf (·.version) t.targets = listed new targetsName
        · rw [hp.targetsKept hl] at hm; exact h3 m hm
        · rw [hp.targetsDropped hl] at hm; cases hm
    | targets clk raw new hr =>
      refine ⟨h1, h2, ?_⟩
      intro m hm; cases hm; exact ⟨raw, hr.signed⟩
  · exact ⟨fun m h => (by cases h), fun m h => (by cases h), fun m h => (by cases h)⟩

/-- **C20 (partial).** Trusted delegated metadata was installed by some earlier call of the history,
under the same root, and at that moment met the full rule: its parent was trusted and delegated to
it with the keys and threshold that signed it. Missing: that the parent still says so now, which is
false (`C20_revoked_delegation_stays_trusted`). -/
theorem C20_delegated_authorised_partial (E : Env) (hE : Decoders E) (t : Tuf) (h : Fresh E t)
    (ops : List Op) (role : MetadataPath) (d : TargetsMetadata)
    (hd : (run E t ops).delegations.get? role = some d) :
    ∃ pre clk parent raw post, ops = pre ++ .delegation clk parent role raw :: post ∧
      DelegationRule E clk (run E t pre) parent role raw d ∧
      rootUpdates E (run E t pre) (.delegation clk parent role raw :: post) = 0 := by
  obtain ⟨r, rfl, _⟩ := Fresh.eq E hE t h
  have hsnoc : ∀ (t : Tuf) (l : List Op) (op : Op),
      rootUpdates E t (l ++ [op]) = rootUpdates E t l + rootUpdates E (run E t l) [op] := by
    intro t l op
    have a := C08_root_version_counts E t (l ++ [op])
    have b := C08_root_version_counts E t l
    have c := C08_root_version_counts E (run E t l) [op]
    rw [run_append] at a
    omega
  induction ops using List.reverseRecOn with
  | nil => cases hd
  | append_singleton ops op ih =>
    rw [run_snoc] at hd
    have old : (run E ⟨r, none, none, none, []⟩ ops).delegations.get? role = some d →
        (step E (run E ⟨r, none, none, none, []⟩ ops) op).2.root.version =
          (run E ⟨r, none, none, none, []⟩ ops).root.version →
        ∃ pre clk parent raw post, ops ++ [op] = pre ++ .delegation clk parent role raw :: post ∧
          DelegationRule E clk (run E ⟨r, none, none, none, []⟩ pre) parent role raw d ∧
          rootUpdates E (run E ⟨r, none, none, none, []⟩ pre)
            (.delegation clk parent role raw :: post) = 0 := by
      intro hold hroot
      obtain ⟨pre, clk, parent, raw, post, e1, e2, e3⟩ := ih hold
      refine ⟨pre, clk, parent, raw, post ++ [op], by rw [e1]; simp, e2, ?_⟩
      rw [← List.cons_append, hsnoc, e3, ← run_append, ← e1]
      have c := C08_root_version_counts E (run E ⟨r, none, none, none, []⟩ ops) [op]
      rw [run_cons, run_nil, hroot] at c
      omega
    have hc := step_case E (run E ⟨r, none, none, none, []⟩ ops) op
    generalize ht : run E ⟨r, none, none, none, []⟩ ops = t0 at *
    generalize (step E t0 op).1 = o at hc
    generalize (step E t0 op).2 = t' at *
    cases hc with
    | failed | same | timestamp | timestampExpired | targets => exact old hd rfl
    | root => cases hd
    | snapshot clk raw new t' hr hp =>
      exact old ((hp.delegations role d).1 hd).1 (by rw [hp.root])
    | delegation clk parent role' raw new hr =>
      simp only [Map.get?_insert] at hd
      split at hd
      · rename_i e
        subst e
        cases hd
        refine ⟨ops, clk, parent, raw, [], rfl, by rw [ht]; exact hr, ?_⟩
        simp [rootUpdates]
      · exact old hd rfl

/-- **C20 is false for the code**: after new targets metadata replaces the keys of a delegation, the
metadata signed with the old keys stays trusted, although no document with this content meets the
delegation's current keys. -/
theorem C20_revoked_delegation_stays_trusted :
    ∃ (E : Env) (t : Tuf) (ops : List Op) (role : MetadataPath) (d ta : TargetsMetadata)
      (ds : Delegations) (dl : Delegation), Fresh E t ∧
      (run E t ops).delegations.get? role = some d ∧
      (run E t ops).targets = some ta ∧ ta.delegations = some ds ∧ ds.roles = [dl] ∧
      dl.role = role ∧
      ∀ raw, ¬ Authentic E E.targetsFromSlice raw dl.threshold (keysFor ds.keys dl.keyIds) d := by
  refine ⟨Toy.env, Toy.boot,
    Toy.ops1 ++ [.timestamp (Toy.clk 100) [15], .snapshot (Toy.clk 100) [24],
      .targets (Toy.clk 100) [32]],
    "a".toList, Toy.targets 1 500 [("p/y", 3)] none,
    Toy.targets 2 500 [("x", 2)] (some Toy.rekeyed), Toy.rekeyed,
    { Toy.delegation "a" true ["p/"] with keyIds := ["e".toList] },
    .inl ⟨[1], 1, [Toy.key "k".toList 7], by decide⟩, by decide, by decide, by decide, by decide,
    by decide, ?_⟩
  intro raw hA
  rw [← verifySignatures_ok_iff] at hA
  revert hA
  intro hA
  have hA := (verifySignatures_ok_iff _ _ _ _ _ _).1 hA
  obtain ⟨msg, ⟨hn, sigs, signed, e1, e2, ids, hnd, hlen, hall⟩, hdec⟩ := hA
  cases ids with
  | nil => simp [Toy.delegation] at hlen
  | cons id ids =>
    obtain ⟨k, s, hk, hs, hv⟩ := hall id (by simp)
    have hkm := mem_of_lastWith hk
    have hfk : keysFor Toy.rekeyed.keys ["e".toList] = [Toy.key "e".toList 9] := by decide
    have hk' : k = Toy.key "e".toList 9 := by
      have : k ∈ keysFor Toy.rekeyed.keys ["e".toList] := hkm
      rw [hfk] at this
      simpa using this
    subst hk'
    have hkid := hs.1
    have hid := hk.1
    have hsm := mem_of_lastWith hs
    have hdoc : ∀ p ∈ Toy.world.table.docs, ∀ s ∈ p.2.1, s.keyId ≠ "e".toList := by decide
    have : ∃ p ∈ Toy.world.table.docs, p.2.1 = sigs := by
      have e1' : Toy.tab Toy.world.table.docs raw = .ok (sigs, signed) := e1
      unfold Toy.tab at e1'
      split at e1'
      · rename_i v hv'
        cases e1'
        exact ⟨_, Map.mem_of_get? hv', rfl⟩
      · cases e1'
    obtain ⟨p, hp, rfl⟩ := this
    exact hdoc p hp s hsm (by rw [hkid, ← hid]; rfl)

end RustTuf.Props
