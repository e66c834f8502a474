import Verif.Lemmas.During
import Verif.Props.Client

/-!
# What a successful update establishes
-/

namespace RustTuf.Props
open Client Spec RustTuf Tuf

/-! ### Reachable trusted metadata -/

/-- Trusted metadata that some history of update calls leads to. -/
def Reachable (E : Env) (t : Tuf) : Prop := ∃ t0 ops, Fresh E t0 ∧ t = run E t0 ops

theorem Reachable.step {E : Env} {t : Tuf} (h : Reachable E t) (op : Op) :
    Reachable E (Tuf.step E t op).2 := by
  obtain ⟨t0, ops, h0, rfl⟩ := h
  exact ⟨t0, ops ++ [op], h0, by rw [run_snoc]⟩

theorem Reachable.step' {E : Env} {t t' : Tuf} {op : Op} {o : Outcome} (h : Reachable E t)
    (e : Tuf.step E t op = (o, t')) : Reachable E t' := by
  have := h.step op
  rwa [e] at this

/-- All trusted version numbers, and the announced ones, are at least one. -/
structure Positive (t : Tuf) : Prop where
  root : 1 ≤ t.root.version ∧ t.root.version ≤ 4294967295
  timestamp : ∀ ts, t.timestamp = some ts → 1 ≤ ts.version ∧ 1 ≤ ts.snapshot.version
  snapshot : ∀ sn, t.snapshot = some sn → 1 ≤ sn.version ∧ ∀ p ∈ sn.metas, 1 ≤ p.2.version
  targets : ∀ ta, t.targets = some ta → 1 ≤ ta.version

theorem Reachable.positive {E : Env} (hE : Decoders E) {t : Tuf} (h : Reachable E t) :
    Positive t := by
  obtain ⟨t0, ops, h0, rfl⟩ := h
  obtain ⟨r, rfl, raw, ha⟩ := Fresh.eq E hE t0 h0
  refine run_invariant E Positive ?_ _ ?_ ops
  · rintro t op ⟨h1, h2, h3, h4⟩
    have hc := step_case E t op
    generalize (Tuf.step E t op).1 = o at hc
    generalize (Tuf.step E t op).2 = t' at hc
    cases hc with
    | failed | same => exact ⟨h1, h2, h3, h4⟩
    | root raw new hr =>
      have := decoders_of_authentic hE.root hr.signedByOld
      exact ⟨this, by simp [ofRoot], by simp [ofRoot], by simp [ofRoot]⟩
    | timestamp clk raw new hr =>
      refine ⟨h1, ?_, ?_, h4⟩
      · intro ts hts
        cases hts
        have := decoders_of_authentic hE.timestamp hr.signed
        exact ⟨this.1, this.2.2.1⟩
      · intro sn hsn
        simp only at hsn
        split at hsn
        · exact h3 sn hsn
        · cases hsn
    | timestampExpired => exact ⟨h1, h2, by simp, h4⟩
    | snapshot clk raw new t' hr hp =>
      refine ⟨by rw [hp.root]; exact h1, by rw [hp.timestamp]; exact h2, ?_, ?_⟩
      · intro sn hsn
        rw [hp.snapshot] at hsn; cases hsn
        have := decoders_of_authentic hE.snapshot hr.signed
        exact ⟨this.1, fun p hp => (this.2.2 p hp).1⟩
      · intro ta hta
        by_cases hl : verOf (·.version) t.targets = listed new targetsName
        · rw [hp.targetsKept hl] at hta; exact h4 ta hta
        · rw [hp.targetsDropped hl] at hta; cases hta
    | targets clk raw new hr =>
      refine ⟨h1, h2, h3, ?_⟩
      intro ta hta
      cases hta
      exact (decoders_of_authentic hE.targets hr.signed).1
    | delegation => exact ⟨h1, h2, h3, h4⟩
  · have := decoders_of_authentic hE.root ha
    exact ⟨this, by simp, by simp, by simp⟩

theorem Reachable.consistent {E : Env} (hE : Decoders E) {t : Tuf} (h : Reachable E t) :
    Consistent t := by
  obtain ⟨t0, ops, h0, rfl⟩ := h
  exact C14_consistent E hE t0 h0 ops

/-! ### Effects of the four parts of an update -/

/-- `n` accepted roots lead from `t` to `t'`. -/
inductive RootSteps (E : Env) : Tuf → Nat → Tuf → Prop
  | zero (t : Tuf) : RootSteps E t 0 t
  | succ (t t1 t2 : Tuf) (raw : Bytes) (n : Nat) : Tuf.step E t (.root raw) = (.changed, t1) →
      RootSteps E t1 n t2 → RootSteps E t (n + 1) t2

theorem root_step {E : Env} {t t' : Tuf} {raw : Bytes} {o : Outcome}
    (h : Tuf.step E t (.root raw) = (o, t')) :
    (o = .changed ∧ ∃ new, RootRule E t raw new ∧ t' = ofRoot new) ∨ (∃ e, o = .failed e) ∧ t' = t := by
  simp only [Tuf.step] at h
  split at h
  · rename_i e t1 hu
    cases h
    exact .inr ⟨⟨_, rfl⟩, updateRoot_error_state E t raw _ _ hu⟩
  · rename_i t1 hu
    cases h
    exact .inl ⟨rfl, (updateRoot_ok_iff E t t' raw).1 hu⟩

theorem RootSteps.version {E : Env} {t t' : Tuf} {n : Nat} (h : RootSteps E t n t') :
    t'.root.version = t.root.version + n := by
  induction h with
  | zero t => rfl
  | succ t t1 t2 raw n h1 h2 ih =>
    rcases root_step h1 with ⟨_, new, hr, rfl⟩ | ⟨⟨e, he⟩, _⟩
    · have := hr.nextVersion
      simp only [ofRoot] at ih
      omega
    · cases he

theorem RootSteps.eq_of_zero {E : Env} {t t' : Tuf} (h : RootSteps E t 0 t') : t' = t := by
  generalize hn : 0 = n at h
  cases h with
  | zero => rfl
  | succ => cases hn

theorem RootSteps.reachable {E : Env} {t t' : Tuf} {n : Nat} (h : RootSteps E t n t')
    (hr : Reachable E t) : Reachable E t' := by
  induction h with
  | zero t => exact hr
  | succ t t1 t2 raw n h1 h2 ih => exact ih (hr.step' h1)

section eff
variable {W : Type} {E : Env} {D : Digest} {R : World W} {cfg : Config}

/-- Requests leave the trusted metadata alone. -/
theorem lift_tuf {α : Type} (m : M (Io W) α) (t : Tuf) :
    Keeps (fun s : St W => s.tuf = t) (lift m) := by
  intro s hs
  unfold lift
  cases m s.io with
  | mk r io' => cases r <;> exact hs

theorem clock_tuf (t : Tuf) : Keeps (fun s : St W => s.tuf = t) (getClock R) :=
  Tri.getClock fun _ hs => hs

/-- A clock reading is one of the world's. -/
theorem clock_read (t : Tuf) {X : Err → St W → Prop} :
    Tri (fun s : St W => s.tuf = t) (getClock R)
      (fun c s => (∃ w, c = (R.clock w).1) ∧ s.tuf = t) X :=
  Tri.getClock fun s hs => ⟨⟨s.io.w, rfl⟩, hs⟩

theorem getTuf_tuf {P : St W → Prop} (t : Tuf) {X : Err → St W → Prop} (h : ∀ s, P s → s.tuf = t) :
    Tri P getTuf (fun t' s => t' = t ∧ P s) X := fun s hs => ⟨h s hs, hs⟩

theorem rootLoop_eff (src : Source) (persist : Bool) (fuel : Nat) : ∀ (upd : Bool) (t : Tuf),
    Tri (fun s : St W => s.tuf = t) (rootLoop E D R cfg src persist fuel upd)
      (fun b s => ∃ n, RootSteps E t n s.tuf ∧ b = (upd || decide (0 < n)))
      (fun _ s => ∃ n, RootSteps E t n s.tuf) := by
  induction fuel with
  | zero => intro upd t; exact Tri.fail fun s hs => ⟨0, hs ▸ .zero _⟩
  | succ fuel ih =>
    intro upd t
    unfold rootLoop
    refine Tri.bind (getTuf_tuf t fun _ h => h) fun t' => Tri.assume fun ht' => ?_
    subst ht'
    have same : ∀ s : St W, s.tuf = t' → ∃ n, RootSteps E t' n s.tuf := fun s hs => ⟨0, hs ▸ .zero _⟩
    refine Tri.bind (Q := fun _ s => s.tuf = t') (Tri.ofExcept (fun _ _ _ h => h)
      (fun _ s _ hs => same s hs)) fun next => ?_
    refine Tri.bind (Tri.attempt (lift_tuf _ t') same) fun r => ?_
    cases r with
    | error e =>
      have bad : Tri (fun s : St W => s.tuf = t') (M.fail e : M (St W) Bool)
          (fun b s => ∃ n, RootSteps E t' n s.tuf ∧ b = (upd || decide (0 < n)))
          (fun _ s => ∃ n, RootSteps E t' n s.tuf) := Tri.fail same
      cases e with
      | notFound => exact Tri.ret fun s hs => ⟨0, hs ▸ .zero _, by simp⟩
      | _ => exact bad
    | ok raw =>
      refine Tri.bind (Q := fun o s => Tuf.step E t' (.root raw) = (.changed, s.tuf)) ?_ fun o => ?_
      · refine Tri.updateTuf fun s o t'' hs hst => ?_
        have hs' : s.tuf = t' := hs
        rw [hs'] at hst
        rcases root_step hst with ⟨rfl, _⟩ | ⟨⟨e, rfl⟩, rfl⟩
        · exact hst
        · exact ⟨0, .zero _⟩
      · refine Tri.fix fun s1 h1 => ?_
        refine Tri.bind (Q := fun _ s => s.tuf = s1.tuf) ?_ fun _ => ?_
        · refine (Tri.conseq (Q := fun _ s => s.tuf = s1.tuf) (X := fun _ s => s.tuf = s1.tuf)
            (P := fun s : St W => s.tuf = s1.tuf) ?_ (fun s hs => hs ▸ rfl) (fun _ _ h => h)
            (fun _ s hs => ⟨1, hs ▸ .succ _ _ _ raw 0 h1 (.zero _)⟩))
          exact Keeps.when fun _ => (lift_tuf _ _).bind fun _ => lift_tuf _ _
        · refine (ih true s1.tuf).conseq (fun _ h => h) ?_ ?_
          · rintro b s ⟨n, hn, hb⟩
            exact ⟨n + 1, .succ _ _ _ raw n h1 hn, by simp [hb]⟩
          · rintro _ s ⟨n, hn⟩
            exact ⟨n + 1, .succ _ _ _ raw n h1 hn⟩

theorem updateRoot_eff (src : Source) (persist : Bool) (t : Tuf) :
    Tri (fun s : St W => s.tuf = t) (updateRootWithRepos E D R cfg src persist)
      (fun b s => ∃ n, RootSteps E t n s.tuf ∧ b = decide (0 < n) ∧
        ∃ w, (R.clock w).1 .root < s.tuf.root.expires)
      (fun _ s => ∃ n, RootSteps E t n s.tuf) := by
  unfold updateRootWithRepos
  refine Tri.bind (rootLoop_eff src persist _ false t) fun b => ?_
  refine Tri.ex fun n => ?_
  refine Tri.fix ?_
  rintro s1 ⟨h1, h2⟩
  refine Tri.bind (Q := fun c s => (∃ w, c = (R.clock w).1) ∧ s.tuf = s1.tuf)
    (Tri.getClock (by rintro s rfl; exact ⟨⟨_, rfl⟩, rfl⟩)) fun c => Tri.assume fun hc => ?_
  obtain ⟨w, rfl⟩ := hc
  refine Tri.bind (getTuf_tuf s1.tuf fun _ h => h) fun t2 => Tri.assume fun ht2 => ?_
  subst ht2
  refine Tri.ite (fun _ => Tri.fail fun s hs => ⟨n, hs ▸ h1⟩) (fun hc => Tri.ret fun s hs => ?_)
  rw [hs]
  exact ⟨n, h1, by simpa using h2, w, by omega⟩

/-- The last part of the three other update functions. -/
theorem finish_eff (o : Op) (role : Role) (p : MetadataPath) (raw : Bytes) (t : Tuf) (persist : Bool) :
    Tri (fun s : St W => s.tuf = t)
      (do match ← updateTuf E o with
          | .changed =>
            M.when persist (lift (storeMetadata R role p .none raw))
            return true
          | _ => return false)
      (fun b s => (b = true ∧ Tuf.step E t o = (.changed, s.tuf)) ∨
        (b = false ∧ Tuf.step E t o = (.unchanged, s.tuf)))
      (fun e s => Tuf.step E t o = (.changed, s.tuf) ∨ Tuf.step E t o = (.failed e, s.tuf)) := by
  refine Tri.bind (Q := fun out s => Tuf.step E t o = (out, s.tuf) ∧ ∀ e, out ≠ .failed e)
    (Tri.updateTuf fun s out t' hs hst => ?_) fun out => ?_
  · have hs' : s.tuf = t := hs
    rw [hs'] at hst
    cases out with
    | failed e => exact .inr hst
    | changed => exact ⟨hst, by simp⟩
    | unchanged => exact ⟨hst, by simp⟩
  · refine Tri.fix ?_
    rintro s1 ⟨h1, h2⟩
    cases out with
    | failed e => exact absurd rfl (h2 e)
    | unchanged => exact Tri.ret fun s hs => .inr ⟨rfl, hs ▸ h1⟩
    | changed =>
      refine Tri.bind (Q := fun _ s => s.tuf = s1.tuf) ?_ fun _ => Tri.ret fun s hs => .inl ⟨rfl, hs ▸ h1⟩
      refine Tri.conseq (P := fun s : St W => s.tuf = s1.tuf) (Q := fun _ s => s.tuf = s1.tuf)
        (X := fun _ s => s.tuf = s1.tuf) ?_ (fun s hs => hs ▸ rfl) (fun _ _ h => h)
        (fun _ s hs => .inl (hs ▸ h1))
      exact Keeps.when fun _ => lift_tuf _ _

/-- Result of `update_timestamp_with_repos` in terms of the trusted metadata. -/
theorem updateTimestamp_eff (src : Source) (persist : Bool) (t : Tuf) :
    Tri (fun s : St W => s.tuf = t) (updateTimestampWithRepos E D R cfg src persist)
      (fun b s => ∃ w raw, (b = true ∧ Tuf.step E t (.timestamp (R.clock w).1 raw) = (.changed, s.tuf)) ∨
        (b = false ∧ Tuf.step E t (.timestamp (R.clock w).1 raw) = (.unchanged, s.tuf)))
      (fun _ s => s.tuf = t ∨ ∃ clk raw o, Tuf.step E t (.timestamp clk raw) = (o, s.tuf)) := by
  unfold updateTimestampWithRepos
  refine Tri.bind ((lift_tuf _ t).conseq (fun _ h => h) (fun _ _ h => h) (fun _ _ h => .inl h))
    fun raw => ?_
  refine Tri.bind (clock_read t) fun clk => Tri.assume ?_
  rintro ⟨w, rfl⟩
  exact (finish_eff (.timestamp _ raw) _ _ raw t persist).conseq (fun _ h => h)
    (fun b s h => ⟨w, raw, h⟩) (fun e s h => .inr ⟨_, raw, h.elim (fun h => ⟨_, h⟩) (fun h => ⟨_, h⟩)⟩)

theorem updateSnapshot_eff (src : Source) (persist consistent : Bool) (t : Tuf) :
    Tri (fun s : St W => s.tuf = t) (updateSnapshotWithRepos E D R src persist consistent)
      (fun b s => (∃ w raw, b = true ∧ Tuf.step E t (.snapshot (R.clock w).1 raw) = (.changed, s.tuf)) ∨
        (b = false ∧ s.tuf = t ∧ ∃ ts, t.timestamp = some ts ∧
          ts.snapshot.version ≤ verOf (·.version) t.snapshot))
      (fun _ s => s.tuf = t ∨ ∃ clk raw o, Tuf.step E t (.snapshot clk raw) = (o, s.tuf)) := by
  unfold updateSnapshotWithRepos
  refine Tri.bind (getTuf_tuf t fun _ h => h) fun t' => Tri.assume fun ht' => ?_
  subst ht'
  cases hts : t'.timestamp with
  | none => exact Tri.fail fun s hs => .inl hs
  | some ts =>
    refine Tri.ite (fun hv => Tri.ret fun s hs => .inr ⟨rfl, hs, ts, rfl, ?_⟩) fun hv => ?_
    · rw [← snapshotVersion_eq]; exact hv
    refine Tri.bind (Q := fun _ s => s.tuf = t')
      (Tri.ofExcept (fun _ _ _ h => h) (fun _ _ _ h => .inl h)) fun p => ?_
    obtain ⟨a, v⟩ := p
    refine Tri.bind ((lift_tuf _ t').conseq (fun _ h => h) (fun _ _ h => h) (fun _ _ h => .inl h))
      fun raw => ?_
    refine Tri.bind (clock_read t') fun clk => Tri.assume ?_
    rintro ⟨w, rfl⟩
    refine (finish_eff (.snapshot _ raw) _ _ raw t' persist).conseq (fun _ h => h) ?_
      (fun e s h => .inr ⟨_, raw, h.elim (fun h => ⟨_, h⟩) (fun h => ⟨_, h⟩)⟩)
    rintro b s (h | ⟨rfl, h⟩)
    · exact .inl ⟨w, raw, h⟩
    · simp only [Tuf.step] at h
      split at h <;> cases h
      rename_i hu
      obtain ⟨h1, _, ts', h2, _, h3⟩ := (updateSnapshot_false_iff ..).1 hu
      exact .inr ⟨rfl, h1, ts', by rw [← hts]; exact h2, by omega⟩

theorem updateTargets_eff (src : Source) (persist consistent : Bool) (t : Tuf) :
    Tri (fun s : St W => s.tuf = t) (updateTargetsWithRepos E D R src persist consistent)
      (fun b s => (∃ w raw, b = true ∧ Tuf.step E t (.targets (R.clock w).1 raw) = (.changed, s.tuf)) ∨
        (b = false ∧ s.tuf = t ∧ ∃ sn m, t.snapshot = some sn ∧ sn.metas.get? targetsName = some m ∧
          m.version ≤ verOf (·.version) t.targets))
      (fun _ s => s.tuf = t ∨ ∃ clk raw o, Tuf.step E t (.targets clk raw) = (o, s.tuf)) := by
  unfold updateTargetsWithRepos
  refine Tri.bind (getTuf_tuf t fun _ h => h) fun t' => Tri.assume fun ht' => ?_
  subst ht'
  cases hsn : t'.snapshot with
  | none => exact Tri.fail fun s hs => .inl hs
  | some sn =>
    dsimp only
    cases hm : sn.metas.get? (MetadataPath.fromRole .targets) with
    | none => exact Tri.fail fun s hs => .inl hs
    | some m =>
      refine Tri.ite (fun hv => Tri.ret fun s hs => .inr ⟨rfl, hs, sn, m, rfl, hm, ?_⟩) fun hv => ?_
      · rw [← targetsVersion_eq]; exact hv
      refine Tri.bind (Q := fun _ s => s.tuf = t')
        (Tri.ofExcept (fun _ _ _ h => h) (fun _ _ _ h => .inl h)) fun p => ?_
      obtain ⟨a, v⟩ := p
      refine Tri.bind ((lift_tuf _ t').conseq (fun _ h => h) (fun _ _ h => h) (fun _ _ h => .inl h))
        fun raw => ?_
      refine Tri.bind (clock_read t') fun clk => Tri.assume ?_
      rintro ⟨w, rfl⟩
      refine (finish_eff (.targets _ raw) _ _ raw t' persist).conseq (fun _ h => h) ?_
        (fun e s h => .inr ⟨_, raw, h.elim (fun h => ⟨_, h⟩) (fun h => ⟨_, h⟩)⟩)
      rintro b s (h | ⟨rfl, h⟩)
      · exact .inl ⟨w, raw, h⟩
      · simp only [Tuf.step] at h
        split at h <;> cases h
        rename_i hu
        obtain ⟨h1, _, sn', m', h2, _, h3, h4⟩ := (updateTargets_false_iff ..).1 hu
        rw [hsn] at h2; cases h2
        have h3' : sn.metas.get? (MetadataPath.fromRole .targets) = some m' := h3
        rw [hm] at h3'; cases h3'
        exact .inr ⟨rfl, h1, sn, m, rfl, h3, by omega⟩

end eff

/-! ### C29 -/

/-- Everything is present, and snapshot and targets have the announced versions. -/
structure Complete (t : Tuf) : Prop where
  snapshot : ∃ ts sn, t.timestamp = some ts ∧ t.snapshot = some sn ∧ sn.version = ts.snapshot.version
  targets : ∃ sn m ta, t.snapshot = some sn ∧ sn.metas.get? targetsName = some m ∧
    t.targets = some ta ∧ ta.version = m.version

variable {W : Type}

theorem timestamp_step {E : Env} (hE : Decoders E) {t t' : Tuf} {clk raw o}
    (h : Tuf.step E t (.timestamp clk raw) = (o, t')) (hnf : ∀ e, o ≠ .failed e) :
    (∃ ts, t'.timestamp = some ts) ∧ t'.root = t.root ∧ t'.targets = t.targets ∧
    (o = .unchanged ∧ t' = t ∨ o = .changed ∧
      verOf (·.version) t.timestamp < verOf (·.version) t'.timestamp) := by
  simp only [Tuf.step] at h
  split at h <;> cases h <;> rename_i hu
  · exact absurd rfl (hnf _)
  · obtain ⟨rfl, new, ha, hv⟩ := (updateTimestamp_none_iff ..).1 hu
    have := (decoders_of_authentic hE.timestamp ha).1
    refine ⟨?_, rfl, rfl, .inl ⟨rfl, rfl⟩⟩
    cases ht : t'.timestamp with
    | none => rw [ht] at hv; simp only [verOf] at hv; omega
    | some ts => exact ⟨ts, rfl⟩
  · obtain ⟨hr, rfl⟩ := (updateTimestamp_some_iff ..).1 hu
    exact ⟨⟨_, rfl⟩, rfl, rfl, .inr ⟨rfl, hr.newer⟩⟩

theorem snapshot_step {E : Env} {t t' : Tuf} {clk raw}
    (h : Tuf.step E t (.snapshot clk raw) = (.changed, t')) :
    ∃ new, SnapshotRule E clk t raw new ∧ SnapshotPost t t' new := by
  simp only [Tuf.step] at h
  split at h <;> cases h
  rename_i hu
  exact updateSnapshot_true E clk t t' raw hu

theorem targets_step {E : Env} {t t' : Tuf} {clk raw}
    (h : Tuf.step E t (.targets clk raw) = (.changed, t')) :
    ∃ new, TargetsRule E clk t raw new ∧ t' = { t with targets := some new } := by
  simp only [Tuf.step] at h
  split at h <;> cases h
  rename_i hu
  exact (updateTargets_true_iff ..).1 hu

/-- A successful update is a sequence of four successful parts. -/
theorem update_parts {E : Env} {D : Digest} {R : World W} {cfg : Config} {s s' : St W} {b : Bool}
    (h : update E D R cfg s = (.ok b, s')) :
    ∃ b1 b2 b3 b4 s1 s2 s3, updateRootWithRepos E D R cfg .remote true s = (.ok b1, s1) ∧
      updateTimestampWithRepos E D R cfg .remote true s1 = (.ok b2, s2) ∧
      updateSnapshotWithRepos E D R .remote true s2.tuf.root.consistentSnapshot s2 = (.ok b3, s3) ∧
      updateTargetsWithRepos E D R .remote true s3.tuf.root.consistentSnapshot s3 = (.ok b4, s') ∧
      b = (b1 || b2 || b3 || b4) := by
  obtain ⟨b1, s1, e1, h⟩ := bind_ok h
  obtain ⟨b2, s2, e2, h⟩ := bind_ok h
  obtain ⟨t2, s2', e2', h⟩ := bind_ok h
  cases e2'
  obtain ⟨b3, s3, e3, h⟩ := bind_ok h
  obtain ⟨t3, s3', e3', h⟩ := bind_ok h
  cases e3'
  obtain ⟨b4, s4, e4, h⟩ := bind_ok h
  cases h
  exact ⟨b1, b2, b3, b4, s1, s2, s3, e1, e2, e3, e4, rfl⟩

/-- The outside world during the last three parts. -/
theorem parts_evolve {E : Env} {D : Digest} {R : World W} {cfg : Config} {s1 s2 s3 s' : St W}
    {b2 b3 b4 c3 c4 : Bool} (e2 : updateTimestampWithRepos E D R cfg .remote true s1 = (.ok b2, s2))
    (e3 : updateSnapshotWithRepos E D R .remote true c3 s2 = (.ok b3, s3))
    (e4 : updateTargetsWithRepos E D R .remote true c4 s3 = (.ok b4, s')) :
    Evolves R s1.io.w s'.io.w := by
  refine (evolves_of_keeps (fun w => ?_) e2).trans ((evolves_of_keeps (fun w => ?_) e3).trans
    (evolves_of_keeps (fun w => ?_) e4))
  · exact (evolves_top w).updateTimestamp _ trivial _ (fun _ => trivial)
  · exact (evolves_top w).updateSnapshot _ trivial _ (fun _ => trivial) _
  · exact (evolves_top w).updateTargets _ trivial _ (fun _ => trivial) _

/-- **C29.** A successful update leaves a complete state whose root was unexpired when the clock was
read during the call, and reports `true` exactly if the trusted metadata changed. -/
theorem C29_update_complete (E : Env) (hE : Decoders E) (D : Digest) (R : World W) (cfg : Config)
    (s s' : St W) (b : Bool) (hr : Reachable E s.tuf) (h : update E D R cfg s = (.ok b, s')) :
    Complete s'.tuf ∧ (During R s.io.w s'.io.w fun w => (R.clock w).1 .root < s'.tuf.root.expires) ∧
      (b = true ↔ s'.tuf ≠ s.tuf) := by
  obtain ⟨b1, b2, b3, b4, s1, s2, s3, e1, e2, e3, e4, rfl⟩ := update_parts h
  obtain ⟨n, r1, rb, -⟩ := (updateRoot_eff (E := E) (D := D) (R := R) (cfg := cfg) .remote true
    s.tuf).run_ok rfl e1
  have hclk := ((updateRoot_clock .remote true s.io.w).run_ok (.refl _) e1).later (parts_evolve e2 e3 e4)
  obtain ⟨w2, raw, r2⟩ := (updateTimestamp_eff (E := E) (D := D) (R := R) (cfg := cfg) .remote true
    s1.tuf).run_ok rfl e2
  have r3 := (updateSnapshot_eff (E := E) (D := D) (R := R) .remote true _ s2.tuf).run_ok rfl e3
  have r4 := (updateTargets_eff (E := E) (D := D) (R := R) .remote true _ s3.tuf).run_ok rfl e4
  have reach1 := r1.reachable hr
  obtain ⟨o2, ho2, hnf2, hb2⟩ : ∃ o, Tuf.step E s1.tuf (.timestamp (R.clock w2).1 raw) = (o, s2.tuf) ∧
      (∀ e, o ≠ .failed e) ∧ (b2 = true ↔ o = .changed) := by
    rcases r2 with ⟨rfl, r⟩ | ⟨rfl, r⟩
    · exact ⟨_, r, by simp, by simp⟩
    · exact ⟨_, r, by simp, by simp⟩
  have reach2 := reach1.step' ho2
  obtain ⟨⟨ts, hts⟩, hroot2, htar2, hcase2⟩ := timestamp_step hE ho2 hnf2
  have pos2 := reach2.positive hE
  -- the snapshot
  have k3 : Reachable E s3.tuf ∧ s3.tuf.root = s2.tuf.root ∧ s3.tuf.timestamp = s2.tuf.timestamp ∧
      (∃ sn, s3.tuf.snapshot = some sn) ∧
      (b3 = false ∧ s3.tuf = s2.tuf ∨ b3 = true ∧
        verOf (·.version) s2.tuf.snapshot < verOf (·.version) s3.tuf.snapshot) := by
    rcases r3 with ⟨clk, raw, rfl, r⟩ | ⟨rfl, r, ts', hts', hle⟩
    · obtain ⟨new, hrule, hpost⟩ := snapshot_step r
      obtain ⟨ts', g1, g2, g3, g4⟩ := hrule.announced
      refine ⟨reach2.step' r, hpost.root, hpost.timestamp, ⟨new, hpost.snapshot⟩, .inr ⟨rfl, ?_⟩⟩
      rw [hpost.snapshot]
      simp only [verOf] at g3 ⊢
      omega
    · refine ⟨r ▸ reach2, by rw [r], by rw [r], ?_, .inl ⟨rfl, r⟩⟩
      have := (pos2.timestamp ts' hts').2
      rw [r]
      cases hsn : s2.tuf.snapshot with
      | none => rw [hsn] at hle; simp only [verOf] at hle; omega
      | some sn => exact ⟨sn, rfl⟩
  obtain ⟨reach3, hroot3, hts3, ⟨sn, hsn3⟩, hcase3⟩ := k3
  have k4 : Reachable E s'.tuf ∧ s'.tuf.root = s3.tuf.root ∧ s'.tuf.timestamp = s3.tuf.timestamp ∧
      s'.tuf.snapshot = s3.tuf.snapshot ∧ (∃ m, sn.metas.get? targetsName = some m) ∧
      (∃ ta, s'.tuf.targets = some ta) ∧
      (b4 = false ∧ s'.tuf = s3.tuf ∨ b4 = true ∧
        verOf (·.version) s3.tuf.targets < verOf (·.version) s'.tuf.targets) := by
    have pos3 := reach3.positive hE
    rcases r4 with ⟨clk, raw, rfl, r⟩ | ⟨rfl, r, sn', m, hsn', hm, hle⟩
    · obtain ⟨new, hrule, hpost⟩ := targets_step r
      obtain ⟨sn', m, g1, g2, g3, g4, g5⟩ := hrule.announced
      rw [hsn3] at g1; cases g1
      refine ⟨reach3.step' r, by rw [hpost], by rw [hpost], by rw [hpost], ⟨m, g3⟩,
        ⟨new, by rw [hpost]⟩, .inr ⟨rfl, ?_⟩⟩
      rw [hpost]
      simp only [verOf] at g4 ⊢
      omega
    · rw [hsn3] at hsn'; cases hsn'
      refine ⟨r ▸ reach3, by rw [r], by rw [r], by rw [r], ⟨m, hm⟩, ?_, .inl ⟨rfl, r⟩⟩
      have : 1 ≤ m.version := (pos3.snapshot sn hsn3).2 _ (Map.mem_of_get? hm)
      rw [r]
      cases hta : s3.tuf.targets with
      | none => rw [hta] at hle; simp only [verOf] at hle; omega
      | some ta => exact ⟨ta, rfl⟩
  obtain ⟨reach4, hroot4, hts4, hsn4, ⟨m, hm⟩, ⟨ta, hta⟩, hcase4⟩ := k4
  have cons := reach4.consistent hE
  refine ⟨⟨?_, ?_⟩, ?_, ?_⟩
  · obtain ⟨ts', g1, g2⟩ := cons.snapshot sn (by rw [hsn4]; exact hsn3)
    exact ⟨ts', sn, g1, by rw [hsn4]; exact hsn3, g2⟩
  · obtain ⟨m', g1, g2⟩ := cons.targets sn ta (by rw [hsn4]; exact hsn3) hta
    exact ⟨sn, m', ta, by rw [hsn4]; exact hsn3, g1, hta, g2⟩
  · rw [hroot4, hroot3, hroot2]; exact hclk
  · have hv := r1.version
    constructor
    · intro hb heq
      have hvr : s'.tuf.root.version = s.tuf.root.version + n := by
        rw [hroot4, hroot3, hroot2]; exact hv
      rw [heq] at hvr
      have hn : n = 0 := by omega
      subst hn
      have hs1 : s1.tuf = s.tuf := r1.eq_of_zero
      have hb1 : b1 = false := by simpa using rb
      subst hb1
      simp only [Bool.false_or, Bool.or_eq_true] at hb
      have htse : s'.tuf.timestamp = s2.tuf.timestamp := by rw [hts4, hts3]
      rcases hcase2 with ⟨ho, h2⟩ | ⟨ho, h2⟩
      · have hb2' : b2 = false := by
          cases b2 with
          | false => rfl
          | true => have := hb2.1 rfl; rw [ho] at this; cases this
        rw [hb2'] at hb
        rcases hcase3 with ⟨rfl, h3⟩ | ⟨rfl, h3⟩
        · rcases hcase4 with ⟨rfl, h4⟩ | ⟨rfl, h4⟩
          · simp at hb
          · rw [heq, h3, h2, hs1] at h4; omega
        · rw [h2, hs1, ← hsn4, heq] at h3; omega
      · rw [hs1, ← htse, heq] at h2; omega
    · intro hne
      by_contra hb
      simp only [Bool.not_eq_true, Bool.or_eq_false_iff] at hb
      obtain ⟨⟨⟨rfl, rfl⟩, rfl⟩, rfl⟩ := hb
      apply hne
      have hn : n = 0 := by
        have : ¬ 0 < n := by simpa using rb.symm
        omega
      subst hn
      have hs1 : s1.tuf = s.tuf := r1.eq_of_zero
      have h2 : s2.tuf = s1.tuf := by
        rcases hcase2 with ⟨_, h2⟩ | ⟨ho, _⟩
        · exact h2
        · exact absurd (hb2.2 ho) (by simp)
      rcases hcase3 with ⟨_, h3⟩ | ⟨h3, _⟩
      · rcases hcase4 with ⟨_, h4⟩ | ⟨h4, _⟩
        · rw [h4, h3, h2, hs1]
        · cases h4
      · cases h3

/-- **C29.** If no clock reading after the start of the call is earlier than `now`, the root is unexpired at `now`. -/
theorem C29_root_unexpired (E : Env) (hE : Decoders E) (D : Digest) (R : World W) (cfg : Config)
    (s s' : St W) (b : Bool) (hr : Reachable E s.tuf) (h : update E D R cfg s = (.ok b, s'))
    (now : Time) (hc : ∀ w, Evolves R s.io.w w → now ≤ (R.clock w).1 .root) :
    now < s'.tuf.root.expires := by
  obtain ⟨_, ⟨w, hev, hw, _⟩, _⟩ := C29_update_complete E hE D R cfg s s' b hr h
  have := hc w hev
  omega

/-- The toy client: the first update changes something, the second nothing. -/
example : Reachable Toy.env Toy.client0.tuf ∧
    (update Toy.env Toy.digest Toy.remoteRepo Toy.config Toy.client0).1 = .ok true ∧
    (update Toy.env Toy.digest Toy.remoteRepo Toy.config
      (update Toy.env Toy.digest Toy.remoteRepo Toy.config Toy.client0).2).1 = .ok false :=
  ⟨⟨Toy.boot, [], .inr ⟨[1], by decide +kernel⟩, rfl⟩, by decide +kernel, by decide +kernel⟩

/-! ### C66 -/

/-- **C66 is false for the code**: a client whose trusted timestamp, snapshot and targets have all
expired reports a successful update if the remote keeps serving the same files (a freeze attack). -/
theorem C66_expired_files_accepted :
    ∃ (E : Env) (D : Digest) (R : World Toy.Disk) (cfg : Config) (s s' : St Toy.Disk) (now : Time)
      (ts : TimestampMetadata) (sn : SnapshotMetadata) (ta : TargetsMetadata),
      Decoders E ∧ Reachable E s.tuf ∧ (∀ w site, (R.clock w).1 site = now) ∧
      update E D R cfg s = (.ok false, s') ∧
      s'.tuf.timestamp = some ts ∧ ts.expires < now ∧ s'.tuf.snapshot = some sn ∧ sn.expires < now ∧
      s'.tuf.targets = some ta ∧ ta.expires < now := by
  refine ⟨Toy.env, Toy.digest, Toy.repos Toy.remoteFiles [] 600, Toy.config,
    ⟨Tuf.run Toy.env Toy.boot (.root [2] :: Toy.ops1), ⟨Toy.Disk.empty, []⟩⟩, _, 600,
    Toy.timestamp 1 500 1, Toy.snapshot 1 500 [("targets", 1), ("a", 1), ("b", 1)], Toy.topTargets,
    Toy.env_decoders, ⟨Toy.boot, .root [2] :: Toy.ops1, .inr ⟨[1], by decide +kernel⟩, rfl⟩,
    fun _ _ => rfl, Prod.ext (by decide +kernel) rfl, ?_⟩
  decide +kernel

/-- **C66 (partial).** What was replaced in the call was unexpired: a new timestamp or new targets
metadata is unexpired, a new snapshot was installed under an unexpired timestamp, and new targets
metadata under an unexpired snapshot. Missing: files that the client keeps because the remote serves
the version it has. -/
theorem C66_new_files_fresh_partial (E : Env) (hE : Decoders E) (D : Digest) (R : World W)
    (cfg : Config) (s s' : St W) (b : Bool) (hr : Reachable E s.tuf)
    (h : update E D R cfg s = (.ok b, s')) (now : Time) (hc : ∀ w site, now ≤ (R.clock w).1 site) :
    (∀ ts, s'.tuf.timestamp = some ts → s.tuf.timestamp ≠ some ts → now < ts.expires) ∧
    (∀ sn, s'.tuf.snapshot = some sn → s.tuf.snapshot ≠ some sn →
      ∃ ts, s'.tuf.timestamp = some ts ∧ now < ts.expires) ∧
    (∀ ta, s'.tuf.targets = some ta → s.tuf.targets ≠ some ta → now < ta.expires ∧
      ∃ sn, s'.tuf.snapshot = some sn ∧ now < sn.expires) := by
  obtain ⟨b1, b2, b3, b4, s1, s2, s3, e1, e2, e3, e4, rfl⟩ := update_parts h
  obtain ⟨n, r1, hb1⟩ := (updateRoot_eff (E := E) (D := D) (R := R) (cfg := cfg) .remote true
    s.tuf).run_ok rfl e1
  obtain ⟨w2, raw, r2⟩ := (updateTimestamp_eff (E := E) (D := D) (R := R) (cfg := cfg) .remote true
    s1.tuf).run_ok rfl e2
  have r3 := (updateSnapshot_eff (E := E) (D := D) (R := R) .remote true _ s2.tuf).run_ok rfl e3
  have r4 := (updateTargets_eff (E := E) (D := D) (R := R) .remote true _ s3.tuf).run_ok rfl e4
  have reach1 := r1.reachable hr
  have reach2 : Reachable E s2.tuf := by
    rcases r2 with ⟨_, r⟩ | ⟨_, r⟩ <;> exact reach1.step' r
  have pos2 := reach2.positive hE
  -- the root part keeps all or drops all
  have k1 : s1.tuf = s.tuf ∨ (s1.tuf.timestamp = none ∧ s1.tuf.snapshot = none ∧
      s1.tuf.targets = none) := by
    clear e1 e2 e3 e4 r2 r3 r4 h reach1 reach2 pos2 hb1
    generalize s.tuf = t at r1 hr
    generalize s1.tuf = t' at r1
    induction r1 with
    | zero => exact .inl rfl
    | succ t t1 t2 raw n h1 h2 ih =>
      refine .inr ?_
      rcases root_step h1 with ⟨_, new, _, rfl⟩ | ⟨⟨e, he⟩, _⟩
      · rcases ih (hr.step' h1) with rfl | ih
        · exact ⟨rfl, rfl, rfl⟩
        · exact ih
      · cases he
  have k2 : s2.tuf.targets = s1.tuf.targets ∧
      (s2.tuf = s1.tuf ∨ ∃ ts, s2.tuf.timestamp = some ts ∧ now < ts.expires) ∧
      (s2.tuf.snapshot = s1.tuf.snapshot ∨ s2.tuf.snapshot = none) := by
    rcases r2 with ⟨_, r⟩ | ⟨_, r⟩
    · simp only [Tuf.step] at r
      split at r <;> cases r
      rename_i hu
      obtain ⟨hrule, ht⟩ := (updateTimestamp_some_iff ..).1 hu
      rw [ht]
      refine ⟨rfl, .inr ⟨_, rfl, ?_⟩, ?_⟩
      · have := hrule.unexpired
        have := hc w2 .new
        omega
      · show (if _ then _ else _) = _ ∨ _
        split
        · exact .inl rfl
        · exact .inr rfl
    · simp only [Tuf.step] at r
      split at r <;> cases r
      rename_i hu
      obtain ⟨ht, _⟩ := (updateTimestamp_none_iff ..).1 hu
      rw [ht]
      exact ⟨rfl, .inl rfl, .inl rfl⟩
  have k3 : s3.tuf.timestamp = s2.tuf.timestamp ∧
      (s3.tuf = s2.tuf ∨ ∃ ts, s2.tuf.timestamp = some ts ∧ now < ts.expires) ∧
      (s3.tuf.targets = s2.tuf.targets ∨ s3.tuf.targets = none) ∧ s3.tuf.snapshot ≠ none := by
    rcases r3 with ⟨w, raw, _, r⟩ | ⟨_, r, ts, hts, hle⟩
    · obtain ⟨new, hrule, hpost⟩ := snapshot_step r
      obtain ⟨ts, g1, g2, _⟩ := hrule.announced
      refine ⟨hpost.timestamp, .inr ⟨ts, g1, ?_⟩, ?_, by rw [hpost.snapshot]; simp⟩
      · have := hc w .timestamp
        omega
      · by_cases hl : verOf (·.version) s2.tuf.targets = listed new targetsName
        · exact .inl (hpost.targetsKept hl)
        · exact .inr (hpost.targetsDropped hl)
    · refine ⟨by rw [r], .inl r, .inl (by rw [r]), ?_⟩
      have := (pos2.timestamp ts hts).2
      rw [r]
      intro hn
      rw [hn] at hle
      simp only [verOf] at hle
      omega
  have k4 : s'.tuf.timestamp = s3.tuf.timestamp ∧ s'.tuf.snapshot = s3.tuf.snapshot ∧
      (s'.tuf.targets = s3.tuf.targets ∨ (∃ ta, s'.tuf.targets = some ta ∧ now < ta.expires) ∧
        ∃ sn, s3.tuf.snapshot = some sn ∧ now < sn.expires) := by
    rcases r4 with ⟨w, raw, _, r⟩ | ⟨_, r, _⟩
    · obtain ⟨new, hrule, hpost⟩ := targets_step r
      obtain ⟨sn, m, g1, g2, _⟩ := hrule.announced
      have := hrule.unexpired
      have := hc w .new
      have := hc w .snapshot
      rw [hpost]
      exact ⟨rfl, rfl, .inr ⟨⟨new, rfl, by omega⟩, sn, g1, by omega⟩⟩
    · rw [r]; exact ⟨rfl, rfl, .inl rfl⟩
  obtain ⟨k2a, k2b, k2c⟩ := k2
  obtain ⟨k3a, k3b, k3c, k3d⟩ := k3
  obtain ⟨k4a, k4b, k4c⟩ := k4
  have fresh2 : s2.tuf.timestamp ≠ none → s2.tuf.timestamp = s.tuf.timestamp ∧ s1.tuf = s.tuf ∧
      s2.tuf = s1.tuf ∨
      ∃ ts, s2.tuf.timestamp = some ts ∧ now < ts.expires := by
    intro hne
    rcases k2b with e | e
    · rcases k1 with e' | ⟨e', _⟩
      · exact .inl ⟨by rw [e, e'], e', e⟩
      · rw [e] at hne; exact absurd e' hne
    · exact .inr e
  refine ⟨?_, ?_, ?_⟩
  · intro ts hts hne
    rw [k4a, k3a] at hts
    rcases fresh2 (by rw [hts]; simp) with ⟨e, _⟩ | ⟨ts', e, hlt⟩
    · rw [← e, hts] at hne; exact absurd rfl hne
    · rw [hts] at e; cases e; exact hlt
  · intro sn hsn hne
    rw [k4a, k3a]
    rcases k3b with e | e
    · have hts : s2.tuf.timestamp ≠ none := by
        intro hn
        have := (reach2.consistent hE).snapshot sn (by rw [← e, ← k4b]; exact hsn)
        obtain ⟨ts, h1, _⟩ := this
        rw [hn] at h1; cases h1
      rcases fresh2 hts with ⟨_, e1, e2⟩ | e'
      · rw [k4b, e, e2, e1] at hsn; exact absurd hsn hne
      · exact e'
    · exact e
  · intro ta hta hne
    rcases k4c with e | ⟨⟨ta', e, hlt⟩, sn, hsn, hlt'⟩
    · exfalso
      rw [e] at hta
      rcases k3c with e' | e'
      · rw [e', k2a] at hta
        rcases k1 with e1 | ⟨_, _, e1⟩
        · rw [e1] at hta; exact hne hta
        · rw [e1] at hta; cases hta
      · rw [e'] at hta; cases hta
    · rw [hta] at e; cases e
      exact ⟨hlt, sn, by rw [k4b]; exact hsn, hlt'⟩

end RustTuf.Props
