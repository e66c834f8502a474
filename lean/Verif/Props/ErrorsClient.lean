import Verif.Props.Errors
import Verif.Props.ClientTotal
import Verif.Lemmas.During

/-!
# Errors of `update` name the role they are about (C93)
-/

namespace RustTuf.Props
open Spec Tuf Client
variable {W : Type}

theorem toErr_not_about (k : IoKind) : ¬ AboutRole k.toErr := by
  cases k <;> simp [IoKind.toErr, AboutRole]

theorem hashPreference_not_about {m e} (h : hashPreference m = .error e) : ¬ AboutRole e := by
  unfold hashPreference at h
  generalize hashAlgPrefs = l at h
  induction l with
  | nil => cases h; simp [AboutRole]
  | cons a as ih =>
    unfold hashPreferenceIn at h
    split at h
    · cases h
    · exact ih h

theorem readChecked_not_about {D max h evs e} (he : readChecked D max h evs = .error e) :
    ¬ AboutRole e := by
  unfold readChecked at he
  split at he
  · rename_i hs
    cases he
    unfold SafeReader.new at hs
    split at hs
    · cases hs
    · split at hs <;> cases hs
      rename_i h
      unfold digestContext at h
      split at h <;> cases h
      simp [AboutRole]
  · split at he <;> cases he
    exact toErr_not_about _

theorem checkRole_not_about {role p e} (h : checkRole role p = .error e) : ¬ AboutRole e := by
  unfold checkRole at h
  split at h <;> cases h
  simp [AboutRole]

section
variable {E : Env} {D : Digest} {R : World W} {cfg : Config} (hR : RepositoryErrors R)
include hR

theorem fetchMetadata_not_about {src role p v mx h} {P : Io W → Prop} :
    Tri P (fetchMetadata D R src role p v mx h) (fun _ _ => True) (fun e _ => ¬ AboutRole e) := by
  unfold fetchMetadata
  refine Tri.bind (Q := fun _ _ => True) (Tri.ofExcept (fun _ _ _ _ => trivial)
    (fun _ _ h _ => checkRole_not_about h)) fun _ => ?_
  refine Tri.bind (Q := fun _ _ => True) (fun _ _ => trivial) fun _ => ?_
  refine Tri.bind (Q := fun _ _ => True) (fun io _ => ?_) fun evs => ?_
  · unfold Io.call
    cases hf : (R.provider src).fetchMetadata p v mx h io.w with
    | mk r w' =>
      cases r with
      | ok => trivial
      | error e => exact hR.fetch _ _ _ _ _ _ _ (by rw [hf])
  refine Tri.bind (Q := fun _ _ => True) (Tri.ofExcept (fun _ _ _ _ => trivial)
    (fun _ _ h _ => readChecked_not_about h)) fun raw => ?_
  exact Tri.bind (Q := fun _ _ => True) (fun _ _ => trivial) fun _ => Tri.ret fun _ _ => trivial

theorem storeMetadata_not_about {role p v raw} {P : Io W → Prop} :
    Tri P (storeMetadata R role p v raw) (fun _ _ => True) (fun e _ => ¬ AboutRole e) := by
  unfold storeMetadata
  refine Tri.bind (Q := fun _ _ => True) (Tri.ofExcept (fun _ _ _ _ => trivial)
    (fun _ _ h _ => checkRole_not_about h)) fun _ => ?_
  refine Tri.bind (Q := fun _ _ => True) (fun _ _ => trivial) fun _ => ?_
  intro io _
  unfold Io.call
  cases hf : R.storeMetadata p v raw io.w with
  | mk r w' =>
    cases r with
    | ok => trivial
    | error e => exact hR.store _ _ _ _ _ (by rw [hf])

end

/-- What the error of an update call says about the state it leaves behind. -/
def BlameAt (E : Env) (clk : Clock) (e : Err) (t : Tuf) : Prop :=
  (∀ r, e ≠ .missing r) ∧ ∀ r, e = .expired r →
    TrustedExpired clk t r ∨
    (r = .timestamp ∧ ∃ raw, OfferedExpired E t (.timestamp clk raw) .timestamp) ∨
    (r = .snapshot ∧ ∃ raw, OfferedExpired E t (.targets clk raw) .targets)

/-- The same, with the clock read at some time since `w0`. -/
def Blames (E : Env) (R : World W) (w0 : W) (e : Err) (s : St W) : Prop :=
  ¬ AboutRole e ∨ During R w0 s.io.w fun w => BlameAt E (R.clock w).1 e s.tuf

section
variable {E : Env} {D : Digest} {R : World W} {cfg : Config} {w0 : W}

/-- Requests keep the trusted metadata and act on the outside world. -/
theorem lift_not_about {α : Type} {m : M (Io W) α} (K : Tuf → Prop) {P : W → Prop} (ha : Acts R m)
    (hP : ∀ w w', Evolves R w w' → P w → P w')
    (hn : Tri (fun _ : Io W => True) m (fun _ _ => True) (fun e _ => ¬ AboutRole e)) :
    Tri (fun s : St W => P s.io.w ∧ K s.tuf) (lift m) (fun _ s => P s.io.w ∧ K s.tuf)
      (fun e s => ¬ AboutRole e ∧ P s.io.w ∧ K s.tuf) := by
  intro s hs
  have h1 := ha s.io.w s.io (.refl _)
  have h2 := hn s.io trivial
  unfold lift
  cases hm : m s.io with
  | mk r io' =>
    rw [hm] at h1 h2
    cases r with
    | ok a => exact ⟨hP _ _ h1 hs.1, hs.2⟩
    | error e => exact ⟨h2, hP _ _ h1 hs.1, hs.2⟩

/-- The state after a failed call is the state before, but for the snapshot. -/
theorem failed_tuf {t t' : Tuf} {o : Op} {e : Err} (h : step E t o = (.failed e, t')) :
    t' = t ∨ (∃ clk raw, o = .timestamp clk raw) ∧ t'.root = t.root := by
  have := C21_failed_update_partial E t o e (by rw [h])
  rw [h] at this
  rcases this with h | ⟨clk, raw, _, rfl, _, _, _, _, _, h⟩
  · exact .inl h
  · exact .inr ⟨⟨_, _, rfl⟩, by rw [show t' = _ from h]⟩

variable (q : DecoderErrors E) (hR : RepositoryErrors R)

include q hR in
theorem rootLoop_blames (src : Source) (persist : Bool) (n : Nat) : ∀ upd,
    Tri (fun s : St W => Evolves R w0 s.io.w ∧ Reachable E s.tuf) (rootLoop E D R cfg src persist n upd)
      (fun _ s => Evolves R w0 s.io.w ∧ Reachable E s.tuf) (fun e s => Blames E R w0 e s) := by
  induction n with
  | zero => exact fun upd => Tri.fail fun s _ => .inl (by simp [AboutRole])
  | succ n ih =>
    intro upd
    unfold rootLoop
    refine Tri.bind (Q := fun _ (s : St W) => Evolves R w0 s.io.w ∧ Reachable E s.tuf) (fun _ hs => hs) fun t => ?_
    refine Tri.bind (Q := fun _ (s : St W) => Evolves R w0 s.io.w ∧ Reachable E s.tuf)
      (Tri.ofExcept (fun _ _ _ h => h) (fun e s he _ => .inl ?_)) fun next => ?_
    · unfold nextRootVersion at he
      repeat' split at he
      all_goals cases he
      simp [AboutRole]
    refine Tri.bind (Tri.attempt (lift_not_about (Reachable E) (P := Evolves R w0)
      (acts_fetch src .root _ _ _ _) (fun _ _ h h' => h'.trans h) (fetchMetadata_not_about hR))
      (fun s _ => .inl (by simp [AboutRole]))) fun r => ?_
    cases r with
    | error e =>
      have bad : Tri (fun s : St W => ¬ AboutRole e ∧ Evolves R w0 s.io.w ∧ Reachable E s.tuf)
          (M.fail e : M (St W) Bool) (fun _ s => Evolves R w0 s.io.w ∧ Reachable E s.tuf)
          (fun e s => Blames E R w0 e s) := Tri.fail fun s hs => .inl hs.1
      cases e with
      | notFound => exact Tri.ret fun s hs => hs.2
      | _ => exact bad
    | ok raw =>
      refine Tri.bind (Q := fun _ (s : St W) => Evolves R w0 s.io.w ∧ Reachable E s.tuf)
        (Tri.updateTuf fun s o t' hs hst => ?_) fun _ => ?_
      · have := hs.2.step' hst
        cases o with
        | failed e =>
          refine .inl ?_
          simp only [step] at hst
          split at hst <;> cases hst
          rename_i hu
          exact updateRoot_not_about q hu
        | _ => exact ⟨hs.1, this⟩
      · have one : ∀ v, Tri (fun s : St W => Evolves R w0 s.io.w ∧ Reachable E s.tuf)
            (lift (storeMetadata R .root (MetadataPath.fromRole .root) v raw))
            (fun _ s => Evolves R w0 s.io.w ∧ Reachable E s.tuf) (fun e s => Blames E R w0 e s) :=
          fun v => (lift_not_about (Reachable E) (P := Evolves R w0) (acts_store _ _ _ _)
            (fun _ _ h h' => h'.trans h) (storeMetadata_not_about hR)).conseq (fun _ h => h)
            (fun _ _ h => h) (fun _ _ h => .inl h.1)
        exact Tri.bind (Q := fun _ (s : St W) => Evolves R w0 s.io.w ∧ Reachable E s.tuf)
          (Tri.when (fun _ => Tri.bind (one _) fun _ => one _) fun _ _ h => h) fun _ => ih true

include q hR in
theorem updateRoot_blames (src : Source) (persist : Bool) :
    Tri (fun s : St W => Evolves R w0 s.io.w ∧ Reachable E s.tuf)
      (updateRootWithRepos E D R cfg src persist)
      (fun _ s => Evolves R w0 s.io.w ∧ Reachable E s.tuf) (fun e s => Blames E R w0 e s) := by
  unfold updateRootWithRepos
  refine Tri.bind (rootLoop_blames q hR src persist _ _) fun b => ?_
  refine Tri.fix fun s0 h0 => ?_
  refine Tri.bind (Q := fun c (s : St W) => c = (R.clock s0.io.w).1 ∧ s.tuf = s0.tuf ∧
    s.io.w = (R.clock s0.io.w).2) (Tri.getClock (by rintro s rfl; exact ⟨rfl, rfl, rfl⟩)) fun c =>
    Tri.assume fun hc => ?_
  refine Tri.bind (Q := fun (t : Tuf) (s : St W) => t = s0.tuf ∧ s.tuf = s0.tuf ∧
    s.io.w = (R.clock s0.io.w).2) (fun s hs => ⟨hs.1, hs⟩) fun t => Tri.assume fun ht => ?_
  refine Tri.ite (fun hx => Tri.fail fun s hs => .inr ⟨s0.io.w, h0.1, ⟨by simp, fun r hr => ?_⟩, ?_⟩)
    (fun _ => Tri.ret fun s hs => ⟨?_, ?_⟩)
  · cases hr
    refine .inl ?_
    show s.tuf.root.expires ≤ (R.clock s0.io.w).1 .root
    rw [hs.1, ← hc, ← ht]
    exact hx
  · rw [hs.2]
    exact .step _ _ _ (.refl _) (.clock _)
  · rw [hs.2]
    exact .step _ _ _ h0.1 (.clock _)
  · rw [hs.1]
    exact h0.2

/-- The clock showed `clk` at some time since `w0`. -/
def Showed (R : World W) (w0 : W) (clk : Clock) (w : W) : Prop :=
  During R w0 w fun x => clk = (R.clock x).1

theorem clock_showed (K : Tuf → Prop) {X : Err → St W → Prop} :
    Tri (fun s : St W => Evolves R w0 s.io.w ∧ K s.tuf) (getClock R)
      (fun clk s => Showed R w0 clk s.io.w ∧ K s.tuf) X :=
  Tri.getClock fun s hs => ⟨⟨s.io.w, hs.1, rfl, .step _ _ _ (.refl _) (.clock _)⟩, hs.2⟩

include hR in
theorem finish_blames (o : Op) (clk : Clock) (role : Role) (p : MetadataPath) (raw : Bytes) (persist : Bool)
    (K K' : Tuf → Prop)
    (hK : ∀ t t' out, K t → step E t o = (out, t') →
      match out with
      | .failed e => BlameAt E clk e t'
      | _ => K' t') :
    Tri (fun s : St W => Showed R w0 clk s.io.w ∧ K s.tuf)
      (do match ← updateTuf E o with
          | .changed =>
            M.when persist (lift (storeMetadata R role p .none raw))
            return true
          | _ => return false)
      (fun _ s => Evolves R w0 s.io.w ∧ K' s.tuf) (fun e s => Blames E R w0 e s) := by
  have ev : ∀ {w}, Showed R w0 clk w → Evolves R w0 w := fun ⟨x, h1, _, h3⟩ => h1.trans h3
  refine Tri.bind (Q := fun _ (s : St W) => Evolves R w0 s.io.w ∧ K' s.tuf)
    (Tri.updateTuf fun s out t' hs hst => ?_) fun out => ?_
  · have := hK s.tuf t' out hs.2 hst
    cases out with
    | failed e =>
      obtain ⟨x, h1, h2, h3⟩ := hs.1
      subst h2
      exact .inr ⟨x, h1, this, h3⟩
    | _ => exact ⟨ev hs.1, this⟩
  · cases out with
    | changed =>
      refine Tri.bind (Q := fun _ (s : St W) => Evolves R w0 s.io.w ∧ K' s.tuf) ?_ fun _ =>
        Tri.ret fun s hs => hs
      exact Tri.when (fun _ => (lift_not_about K' (P := Evolves R w0) (acts_store _ _ _ _)
        (fun _ _ h h' => h'.trans h) (storeMetadata_not_about hR)).conseq (fun _ h => h)
        (fun _ _ h => h) (fun _ _ h => .inl h.1)) fun _ _ h => h
    | _ => exact Tri.ret fun s hs => hs

include hR in
theorem fetch_blames (src : Source) (role : Role) (p v mx h) (K : Tuf → Prop) :
    Tri (fun s : St W => Evolves R w0 s.io.w ∧ K s.tuf) (lift (fetchMetadata D R src role p v mx h))
      (fun _ s => Evolves R w0 s.io.w ∧ K s.tuf) (fun e s => Blames E R w0 e s) :=
  (lift_not_about K (P := Evolves R w0) (acts_fetch src role p v mx h)
    (fun _ _ h h' => h'.trans h) (fetchMetadata_not_about hR)).conseq (fun _ h => h) (fun _ _ h => h)
    (fun _ _ h => .inl h.1)

include q hR in
theorem updateTimestamp_blames (hE : Decoders E) (src : Source) (persist : Bool) :
    Tri (fun s : St W => Evolves R w0 s.io.w ∧ Reachable E s.tuf)
      (updateTimestampWithRepos E D R cfg src persist)
      (fun _ s => Evolves R w0 s.io.w ∧ Reachable E s.tuf ∧ s.tuf.timestamp ≠ none)
      (fun e s => Blames E R w0 e s) := by
  unfold updateTimestampWithRepos
  refine Tri.bind (fetch_blames hR _ _ _ _ _ _ (Reachable E)) fun raw => ?_
  refine Tri.bind (clock_showed (Reachable E)) fun clk => ?_
  refine finish_blames hR _ clk _ _ _ _ _ (fun t => Reachable E t ∧ t.timestamp ≠ none) ?_
  intro t t' out hr hst
  have hr' := hr.step' hst
  cases out with
  | failed e =>
    have ht : t'.root = t.root := by
      rcases failed_tuf hst with h | h
      · rw [h]
      · exact h.2
    have he : updateTimestamp E clk t raw = (.error e, t') := by
      simp only [step] at hst
      split at hst <;> cases hst
      assumption
    rcases updateTimestamp_errors q he with h | ⟨rfl, new, h1, h2⟩
    · exact ⟨fun r hr => h ⟨r, .inr hr⟩, fun r hr => absurd ⟨r, .inl hr⟩ h⟩
    · refine ⟨by simp, fun r hr => ?_⟩
      cases hr
      exact .inr (.inl ⟨rfl, raw, new, h1, by rw [ht]; exact h2⟩)
  | unchanged =>
    refine ⟨hr', fun hn => ?_⟩
    simp only [step] at hst
    split at hst <;> cases hst
    rename_i hu
    obtain ⟨rfl, new, ⟨msg, _, hd⟩, hv⟩ := (updateTimestamp_none_iff E clk t t' raw).1 hu
    rw [hn] at hv
    have := (hE.timestamp _ _ hd).1
    simp only [verOf] at hv
    omega
  | changed =>
    refine ⟨hr', fun hn => ?_⟩
    simp only [step] at hst
    split at hst <;> cases hst
    rename_i hu
    have h := ((updateTimestamp_some_iff E clk t t' raw _).1 hu).2
    rw [h] at hn
    cases hn

/-- A failed snapshot or targets update blames what is in the state. -/
theorem blameAt_same {t t' : Tuf} {o : Op} {e : Err} {clk : Clock} (q : DecoderErrors E)
    (hst : step E t o = (.failed e, t')) (hm : ∀ r, e ≠ .missing r)
    (ho : (∃ raw, o = .snapshot clk raw) ∨ ∃ raw, o = .targets clk raw) : BlameAt E clk e t' := by
  have ht : t' = t := by
    rcases failed_tuf hst with h | ⟨⟨_, _, h⟩, _⟩
    · exact h
    · rcases ho with ⟨_, h'⟩ | ⟨_, h'⟩ <;> rw [h] at h' <;> cases h'
  subst ht
  refine ⟨hm, fun r hr => ?_⟩
  rcases (step_claim q hst).1 r hr with ⟨c, hc, h⟩ | h | ⟨h1, ⟨c, raw, h2⟩, h3⟩
  · rcases ho with ⟨_, rfl⟩ | ⟨_, rfl⟩ <;> cases hc <;> exact .inl h
  · rcases ho with ⟨raw, rfl⟩ | ⟨raw, rfl⟩
    · cases r <;> exact h.elim
    · cases r
      case targets =>
        exfalso
        subst hr
        simp only [step] at hst
        split at hst <;> cases hst
        rename_i hu
        unfold updateTargets at hu
        repeat' split at hu
        all_goals cases hu
        all_goals first
          | exact absurd ⟨_, .inl rfl⟩ (verify_not_about q q.targets ‹_›)
          | (rename_i hx; unfold rootUnexpired at hx; split at hx <;> cases hx)
          | (rename_i hx; unfold snapshotUnexpired at hx; repeat' split at hx
             all_goals cases hx)
      all_goals exact h.elim
  · subst h2
    rcases ho with ⟨_, h'⟩ | ⟨_, h'⟩ <;> cases h'
    exact .inr (.inr ⟨h1, raw, h3⟩)

include q hR in
theorem updateSnapshot_blames (hE : Decoders E) (src : Source) (persist consistent : Bool) :
    Tri (fun s : St W => Evolves R w0 s.io.w ∧ Reachable E s.tuf ∧ s.tuf.timestamp ≠ none)
      (updateSnapshotWithRepos E D R src persist consistent)
      (fun _ s => Evolves R w0 s.io.w ∧ Reachable E s.tuf ∧ s.tuf.snapshot ≠ none)
      (fun e s => Blames E R w0 e s) := by
  unfold updateSnapshotWithRepos
  refine Tri.fix fun s0 h0 => ?_
  refine Tri.bind (getTuf_tuf s0.tuf fun s h => by rw [h]) fun t => Tri.assume fun ht => ?_
  subst ht
  cases hts : s0.tuf.timestamp with
  | none => exact absurd hts h0.2.2
  | some ts =>
    refine Tri.ite (fun hv => Tri.ret fun s hs => ?_) fun hv => ?_
    · subst hs
      refine ⟨h0.1, h0.2.1, fun hn => ?_⟩
      have := ((h0.2.1.positive hE).timestamp _ hts)
      simp only [snapshotVersion, hn, Option.map_none, Option.getD_none] at hv
      omega
    refine Tri.bind (Q := fun _ (s : St W) => s = s0)
      (Tri.ofExcept (fun _ _ _ h => h) (fun _ _ he _ => .inl (hashPreference_not_about he))) fun p => ?_
    obtain ⟨a, v⟩ := p
    refine Tri.bind ((fetch_blames hR _ _ _ _ _ _ (fun t => t = s0.tuf)).pre
      (by rintro s rfl; exact ⟨h0.1, rfl⟩)) fun raw => ?_
    refine Tri.bind (clock_showed fun t => t = s0.tuf) fun clk => ?_
    refine finish_blames hR _ clk _ _ _ _ (fun t => t = s0.tuf) (fun t => Reachable E t ∧ t.snapshot ≠ none) ?_
    rintro t t' out rfl hst
    have hr' := h0.2.1.step' hst
    cases out with
    | failed e =>
      refine blameAt_same q hst ?_ (.inl ⟨raw, rfl⟩)
      rintro r rfl
      simp only [step] at hst
      split at hst <;> cases hst
      rename_i hu
      exact h0.2.2 (updateSnapshot_missing q hu)
    | unchanged =>
      refine ⟨hr', fun hn => ?_⟩
      simp only [step] at hst
      split at hst <;> cases hst
      rename_i hu
      obtain ⟨rfl, _, ts', h1, _, h2⟩ := (updateSnapshot_false_iff E clk _ t' raw).1 hu
      have := (h0.2.1.positive hE).timestamp _ h1
      rw [hn] at h2
      simp only [verOf] at h2
      omega
    | changed =>
      refine ⟨hr', fun hn => ?_⟩
      simp only [step] at hst
      split at hst <;> cases hst
      rename_i hu
      obtain ⟨new, _, h⟩ := updateSnapshot_true E clk _ t' raw hu
      rw [h.snapshot] at hn
      cases hn

include q hR in
theorem updateTargets_blames (src : Source) (persist consistent : Bool) :
    Tri (fun s : St W => Evolves R w0 s.io.w ∧ Reachable E s.tuf ∧ s.tuf.snapshot ≠ none)
      (updateTargetsWithRepos E D R src persist consistent)
      (fun _ _ => True) (fun e s => Blames E R w0 e s) := by
  unfold updateTargetsWithRepos
  refine Tri.fix fun s0 h0 => ?_
  refine Tri.bind (getTuf_tuf s0.tuf fun s h => by rw [h]) fun t => Tri.assume fun ht => ?_
  subst ht
  cases hsn : s0.tuf.snapshot with
  | none => exact absurd hsn h0.2.2
  | some sn =>
    dsimp only
    cases sn.metas.get? (MetadataPath.fromRole .targets) with
    | none => exact Tri.fail fun s hs => .inl (by simp [AboutRole])
    | some m =>
      refine Tri.ite (fun hv => Tri.ret fun s hs => trivial) fun hv => ?_
      refine Tri.bind (Q := fun _ (s : St W) => s = s0)
        (Tri.ofExcept (fun _ _ _ h => h) (fun _ _ he _ => .inl (hashPreference_not_about he))) fun p => ?_
      obtain ⟨a, v⟩ := p
      refine Tri.bind ((fetch_blames hR _ _ _ _ _ _ (fun t => t = s0.tuf)).pre
        (by rintro s rfl; exact ⟨h0.1, rfl⟩)) fun raw => ?_
      refine Tri.bind (clock_showed fun t => t = s0.tuf) fun clk => ?_
      refine (finish_blames hR _ clk _ _ _ _ (fun t => t = s0.tuf) (fun t => True) ?_).post fun _ _ _ => trivial
      rintro t t' out rfl hst
      cases out with
      | failed e =>
        refine blameAt_same q hst ?_ (.inr ⟨raw, rfl⟩)
        rintro r rfl
        simp only [step] at hst
        split at hst <;> cases hst
        rename_i hu
        exact h0.2.2 (updateTargets_missing q hu)
      | _ => trivial

include q hR in
theorem update_blames (hE : Decoders E) :
    Tri (fun s : St W => Evolves R w0 s.io.w ∧ Reachable E s.tuf) (update E D R cfg)
      (fun _ _ => True) (fun e s => Blames E R w0 e s) := by
  unfold update
  refine Tri.bind (updateRoot_blames q hR _ _) fun r => ?_
  refine Tri.bind (updateTimestamp_blames q hR hE _ _) fun ts => ?_
  refine Tri.bind (Q := fun _ (s : St W) => Evolves R w0 s.io.w ∧ Reachable E s.tuf ∧ s.tuf.timestamp ≠ none)
    (fun _ hs => hs) fun t => ?_
  refine Tri.bind (updateSnapshot_blames q hR hE _ _ _) fun sn => ?_
  refine Tri.bind (Q := fun _ (s : St W) => Evolves R w0 s.io.w ∧ Reachable E s.tuf ∧ s.tuf.snapshot ≠ none)
    (fun _ hs => hs) fun t => ?_
  exact Tri.bind (updateTargets_blames q hR _ _ _) fun ta => Tri.ret fun _ _ => trivial

end

theorem exec_update_error {E : Env} {D : Digest} {R : World W} {cfg : Config} {s s' : St W} {e : Err}
    (h : exec E D R cfg .update s = (.error e, s')) : update E D R cfg s = (.error e, s') := by
  change M.bind (update E D R cfg) _ s = _ at h
  unfold M.bind at h
  split at h
  · cases h
  · rename_i hu
    cases h
    exact hu

/-- **C93 (partial).** If `update` reports that metadata of a role have expired, then the clock, as
read during the call, shows that the metadata of that role which the client trusts have expired, or
those of the timestamp role that it was offered. Missing: if expired targets metadata are offered,
the error names the snapshot role. -/
theorem C93_update_expired_partial (E : Env) (hE : Decoders E) (q : DecoderErrors E) (D : Digest)
    (R : World W) (hR : RepositoryErrors R) (cfg : Config) (s s' : St W) (hr : Reachable E s.tuf) (r : Role)
    (h : exec E D R cfg .update s = (.error (.expired r), s')) :
    During R s.io.w s'.io.w fun w =>
      TrustedExpired (R.clock w).1 s'.tuf r ∨
      (r = .timestamp ∧ ∃ raw, OfferedExpired E s'.tuf (.timestamp (R.clock w).1 raw) .timestamp) ∨
      (r = .snapshot ∧ ∃ raw, OfferedExpired E s'.tuf (.targets (R.clock w).1 raw) .targets) := by
  have hu : update E D R cfg s = (.error (.expired r), s') := exec_update_error h
  rcases (update_blames q hR hE).run_error ⟨.refl _, hr⟩ hu with hn | hd
  · exact absurd ⟨r, .inl rfl⟩ hn
  · exact hd.imp fun w hw => hw.2 r rfl

/-- **C93.** `update` never reports missing metadata. -/
theorem C93_update_never_missing (E : Env) (hE : Decoders E) (q : DecoderErrors E) (D : Digest)
    (R : World W) (hR : RepositoryErrors R) (cfg : Config) (s s' : St W) (hr : Reachable E s.tuf) (r : Role) :
    exec E D R cfg .update s ≠ (.error (.missing r), s') := by
  intro h
  have hu : update E D R cfg s = (.error (.missing r), s') := exec_update_error h
  rcases (update_blames q hR hE).run_error ⟨.refl _, hr⟩ hu with hn | ⟨w, _, hw, _⟩
  · exact absurd ⟨r, .inr rfl⟩ hn
  · exact hw.1 r rfl

/-- The toy repositories report no such errors. -/
theorem toy_repositoryErrors (files targets now) : RepositoryErrors (Toy.repos files targets now) where
  fetch := by
    intro src p v m h w e he
    cases src
    all_goals
      simp only [Toy.repos, World.provider] at he
      split at he <;> cases he
      simp [AboutRole]
  store := by intro p v b w e h; cases h

/-- Metadata of which only the targets metadata expire before 600. -/
def staleTargets : Toy.World where
  roots := [(1, Toy.root 1 1000)]
  timestamps := [(10, Toy.timestamp 1 900 1)]
  snapshots := [(20, Toy.snapshot 1 900 [("targets", 1)])]
  targets := [(30, Toy.targets 1 500 [("x", 1)] none)]

/-- They are what the repository offers, at time 600. -/
def lateRepo : World Toy.Disk :=
  Toy.repos [(("timestamp".toList, .none), [10]), (("snapshot".toList, .none), [20]),
    (("targets".toList, .none), [30])] [] 600

theorem staleTargets_decoders : Decoders staleTargets.env :=
  staleTargets.decoders (by decide) (by decide) (by decide) (by decide)

/-- **C93 is false for `update`:** it can report that the snapshot has expired although the client
trusts a snapshot that has not. -/
theorem C93_update_blames_snapshot :
    ∃ (E : Env) (D : Digest) (R : World Toy.Disk) (cfg : Config) (s s' : St Toy.Disk) (sn : SnapshotMetadata),
      Decoders E ∧ DecoderErrors E ∧ RepositoryErrors R ∧ Reachable E s.tuf ∧
      exec E D R cfg .update s = (.error (.expired .snapshot), s') ∧
      s'.tuf.snapshot = some sn ∧ ∀ w x, (R.clock w).1 x < sn.expires :=
  ⟨staleTargets.env, Toy.digest, lateRepo, Toy.config, Toy.client0, _,
    Toy.snapshot 1 900 [("targets", 1)], staleTargets_decoders, toy_decoderErrors _,
    toy_repositoryErrors _ _ _, ⟨_, [], .inr ⟨[1], by decide +kernel⟩, rfl⟩,
    Prod.ext (by decide +kernel) rfl, by decide +kernel, fun w x => (by decide : (600 : Int) < 900)⟩

/-- The expired timestamp of the toy repository. -/
example : (exec Toy.env Toy.digest (Toy.repos Toy.remoteFiles [] 600) Toy.config .update Toy.client0).1 =
    .error (.expired .timestamp) := by decide +kernel
/-- Its expired root. -/
example : (exec Toy.env Toy.digest (Toy.repos Toy.remoteFiles [] 1000) Toy.config .update Toy.client0).1 =
    .error (.expired .root) := by decide +kernel
example : Decoders Toy.env ∧ DecoderErrors Toy.env ∧ RepositoryErrors (Toy.repos Toy.remoteFiles [] 600) ∧
    Reachable Toy.env Toy.client0.tuf :=
  ⟨Toy.env_decoders, toy_decoderErrors _, toy_repositoryErrors _ _ _,
    ⟨_, [], .inr ⟨[1], by decide +kernel⟩, rfl⟩⟩

end RustTuf.Props
