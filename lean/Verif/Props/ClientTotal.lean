import Verif.Props.ClientUpdate

/-!
# Client calls end, and do not panic
-/

namespace RustTuf.Props
open Client Spec RustTuf Tuf

variable {W : Type}

/-! ### C38 -/

/-- Is it a request for metadata? -/
def isFetch : LogEntry → Bool
  | .fetch .. => true
  | _ => false

/-- Number of requests for metadata in a record. -/
def fetches (l : List LogEntry) : Nat := l.countP isFetch

section log
variable {E : Env} {D : Digest} {R : World W} {cfg : Config}

theorem call_log {α : Type} (f : W → Except Err α × W) (L : List LogEntry) :
    Keeps (fun io : Io W => io.log = L) (Io.call f) := by
  intro io hio
  unfold Io.call
  cases f io.w with
  | mk r w' => cases r <;> exact hio

theorem fetchMetadata_log (src : Source) (role : Role) (p : MetadataPath) (v : MetadataVersion)
    (mx : Option Nat) (h : HashData) (hc : checkRole role p = .ok ()) (L : List LogEntry) :
    Tri (fun io : Io W => io.log = L) (fetchMetadata D R src role p v mx h)
      (fun raw io => io.log = L ++ [.fetch src p v mx h, .got src p raw])
      (fun _ io => io.log = L ++ [.fetch src p v mx h]) := by
  unfold fetchMetadata
  refine Tri.bind (Q := fun _ io => io.log = L) ?_ fun _ => ?_
  · rw [hc]; exact Tri.ofExcept (fun _ _ _ h => h) (fun _ _ h => by cases h)
  refine Tri.bind (Q := fun _ io => io.log = L ++ [.fetch src p v mx h])
    (by rintro io rfl; rfl) fun _ => ?_
  have hcall : Keeps (fun io : Io W => io.log = L ++ [.fetch src p v mx h])
      (Io.call ((R.provider src).fetchMetadata p v mx h)) := call_log _ _
  refine Tri.bind hcall fun evs => ?_
  refine Tri.bind (Q := fun _ io => io.log = L ++ [.fetch src p v mx h])
    (Tri.ofExcept (fun _ _ _ h => h) (fun _ _ _ h => h)) fun raw => ?_
  refine Tri.bind (Q := fun _ io => io.log = L ++ [.fetch src p v mx h, .got src p raw]) ?_
    fun _ => Tri.ret fun _ h => h
  intro io hio
  show io.log ++ _ = _
  rw [hio]; simp

theorem storeMetadata_log (role : Role) (p : MetadataPath) (v : MetadataVersion) (raw : Bytes)
    (L : List LogEntry) :
    Tri (fun io : Io W => io.log = L) (storeMetadata R role p v raw)
      (fun _ io => io.log = L ++ [.store p v raw])
      (fun _ io => io.log = L ∨ io.log = L ++ [.store p v raw]) := by
  unfold storeMetadata
  refine Tri.bind (Q := fun _ io => io.log = L)
    (Tri.ofExcept (fun _ _ _ h => h) (fun _ _ _ h => .inl h)) fun _ => ?_
  refine Tri.bind (Q := fun _ io => io.log = L ++ [.store p v raw])
    (by rintro io rfl; rfl) fun _ => ?_
  exact (call_log _ _).conseq (fun _ h => h) (fun _ _ h => h) (fun _ _ h => .inr h)

/-- The root loop: what the record gains, related to the number of accepted roots. -/
theorem rootLoop_log (src : Source) (persist : Bool) (fuel : Nat) : ∀ (upd : Bool) (s0 : St W),
    Tri (fun s : St W => s = s0) (rootLoop E D R cfg src persist fuel upd)
      (fun _ s => ∃ l n, s.io.log = s0.io.log ++ l ∧ RootSteps E s0.tuf n s.tuf ∧ fetches l = n + 1)
      (fun _ s => ∃ l n, s.io.log = s0.io.log ++ l ∧ RootSteps E s0.tuf n s.tuf ∧ n ≤ fetches l ∧
        fetches l ≤ n + 1) := by
  induction fuel with
  | zero =>
    intro upd s0
    exact Tri.fail fun s hs => ⟨[], 0, by subst hs; simp, by subst hs; exact .zero _, by simp [fetches],
      by simp [fetches]⟩
  | succ fuel ih =>
    intro upd s0
    unfold rootLoop
    refine Tri.bind (getTuf_tuf s0.tuf fun s h => by rw [h]) fun t' => Tri.assume fun ht' => ?_
    subst ht'
    refine Tri.bind (Q := fun _ s => s = s0) (Tri.ofExcept (fun _ _ _ h => h)
      (fun _ s _ hs => ⟨[], 0, by subst hs; simp, by subst hs; exact .zero _, by simp [fetches],
        by simp [fetches]⟩)) fun next => ?_
    have hf := (fetchMetadata_log (D := D) (R := R) src .root (MetadataPath.fromRole .root)
      (.number next) cfg.maxRootLength none (by decide +kernel) s0.io.log).lift s0.tuf
    refine Tri.bind ((Tri.attempt hf (fun s hs => ⟨_, 0, hs.2, by rw [hs.1]; exact .zero _, by simp,
      by simp [fetches, isFetch]⟩)).pre (by rintro s rfl; exact ⟨rfl, rfl⟩)) fun r => ?_
    cases r with
    | error e =>
      have bad : Tri (fun s : St W => s.tuf = s0.tuf ∧ s.io.log = s0.io.log ++
          [.fetch src (MetadataPath.fromRole .root) (.number next) cfg.maxRootLength none])
          (M.fail e : M (St W) Bool)
          (fun _ s => ∃ l n, s.io.log = s0.io.log ++ l ∧ RootSteps E s0.tuf n s.tuf ∧
            fetches l = n + 1)
          (fun _ s => ∃ l n, s.io.log = s0.io.log ++ l ∧ RootSteps E s0.tuf n s.tuf ∧ n ≤ fetches l ∧
            fetches l ≤ n + 1) :=
        Tri.fail fun s hs => ⟨_, 0, hs.2, by rw [hs.1]; exact .zero _, by simp, by simp [fetches, isFetch]⟩
      cases e with
      | notFound =>
        exact Tri.ret fun s hs => ⟨_, 0, hs.2, by rw [hs.1]; exact .zero _, by simp [fetches, isFetch]⟩
      | _ => exact bad
    | ok raw =>
      refine Tri.bind (Q := fun o s => Tuf.step E s0.tuf (.root raw) = (.changed, s.tuf) ∧
        ∃ l, s.io.log = s0.io.log ++ l ∧ fetches l = 1) ?_ fun o => ?_
      · refine Tri.updateTuf fun s o t'' hs hst => ?_
        obtain ⟨hs1, hs2⟩ := hs
        rw [hs1] at hst
        have hl : ∃ l, s.io.log ++ [.op (.root raw) o] = s0.io.log ++ l ∧ fetches l = 1 :=
          ⟨_, by rw [hs2, List.append_assoc], by simp [fetches, List.countP_cons, isFetch]⟩
        rcases root_step hst with ⟨rfl, _⟩ | ⟨⟨e, rfl⟩, rfl⟩
        · exact ⟨hst, hl⟩
        · obtain ⟨l, h1, h2⟩ := hl
          exact ⟨l, 0, h1, .zero _, by omega, by omega⟩
      · refine Tri.fix ?_
        rintro s1 ⟨h1, l1, h2, h3⟩
        refine Tri.bind (Q := fun _ s => s.tuf = s1.tuf ∧ ∃ l, s.io.log = s0.io.log ++ l ∧ fetches l = 1)
          ?_ fun _ => ?_
        · refine (Tri.conseq
            (P := fun s : St W => s.tuf = s1.tuf ∧ ∃ l, s.io.log = s0.io.log ++ l ∧ fetches l = 1)
            (Q := fun _ s => s.tuf = s1.tuf ∧ ∃ l, s.io.log = s0.io.log ++ l ∧ fetches l = 1)
            (X := fun _ s => s.tuf = s1.tuf ∧ ∃ l, s.io.log = s0.io.log ++ l ∧ fetches l = 1) ?_
            (fun s hs => by subst hs; exact ⟨rfl, l1, h2, h3⟩) (fun _ _ h => h)
            (fun _ s hs => ?_))
          · have one : ∀ v, Keeps (fun s : St W => s.tuf = s1.tuf ∧
                ∃ l, s.io.log = s0.io.log ++ l ∧ fetches l = 1)
                (lift (storeMetadata R .root (MetadataPath.fromRole .root) v raw)) := by
              intro v
              refine Tri.fix ?_
              rintro s2 ⟨g1, l, g2, g3⟩
              refine ((storeMetadata_log (R := R) .root (MetadataPath.fromRole .root) v raw
                s2.io.log).lift s2.tuf).conseq (by rintro s rfl; exact ⟨rfl, rfl⟩) ?_ ?_
              · rintro _ s ⟨k1, k2⟩
                exact ⟨by rw [k1, g1], _, by rw [k2, g2, List.append_assoc], by
                  simp only [fetches] at g3; simp [fetches, isFetch, g3]⟩
              · rintro _ s ⟨k1, k2 | k2⟩
                · exact ⟨by rw [k1, g1], l, by rw [k2, g2], g3⟩
                · exact ⟨by rw [k1, g1], _, by rw [k2, g2, List.append_assoc], by
                    simp only [fetches] at g3; simp [fetches, isFetch, g3]⟩
            exact Keeps.when fun _ => (one _).bind fun _ => one _
          · obtain ⟨g1, l, g2, g3⟩ := hs
            exact ⟨l, 1, g2, by rw [g1]; exact .succ _ _ _ raw 0 h1 (.zero _), by omega, by omega⟩
        · refine Tri.fix ?_
          rintro s2 ⟨g1, l2, g2, g3⟩
          refine (ih true s2).conseq (fun _ h => h) ?_ ?_
          · rintro b s ⟨l, n, k1, k2, k3⟩
            refine ⟨l2 ++ l, n + 1, by rw [k1, g2, List.append_assoc],
              .succ _ _ _ raw n h1 (by rw [← g1]; exact k2), ?_⟩
            simp only [fetches] at *
            rw [List.countP_append]; omega
          · rintro _ s ⟨l, n, k1, k2, k3, k4⟩
            refine ⟨l2 ++ l, n + 1, by rw [k1, g2, List.append_assoc],
              .succ _ _ _ raw n h1 (by rw [← g1]; exact k2), ?_⟩
            simp only [fetches] at *
            rw [List.countP_append]; omega

/-- Only the behaviour of the continuation on actual results matters. -/
theorem bind_congr {σ α β : Type} {m : M σ α} {f g : α → M σ β} {s : σ}
    (h : ∀ a s', m s = (.ok a, s') → f a s' = g a s') : (m >>= f) s = (m >>= g) s := by
  show M.bind m f s = M.bind m g s
  unfold M.bind
  cases hm : m s with
  | mk r s' =>
    cases r with
    | error e => rfl
    | ok a => exact h a s' hm

/-- More fuel makes no difference. -/
theorem rootLoop_fuel (src : Source) (persist : Bool) (n : Nat) : ∀ (upd : Bool) (s : St W),
    u32Max + 2 ≤ n + min s.tuf.root.version u32Max →
    rootLoop E D R cfg src persist (n + 1) upd s = rootLoop E D R cfg src persist n upd s := by
  induction n with
  | zero =>
    intro upd s hn
    have : u32Max = 4294967295 := rfl
    omega
  | succ n ih =>
    intro upd s hn
    conv => lhs; unfold rootLoop
    conv => rhs; unfold rootLoop
    refine bind_congr fun t s1 h1 => ?_
    cases h1
    refine bind_congr fun next s1 h1 => ?_
    have hs1 : s1 = s := (congrArg Prod.snd h1).symm
    subst hs1
    refine bind_congr fun r s2 h2 => ?_
    cases r with
    | error e => cases e <;> rfl
    | ok raw =>
      have ht2 : s2.tuf = s1.tuf := (Tri.attempt (lift_tuf (fetchMetadata D R src .root
        (MetadataPath.fromRole .root) (.number next) cfg.maxRootLength none) s1.tuf) (Y := fun _ _ => True)).run_ok
          rfl h2
      refine bind_congr fun o s3 h3 => ?_
      have hv : s3.tuf.root.version = s1.tuf.root.version + 1 ∧ s3.tuf.root.version ≤ u32Max := by
        unfold Client.updateTuf at h3
        cases hst : Tuf.step E s2.tuf (.root raw) with
        | mk out t' =>
          rw [hst] at h3
          rcases root_step hst with ⟨rfl, new, hr, rfl⟩ | ⟨⟨e, rfl⟩, _⟩
          · cases h3
            have e1 := hr.nextVersion
            have e2 := hr.noOverflow
            rw [ht2] at e1 e2
            have : u32Max = 4294967295 := rfl
            exact ⟨e1, by simp only [ofRoot]; omega⟩
          · cases h3
      refine bind_congr fun _ s4 h4 => ?_
      have ht4 : s4.tuf = s3.tuf := by
        have : Keeps (fun s : St W => s.tuf = s3.tuf) (M.when persist (do
            lift (storeMetadata R .root (MetadataPath.fromRole .root) .none raw)
            lift (storeMetadata R .root (MetadataPath.fromRole .root) (.number next) raw))) :=
          Keeps.when fun _ => (lift_tuf _ _).bind fun _ => lift_tuf _ _
        exact Tri.run_ok this rfl h4
      refine ih true s4 ?_
      rw [ht4]
      have : u32Max = 4294967295 := rfl
      omega

end log

/-- Neither the decoders nor the repositories nor the path translator panic or hang; otherwise they
may do and return anything. -/
structure Quiet (E : Env) (R : World W) (cfg : Config) : Prop where
  parse : ∀ b e, E.parseSigned b = .error e → e ≠ .panic ∧ e ≠ .diverged
  canonicalize : ∀ b e, E.canonicalize b = .error e → e ≠ .panic ∧ e ≠ .diverged
  root : ∀ b e, E.rootFromSlice b = .error e → e ≠ .panic ∧ e ≠ .diverged
  timestamp : ∀ b e, E.timestampFromSlice b = .error e → e ≠ .panic ∧ e ≠ .diverged
  snapshot : ∀ b e, E.snapshotFromSlice b = .error e → e ≠ .panic ∧ e ≠ .diverged
  targets : ∀ b e, E.targetsFromSlice b = .error e → e ≠ .panic ∧ e ≠ .diverged
  rootOfRaw : ∀ b e, E.rootOfRaw b = .error e → e ≠ .panic ∧ e ≠ .diverged
  fetch : ∀ src p v m h w e, ((R.provider src).fetchMetadata p v m h w).1 = .error e →
    e ≠ .panic ∧ e ≠ .diverged
  store : ∀ p v b w e, (R.storeMetadata p v b w).1 = .error e → e ≠ .panic ∧ e ≠ .diverged
  fetchTarget : ∀ p d w e, (R.remote.fetchTarget p d w).1 = .error e → e ≠ .panic ∧ e ≠ .diverged
  storeTarget : ∀ evs p w e, (R.storeTarget evs p w).1 = .error e → e ≠ .panic ∧ e ≠ .diverged
  translate : ∀ p e, cfg.realToVirtual p = .error e → e ≠ .panic ∧ e ≠ .diverged

/-- An ordinary error. -/
def Plain (e : Err) : Prop := e ≠ .panic ∧ e ≠ .diverged

theorem verify_plain {E : Env} {R : World W} {cfg : Config} (q : Quiet E R cfg) {M : Type}
    {dec : Bytes → Except Err M} (hd : ∀ b e, dec b = .error e → Plain e) {raw n keys e}
    (h : verifySignatures E dec raw n keys = .error e) : Plain e := by
  unfold verifySignatures at h
  split at h
  · cases h; simp [Plain]
  · dsimp only at h
    split at h
    · rename_i he; cases h; exact q.parse _ _ he
    · split at h
      · cases h; simp [Plain]
      · split at h
        · rename_i he; cases h; exact q.canonicalize _ _ he
        · split at h
          · cases h; simp [Plain]
          · exact hd _ _ h

theorem step_plain {E : Env} {R : World W} {cfg : Config} (q : Quiet E R cfg) {t t' : Tuf} {op : Op}
    {e : Err} (h : Tuf.step E t op = (.failed e, t')) : Plain e := by
  have hroot : ∀ {clk e}, rootUnexpired t clk = .error e → Plain e := by
    intro clk e h; unfold rootUnexpired at h; split at h <;> cases h; simp [Plain]
  have hts : ∀ {clk e}, timestampUnexpired t clk = .error e → Plain e := by
    intro clk e h; unfold timestampUnexpired at h; repeat' split at h
    all_goals cases h
    all_goals simp [Plain]
  have hsn : ∀ {clk e}, snapshotUnexpired t clk = .error e → Plain e := by
    intro clk e h; unfold snapshotUnexpired at h; repeat' split at h
    all_goals cases h
    all_goals simp [Plain]
  have hta : ∀ {clk e}, targetsUnexpired t clk = .error e → Plain e := by
    intro clk e h; unfold targetsUnexpired at h; repeat' split at h
    all_goals cases h
    all_goals simp [Plain]
  cases op with
  | root raw =>
    simp only [Tuf.step] at h
    split at h <;> cases h
    rename_i h
    unfold updateRoot at h
    repeat' split at h
    all_goals cases h
    all_goals first
      | exact verify_plain q q.root ‹_›
      | simp [Plain]
  | timestamp clk raw =>
    simp only [Tuf.step] at h
    split at h <;> cases h
    rename_i h
    unfold updateTimestamp at h
    dsimp only at h
    repeat' split at h
    all_goals cases h
    all_goals first
      | exact verify_plain q q.timestamp ‹_›
      | simp [Plain]
  | snapshot clk raw =>
    simp only [Tuf.step] at h
    split at h <;> cases h
    rename_i h
    unfold updateSnapshot at h
    dsimp only at h
    repeat' split at h
    all_goals cases h
    all_goals first
      | exact hroot ‹_›
      | exact hts ‹_›
      | exact verify_plain q q.snapshot ‹_›
      | simp [Plain]
  | targets clk raw =>
    simp only [Tuf.step] at h
    split at h <;> cases h
    rename_i h
    unfold updateTargets at h
    repeat' split at h
    all_goals cases h
    all_goals first
      | exact hroot ‹_›
      | exact hsn ‹_›
      | exact verify_plain q q.targets ‹_›
      | simp [Plain]
  | delegation clk parent role raw =>
    simp only [Tuf.step] at h
    split at h <;> cases h
    rename_i h
    unfold updateDelegation at h
    repeat' split at h
    all_goals cases h
    all_goals first
      | exact hroot ‹_›
      | exact hsn ‹_›
      | exact hta ‹_›
      | exact verify_plain q q.targets ‹_›
      | simp [Plain]

theorem toErr_plain (k : IoKind) : Plain k.toErr := by cases k <;> simp [IoKind.toErr, Plain]

theorem hashPreference_plain {m e} (h : hashPreference m = .error e) : Plain e := by
  unfold hashPreference at h
  generalize hashAlgPrefs = l at h
  induction l with
  | nil => cases h; simp [Plain]
  | cons a as ih =>
    unfold hashPreferenceIn at h
    split at h
    · cases h
    · exact ih h

theorem safeReader_plain {max h e} (he : SafeReader.new max h = .error e) : Plain e := by
  unfold SafeReader.new at he
  split at he
  · cases he
  · split at he <;> cases he
    rename_i h
    unfold digestContext at h
    split at h <;> cases h
    simp [Plain]

theorem readChecked_plain {D max h evs e} (he : readChecked D max h evs = .error e) : Plain e := by
  unfold readChecked at he
  split at he
  · rename_i h; cases he; exact safeReader_plain h
  · split at he <;> cases he
    exact toErr_plain _

theorem checkRole_plain {role p e} (h : checkRole role p = .error e) : Plain e := by
  unfold checkRole at h
  split at h <;> cases h
  simp [Plain]

section quiet
variable {E : Env} {D : Digest} {R : World W} {cfg : Config} (q : Quiet E R cfg)
include q

theorem fetchMetadata_plain {src role p v mx h} {P : Io W → Prop} :
    Tri P (fetchMetadata D R src role p v mx h) (fun _ _ => True) (fun e _ => Plain e) := by
  unfold fetchMetadata
  refine Tri.bind (Q := fun _ _ => True) (Tri.ofExcept (fun _ _ _ _ => trivial)
    (fun _ _ h _ => checkRole_plain h)) fun _ => ?_
  refine Tri.bind (Q := fun _ _ => True) (fun _ _ => trivial) fun _ => ?_
  refine Tri.bind (Q := fun _ _ => True) (fun io _ => ?_) fun evs => ?_
  · unfold Io.call
    cases hf : (R.provider src).fetchMetadata p v mx h io.w with
    | mk r w' =>
      cases r with
      | ok => trivial
      | error e => exact q.fetch _ _ _ _ _ _ _ (by rw [hf])
  refine Tri.bind (Q := fun _ _ => True) (Tri.ofExcept (fun _ _ _ _ => trivial)
    (fun _ _ h _ => readChecked_plain h)) fun raw => ?_
  exact Tri.bind (Q := fun _ _ => True) (fun _ _ => trivial) fun _ => Tri.ret fun _ _ => trivial

theorem storeMetadata_plain {role p v raw} {P : Io W → Prop} :
    Tri P (storeMetadata R role p v raw) (fun _ _ => True) (fun e _ => Plain e) := by
  unfold storeMetadata
  refine Tri.bind (Q := fun _ _ => True) (Tri.ofExcept (fun _ _ _ _ => trivial)
    (fun _ _ h _ => checkRole_plain h)) fun _ => ?_
  refine Tri.bind (Q := fun _ _ => True) (fun _ _ => trivial) fun _ => ?_
  intro io _
  unfold Io.call
  cases hf : R.storeMetadata p v raw io.w with
  | mk r w' =>
    cases r with
    | ok => trivial
    | error e => exact q.store _ _ _ _ _ (by rw [hf])

omit q in
/-- Requests do not touch the trusted metadata. -/
theorem lift_both {α : Type} {m : M (Io W) α} {Y : Err → Prop} (I : Tuf → Prop)
    (h : Tri (fun _ : Io W => True) m (fun _ _ => True) (fun e _ => Y e)) :
    Tri (fun s : St W => I s.tuf) (lift m) (fun _ s => I s.tuf) (fun e s => Y e ∧ I s.tuf) := by
  intro s hs
  have h1 := h s.io trivial
  unfold lift
  cases hm : m s.io with
  | mk r io' => rw [hm] at h1; cases r <;> first | exact hs | exact ⟨h1, hs⟩

omit q in
theorem keeps_getTuf' (E : Env) {X : Err → St W → Prop} :
    Tri (fun s : St W => Reachable E s.tuf) getTuf (fun _ s => Reachable E s.tuf) X := fun _ hs => hs

/-- The only way for the root loop to panic is the addition at the largest version number. -/
def RootErr (cfg : Config) (e : Err) (t : Tuf) : Prop :=
  e ≠ .diverged ∧ (e = .panic → cfg.overflowChecks = true ∧ 4294967295 ≤ t.root.version)

omit q in
theorem Plain.rootErr {cfg : Config} {e : Err} {t : Tuf} (h : Plain e) : RootErr cfg e t :=
  ⟨h.2, fun he => absurd he h.1⟩

theorem rootLoop_quiet (src : Source) (persist : Bool) (n : Nat) : ∀ upd,
    Tri (fun s : St W => Reachable E s.tuf ∧ u32Max + 2 ≤ n + min s.tuf.root.version u32Max)
      (rootLoop E D R cfg src persist n upd) (fun _ s => Reachable E s.tuf)
      (fun e s => RootErr cfg e s.tuf ∧ Reachable E s.tuf) := by
  induction n with
  | zero =>
    intro upd s hs
    exfalso
    have : u32Max = 4294967295 := rfl
    have := hs.2
    omega
  | succ n ih =>
    intro upd
    unfold rootLoop
    refine Tri.fix ?_
    rintro s0 ⟨h0, hn⟩
    refine Tri.bind (getTuf_tuf s0.tuf fun s h => by rw [h]) fun t' => Tri.assume fun ht' => ?_
    subst ht'
    refine Tri.bind (Q := fun _ s => s.tuf = s0.tuf) (Tri.ofExcept (fun _ _ _ h => by rw [h])
      (fun e s he hs => ?_)) fun next => ?_
    · subst hs
      refine ⟨?_, h0⟩
      unfold nextRootVersion at he
      repeat' split at he
      all_goals cases he
      exact ⟨by simp, fun _ => ⟨‹_›, ‹_›⟩⟩
    refine Tri.bind (Tri.attempt (lift_both (fun t => t = s0.tuf) (fetchMetadata_plain q))
      (fun s hs => absurd rfl hs.1.1)) fun r => ?_
    cases r with
    | error e =>
      have bad : Tri (fun s : St W => Plain e ∧ s.tuf = s0.tuf) (M.fail e : M (St W) Bool)
          (fun _ s => Reachable E s.tuf) (fun e s => RootErr cfg e s.tuf ∧ Reachable E s.tuf) :=
        Tri.fail fun s hs => ⟨hs.1.rootErr, by rw [hs.2]; exact h0⟩
      cases e with
      | notFound => exact Tri.ret fun s hs => by rw [hs.2]; exact h0
      | _ => exact bad
    | ok raw =>
      refine Tri.bind (Q := fun o s => Tuf.step E s0.tuf (.root raw) = (.changed, s.tuf)) ?_ fun o => ?_
      · refine Tri.updateTuf fun s o t'' hs hst => ?_
        have hs' : s.tuf = s0.tuf := hs
        rw [hs'] at hst
        rcases root_step hst with ⟨rfl, _⟩ | ⟨⟨e, rfl⟩, rfl⟩
        · exact hst
        · exact ⟨(step_plain q hst).rootErr, h0⟩
      · refine Tri.fix fun s1 h1 => ?_
        have hr1 := h0.step' h1
        refine Tri.bind (Q := fun _ s => s.tuf = s1.tuf) ?_ fun _ => ?_
        · have one : ∀ v, Tri (fun s : St W => s.tuf = s1.tuf)
              (lift (storeMetadata R .root (MetadataPath.fromRole .root) v raw))
              (fun _ s => s.tuf = s1.tuf) (fun e s => RootErr cfg e s.tuf ∧ Reachable E s.tuf) :=
            fun v => (lift_both (fun t => t = s1.tuf) (storeMetadata_plain q)).conseq
              (fun _ h => h) (fun _ _ h => h)
              (fun _ s h => ⟨h.1.rootErr, by rw [h.2]; exact hr1⟩)
          exact Tri.when (fun _ => Tri.bind ((one _).pre (by rintro s rfl; rfl)) fun _ => one _)
            (fun _ s hs => by rw [hs])
        · refine (ih true).pre fun s hs => ?_
          rw [hs]
          refine ⟨hr1, ?_⟩
          rcases root_step h1 with ⟨_, new, hr, ht⟩ | ⟨⟨e, he⟩, _⟩
          · have e1 := hr.nextVersion
            have e2 := hr.noOverflow
            have : u32Max = 4294967295 := rfl
            rw [ht]
            simp only [ofRoot]
            omega
          · cases he

theorem updateRoot_quiet (src : Source) (persist : Bool) :
    Tri (fun s : St W => Reachable E s.tuf) (updateRootWithRepos E D R cfg src persist)
      (fun _ s => Reachable E s.tuf) (fun e s => RootErr cfg e s.tuf ∧ Reachable E s.tuf) := by
  unfold updateRootWithRepos
  refine Tri.bind ((rootLoop_quiet q src persist _ _).pre fun s h => ⟨h, ?_⟩) fun b => ?_
  · show u32Max + 2 ≤ u32Max + 2 + min s.tuf.root.version u32Max
    omega
  refine Tri.bind (Q := fun _ s => Reachable E s.tuf) (Tri.getClock fun _ hs => hs) fun c => ?_
  refine Tri.bind (keeps_getTuf' E) fun t2 => ?_
  exact Tri.ite (fun _ => Tri.fail fun s hs => ⟨Plain.rootErr (by simp [Plain]), hs⟩)
    (fun _ => Tri.ret fun s hs => hs)

theorem finish_quiet (o : Op) (role : Role) (p : MetadataPath) (raw : Bytes) (persist : Bool) :
    Tri (fun s : St W => Reachable E s.tuf)
      (do match ← updateTuf E o with
          | .changed =>
            M.when persist (lift (storeMetadata R role p .none raw))
            return true
          | _ => return false)
      (fun _ s => Reachable E s.tuf) (fun e s => Plain e ∧ Reachable E s.tuf) := by
  refine Tri.bind (Q := fun _ s => Reachable E s.tuf)
    (Tri.updateTuf fun s out t' hs hst => ?_) fun out => ?_
  · have := hs.step' hst
    cases out with
    | failed e => exact ⟨step_plain q hst, this⟩
    | _ => exact this
  · cases out with
    | changed =>
      refine Tri.bind (Q := fun _ s => Reachable E s.tuf) ?_ fun _ => Tri.ret fun s hs => hs
      exact Tri.when (fun _ => lift_both (Reachable E) (storeMetadata_plain q)) fun _ _ h => h
    | _ => exact Tri.ret fun s hs => hs

theorem updateTimestamp_quiet (src : Source) (persist : Bool) :
    Tri (fun s : St W => Reachable E s.tuf) (updateTimestampWithRepos E D R cfg src persist)
      (fun _ s => Reachable E s.tuf) (fun e s => Plain e ∧ Reachable E s.tuf) := by
  unfold updateTimestampWithRepos
  refine Tri.bind (lift_both (Reachable E) (fetchMetadata_plain q)) fun raw => ?_
  refine Tri.bind (Q := fun _ s => Reachable E s.tuf) (Tri.getClock fun _ hs => hs) fun c => ?_
  exact finish_quiet q _ _ _ _ _

theorem updateSnapshot_quiet (src : Source) (persist consistent : Bool) :
    Tri (fun s : St W => Reachable E s.tuf) (updateSnapshotWithRepos E D R src persist consistent)
      (fun _ s => Reachable E s.tuf) (fun e s => Plain e ∧ Reachable E s.tuf) := by
  unfold updateSnapshotWithRepos
  refine Tri.bind (keeps_getTuf' E) fun t => ?_
  cases t.timestamp with
  | none => exact Tri.fail fun s hs => ⟨by simp [Plain], hs⟩
  | some ts =>
    refine Tri.ite (fun hv => Tri.ret fun s hs => hs) fun hv => ?_
    refine Tri.bind (Q := fun _ s => Reachable E s.tuf)
      (Tri.ofExcept (fun _ _ _ h => h) (fun _ _ he h => ⟨hashPreference_plain he, h⟩)) fun p => ?_
    obtain ⟨a, v⟩ := p
    refine Tri.bind (lift_both (Reachable E) (fetchMetadata_plain q)) fun raw => ?_
    refine Tri.bind (Q := fun _ s => Reachable E s.tuf) (Tri.getClock fun _ hs => hs) fun c => ?_
    exact finish_quiet q _ _ _ _ _

theorem updateTargets_quiet (src : Source) (persist consistent : Bool) :
    Tri (fun s : St W => Reachable E s.tuf) (updateTargetsWithRepos E D R src persist consistent)
      (fun _ s => Reachable E s.tuf) (fun e s => Plain e ∧ Reachable E s.tuf) := by
  unfold updateTargetsWithRepos
  refine Tri.bind (keeps_getTuf' E) fun t => ?_
  cases t.snapshot with
  | none => exact Tri.fail fun s hs => ⟨by simp [Plain], hs⟩
  | some sn =>
    dsimp only
    cases sn.metas.get? (MetadataPath.fromRole .targets) with
    | none => exact Tri.fail fun s hs => ⟨by simp [Plain], hs⟩
    | some m =>
      refine Tri.ite (fun hv => Tri.ret fun s hs => hs) fun hv => ?_
      refine Tri.bind (Q := fun _ s => Reachable E s.tuf)
        (Tri.ofExcept (fun _ _ _ h => h) (fun _ _ he h => ⟨hashPreference_plain he, h⟩)) fun p => ?_
      obtain ⟨a, v⟩ := p
      refine Tri.bind (lift_both (Reachable E) (fetchMetadata_plain q)) fun raw => ?_
      refine Tri.bind (Q := fun _ s => Reachable E s.tuf) (Tri.getClock fun _ hs => hs) fun c => ?_
      exact finish_quiet q _ _ _ _ _

theorem update_quiet : Tri (fun s : St W => Reachable E s.tuf) (update E D R cfg)
    (fun _ s => Reachable E s.tuf) (fun e s => RootErr cfg e s.tuf ∧ Reachable E s.tuf) := by
  unfold update
  have weak : ∀ (e : Err) (s : St W), Plain e ∧ Reachable E s.tuf →
      RootErr cfg e s.tuf ∧ Reachable E s.tuf := fun e s h => ⟨h.1.rootErr, h.2⟩
  refine Tri.bind (updateRoot_quiet q _ _) fun r => ?_
  refine Tri.bind ((updateTimestamp_quiet q _ _).conseq (fun _ h => h) (fun _ _ h => h) weak) fun ts => ?_
  refine Tri.bind (keeps_getTuf' E) fun t => ?_
  refine Tri.bind ((updateSnapshot_quiet q _ _ _).conseq (fun _ h => h) (fun _ _ h => h) weak) fun sn => ?_
  refine Tri.bind (keeps_getTuf' E) fun t => ?_
  refine Tri.bind ((updateTargets_quiet q _ _ _).conseq (fun _ h => h) (fun _ _ h => h) weak) fun ta => ?_
  exact Tri.ret fun s hs => hs

theorem loadLocal_quiet : Tri (fun s : St W => Reachable E s.tuf) (loadLocal E D R cfg)
    (fun _ s => Reachable E s.tuf) (fun e s => RootErr cfg e s.tuf ∧ Reachable E s.tuf) := by
  unfold loadLocal
  have weak : ∀ (e : Err) (s : St W), Plain e ∧ Reachable E s.tuf →
      RootErr cfg e s.tuf ∧ Reachable E s.tuf := fun e s h => ⟨h.1.rootErr, h.2⟩
  refine Tri.bind (updateRoot_quiet q _ _) fun r => ?_
  refine Tri.bind ((updateTimestamp_quiet q _ _).conseq (fun _ h => h) (fun _ _ h => h) weak) fun ts => ?_
  refine Tri.bind ((updateSnapshot_quiet q _ _ _).conseq (fun _ h => h) (fun _ _ h => h) weak) fun sn => ?_
  refine Tri.bind ((updateTargets_quiet q _ _ _).conseq (fun _ h => h) (fun _ _ h => h) weak) fun ta => ?_
  exact Tri.ret fun s hs => hs

/-- Result of a lookup: an ordinary error or a description. -/
def FoundOk (x : Found) : Prop := ∀ e, x.2 = .error e → Plain e

omit q in
theorem foundOk_error {b : Bool} {e : Err} (h : Plain e) : FoundOk (b, .error e) := by
  intro e' he; cases he; exact h

omit q in
/-- After a successful `update_delegation` the role is present: the `unwrap` is safe. -/
theorem delegation_present (hE : Decoders E) {t t' : Tuf} {clk parent role raw o}
    (hr : Reachable E t) (h : Tuf.step E t (.delegation clk parent role raw) = (o, t'))
    (ho : ∀ e, o ≠ .failed e) : ∃ m, t'.delegations.get? role = some m := by
  simp only [Tuf.step] at h
  split at h <;> cases h <;> rename_i hu
  · exact absurd rfl (ho _)
  · unfold updateDelegation at hu
    repeat' split at hu
    all_goals cases hu
    rename_i descr hget _ _ _ _ _ _ _ _ hver
    rename_i hsn _ _ _ _ _ _ _ _ _ _ _ _ _
    cases hd : t.delegations.get? role with
    | some m => exact ⟨m, rfl⟩
    | none =>
      exfalso
      simp only [delegationVersion, hd, Option.map_none, Option.getD_none] at hver
      unfold snapshotUnexpired at hsn
      repeat' split at hsn
      all_goals cases hsn
      rename_i hs _
      have := ((hr.positive hE).snapshot _ hs).2 _ (Map.mem_of_get? hget)
      simp only at this
      omega
  · unfold updateDelegation at hu
    repeat' split at hu
    all_goals cases hu
    exact ⟨_, by rw [Map.get?_insert, if_pos rfl]⟩

theorem lookupLoop_quiet (hE : Decoders E)
    (rec : Bool → TargetsMetadata → MetadataPath → M (St W) Found)
    (hrec : ∀ b m r, Tri (fun s : St W => Reachable E s.tuf) (rec b m r)
      (fun x s => FoundOk x ∧ Reachable E s.tuf) (fun e s => Plain e ∧ Reachable E s.tuf))
    (dflt : Bool) (target : VirtualTargetPath) (sn : SnapshotMetadata) (parent : MetadataPath)
    (ds : List Delegation) :
    Tri (fun s : St W => Reachable E s.tuf) (Client.lookupLoop E D R rec dflt target sn parent ds)
      (fun x s => FoundOk x ∧ Reachable E s.tuf) (fun e s => Plain e ∧ Reachable E s.tuf) := by
  induction ds with
  | nil => exact Tri.ret fun s hs => ⟨foundOk_error (by simp [Plain]), hs⟩
  | cons d ds ih =>
    unfold Client.lookupLoop
    refine Tri.ite (fun _ => Tri.ite
      (fun _ => Tri.ret fun s hs => ⟨foundOk_error (by simp [Plain]), hs⟩) (fun _ => ih)) fun _ => ?_
    cases sn.metas.get? d.role with
    | none =>
      exact Tri.ite (fun _ => ih) (fun _ => Tri.ret fun s hs => ⟨foundOk_error (by simp [Plain]), hs⟩)
    | some m =>
      dsimp only
      cases hh : hashPreference m.hashes with
      | error e => exact Tri.ret fun s hs => ⟨foundOk_error (hashPreference_plain hh), hs⟩
      | ok p =>
        obtain ⟨a, v⟩ := p
        dsimp only
        refine Tri.bind (keeps_getTuf' E) fun t => ?_
        refine Tri.bind (Tri.attempt (lift_both (Reachable E) (fetchMetadata_plain q))) fun r => ?_
        have tail : ∀ fetched : Except Err Bytes, (∀ e, fetched = .error e → Plain e) →
            Tri (fun s : St W => Reachable E s.tuf) (match fetched with
          | .error e =>
            if !d.terminating then Client.lookupLoop E D R rec dflt target sn parent ds
            else return (true, .error e)
          | .ok raw => do
            let clk ← getClock R
            match ← M.attempt (updateTuf E (.delegation clk parent d.role raw)) with
            | .ok _ =>
              let _ ← M.attempt (lift (storeMetadata R .targets d.role .none raw))
              let t ← getTuf
              match t.delegations.get? d.role with
              | none => M.fail .panic
              | some m =>
                let (term, res) ← rec d.terminating m d.role
                match res with
                | .error e =>
                  if term then return (true, .error e)
                  else Client.lookupLoop E D R rec dflt target sn parent ds
                | .ok _ => Client.lookupLoop E D R rec dflt target sn parent ds
            | .error e =>
              if !d.terminating then Client.lookupLoop E D R rec dflt target sn parent ds
              else return (true, .error e))
            (fun x s => FoundOk x ∧ Reachable E s.tuf) (fun e s => Plain e ∧ Reachable E s.tuf) := by
          intro fetched hfe
          cases fetched with
          | error e =>
            dsimp only
            exact Tri.ite (fun _ => ih) (fun _ => Tri.ret fun s hs => ⟨foundOk_error (hfe e rfl), hs⟩)
          | ok raw =>
            refine Tri.bind (Q := fun _ s => Reachable E s.tuf) (Tri.getClock fun _ hs => hs)
              fun clk => ?_
            refine Tri.bind (Tri.attempt
              (Q := fun _ s => Reachable E s.tuf ∧ ∃ m, s.tuf.delegations.get? d.role = some m)
              (X := fun e s => Plain e ∧ Reachable E s.tuf)
              (Tri.updateTuf fun s out t' hs hst => ?_)) fun out => ?_
            · have hr := hs.step' hst
              cases out with
              | failed e => exact ⟨step_plain q hst, hr⟩
              | changed => exact ⟨hr, delegation_present hE hs hst (by simp)⟩
              | unchanged => exact ⟨hr, delegation_present hE hs hst (by simp)⟩
            · cases out with
              | error e =>
                refine Tri.assume fun hp => ?_
                exact Tri.ite (fun _ => ih) (fun _ => Tri.ret fun s hs => ⟨foundOk_error hp, hs⟩)
              | ok o =>
                refine Tri.bind ((Tri.attempt (lift_both
                  (fun t => Reachable E t ∧ ∃ m, t.delegations.get? d.role = some m)
                  (storeMetadata_plain q)) (fun s hs => absurd rfl hs.1.1)).post (Q' := fun _ s => Reachable E s.tuf ∧
                    ∃ m, s.tuf.delegations.get? d.role = some m) ?_) fun _ => ?_
                · intro r s hs
                  cases r with
                  | ok => exact hs
                  | error => exact hs.2
                refine Tri.bind (Q := fun (t : Tuf) (s : St W) => Reachable E s.tuf ∧
                  ∃ m, t.delegations.get? d.role = some m) (fun s hs => hs) fun t => ?_
                cases hd : t.delegations.get? d.role with
                | none =>
                  rintro s ⟨_, m, hm⟩
                  cases hm
                | some md =>
                  dsimp only
                  refine Tri.bind ((hrec _ _ _).pre fun s hs => hs.1) fun x => ?_
                  obtain ⟨term, res⟩ := x
                  refine Tri.assume fun hx => ?_
                  cases res with
                  | error e =>
                    exact Tri.ite (fun _ => Tri.ret fun s hs => ⟨foundOk_error (hx e rfl), hs⟩)
                      (fun _ => ih)
                  | ok _ => exact ih
        cases r with
        | ok raw =>
          exact Tri.bind (Q := fun f s => (∀ e, f = .error e → Plain e) ∧ Reachable E s.tuf)
            (Tri.ret' fun s hs => ⟨by simp, hs⟩) fun f => Tri.assume fun hf => tail f hf
        | error e =>
          refine Tri.bind ((Tri.attempt (lift_both (Reachable E) (fetchMetadata_plain q))).conseq
            (fun s hs => hs.2) (Q' := fun f s => (∀ e, f = .error e → Plain e) ∧ Reachable E s.tuf)
            ?_ (fun _ _ h => h)) fun f => Tri.assume fun hf => tail f hf
          intro f s hs
          cases f with
          | ok => exact ⟨by simp, hs⟩
          | error => exact ⟨by rintro _ ⟨⟩; exact hs.1, hs.2⟩

theorem lookupIn_quiet (hE : Decoders E) (target : VirtualTargetPath) (sn : SnapshotMetadata)
    (rem : Nat) : ∀ b m r,
    Tri (fun s : St W => Reachable E s.tuf) (Client.lookupIn E D R target sn rem b m r)
      (fun x s => FoundOk x ∧ Reachable E s.tuf) (fun e s => Plain e ∧ Reachable E s.tuf) := by
  induction rem with
  | zero => intro b m r; exact Tri.ret fun s hs => ⟨foundOk_error (by simp [Plain]), hs⟩
  | succ rem ih =>
    intro b m r
    unfold Client.lookupIn
    split
    · exact Tri.ret fun s hs => ⟨by simp [FoundOk], hs⟩
    · split
      · exact Tri.ret fun s hs => ⟨foundOk_error (by simp [Plain]), hs⟩
      · exact lookupLoop_quiet q hE _ ih _ _ _ _ _

theorem fetchTargetDescription_quiet (hE : Decoders E) (target : TargetPath) :
    Tri (fun s : St W => Reachable E s.tuf) (fetchTargetDescription E D R cfg target)
      (fun _ s => Reachable E s.tuf) (fun e s => Plain e ∧ Reachable E s.tuf) := by
  unfold Client.fetchTargetDescription
  refine Tri.bind (Q := fun _ s => Reachable E s.tuf) (Tri.ofExcept (fun _ _ _ h => h)
    (fun e _ he h => ⟨q.translate _ _ he, h⟩)) fun virt => ?_
  refine Tri.bind (keeps_getTuf' E) fun t => ?_
  cases t.snapshot with
  | none => exact Tri.fail fun s hs => ⟨by simp [Plain], hs⟩
  | some sn =>
    cases t.targets with
    | none => exact Tri.fail fun s hs => ⟨by simp [Plain], hs⟩
    | some ta =>
      dsimp only
      refine Tri.bind (lookupIn_quiet q hE virt sn _ _ _ _) fun x => ?_
      refine Tri.assume fun hx => ?_
      exact Tri.ofExcept (fun _ _ _ h => h) (fun e _ he h => ⟨hx e he, h⟩)

theorem fetchTargetReader_quiet (hE : Decoders E) (target : TargetPath) :
    Tri (fun s : St W => Reachable E s.tuf) (fetchTargetReader E D R cfg target)
      (fun _ s => Reachable E s.tuf) (fun e s => Plain e ∧ Reachable E s.tuf) := by
  have stream : ∀ p d, Tri (fun s : St W => Reachable E s.tuf) (lift (fetchTargetStream D R p d))
      (fun _ s => Reachable E s.tuf) (fun e s => Plain e ∧ Reachable E s.tuf) := by
    intro p d
    refine lift_both (Reachable E) ?_
    unfold fetchTargetStream
    refine Tri.bind (Q := fun _ _ => True) (Tri.ofExcept (fun _ _ _ _ => trivial)
      (fun _ _ h _ => hashPreference_plain h)) fun x => ?_
    obtain ⟨a, v⟩ := x
    dsimp only
    refine Tri.bind (Q := fun _ _ => True) (fun _ _ => trivial) fun _ => ?_
    refine Tri.bind (Q := fun _ _ => True) (fun io _ => ?_) fun evs => ?_
    · unfold Io.call
      cases hf : R.remote.fetchTarget p d io.w with
      | mk r w' =>
        cases r with
        | ok => trivial
        | error e => exact q.fetchTarget _ _ _ _ (by rw [hf])
    exact Tri.bind (Q := fun _ _ => True) (Tri.ofExcept (fun _ _ _ _ => trivial)
      (fun _ _ h _ => safeReader_plain h)) fun raw => Tri.ret fun _ _ => trivial
  unfold Client.fetchTargetReader
  refine Tri.bind (fetchTargetDescription_quiet q hE target) fun d => ?_
  refine Tri.bind (keeps_getTuf' E) fun t => ?_
  refine Tri.ite (fun _ => ?_) (fun _ => stream _ _)
  refine Tri.bind (Q := fun _ s => Reachable E s.tuf) (Tri.ofExcept (fun _ _ _ h => h)
    (fun e _ he h => ⟨hashPreference_plain he, h⟩)) fun p => ?_
  refine Tri.bind (Q := fun _ s => Reachable E s.tuf) (Tri.ofExcept (fun _ _ _ h => h)
    (fun e _ he h => ⟨?_, h⟩)) fun path => stream _ _
  unfold TargetPath.withHashPrefix TargetPath.new at he
  dsimp only at he
  split at he <;> cases he
  rename_i he
  unfold safePath at he
  repeat' split at he
  all_goals cases he
  all_goals simp [Plain]

omit q in
theorem copyToWriter_plain (stream : List Ev) {P : Io W → Prop} :
    Tri P (copyToWriter R stream) (fun _ _ => True) (fun e _ => Plain e) := by
  suffices h : ∀ io : Io W, ∀ e io', copyToWriter R stream io = (.error e, io') → Plain e by
    intro io _
    split
    · trivial
    · exact h io _ _ ‹_›
  induction stream with
  | nil =>
    intro io e io' h
    simp only [copyToWriter] at h
    split at h <;> cases h
    exact toErr_plain _
  | cons ev evs ih =>
    intro io e io' h
    cases ev with
    | pending => exact ih io e io' h
    | err k => cases h; exact toErr_plain _
    | data bs =>
      simp only [copyToWriter] at h
      split at h
      · split at h <;> cases h
        exact toErr_plain _
      · split at h
        · exact ih _ _ _ h
        · cases h; exact toErr_plain _

/-- A public call. -/
theorem exec_quiet (hE : Decoders E) (c : Call) :
    Tri (fun s : St W => Reachable E s.tuf) (exec E D R cfg c) (fun _ s => Reachable E s.tuf)
      (fun e s => (Plain e ∨ c = .update ∧ RootErr cfg e s.tuf) ∧ Reachable E s.tuf) := by
  have weak : ∀ (e : Err) (s : St W), Plain e ∧ Reachable E s.tuf →
      (Plain e ∨ c = .update ∧ RootErr cfg e s.tuf) ∧ Reachable E s.tuf := fun e s h => ⟨.inl h.1, h.2⟩
  cases c with
  | update =>
    exact Tri.bind ((update_quiet q).conseq (fun _ h => h) (fun _ _ h => h)
      (fun e s h => ⟨.inr ⟨rfl, h.1⟩, h.2⟩)) fun _ => Tri.ret fun s hs => hs
  | fetchTarget p =>
    refine Tri.bind (Q := fun _ s => Reachable E s.tuf) ?_ fun _ => Tri.ret fun s hs => hs
    refine Tri.conseq ?_ (fun _ h => h) (fun _ _ h => h) weak
    refine Tri.bind (fetchTargetReader_quiet q hE p) fun stream => ?_
    refine lift_both (Reachable E) ?_
    refine Tri.bind (Q := fun _ _ => True) (fun _ _ => trivial) fun _ => fun io _ => ?_
    unfold Io.call
    cases hf : R.storeTarget stream p io.w with
    | mk r w' =>
      cases r with
      | ok => trivial
      | error e => exact q.storeTarget _ _ _ _ (by rw [hf])
  | fetchTargetToWriter p =>
    refine Tri.bind (Q := fun _ s => Reachable E s.tuf) ?_ fun _ => Tri.ret fun s hs => hs
    refine Tri.conseq ?_ (fun _ h => h) (fun _ _ h => h) weak
    refine Tri.bind (fetchTargetReader_quiet q hE p) fun stream => ?_
    exact lift_both (Reachable E) (copyToWriter_plain stream)
  | fetchTargetDescription p =>
    exact Tri.bind ((fetchTargetDescription_quiet q hE p).conseq (fun _ h => h) (fun _ _ h => h) weak)
      fun _ => Tri.ret fun s hs => hs

end quiet

variable {E : Env} {D : Digest} {R : World W} {cfg : Config}

theorem updateRoot_log (src : Source) (persist : Bool) (s0 : St W) :
    Tri (fun s : St W => s = s0) (updateRootWithRepos E D R cfg src persist)
      (fun _ s => ∃ l n, s.io.log = s0.io.log ++ l ∧ RootSteps E s0.tuf n s.tuf ∧ fetches l = n + 1)
      (fun _ s => ∃ l n, s.io.log = s0.io.log ++ l ∧ RootSteps E s0.tuf n s.tuf ∧ n ≤ fetches l ∧
        fetches l ≤ n + 1) := by
  unfold updateRootWithRepos
  refine Tri.bind (rootLoop_log src persist _ _ s0) fun b => ?_
  refine Tri.bind (Q := fun _ s => ∃ l n, s.io.log = s0.io.log ++ l ∧ RootSteps E s0.tuf n s.tuf ∧
    fetches l = n + 1) (Tri.getClock fun _ hs => hs) fun c => ?_
  refine Tri.bind (Q := fun (_ : Tuf) (s : St W) => ∃ l n, s.io.log = s0.io.log ++ l ∧
    RootSteps E s0.tuf n s.tuf ∧ fetches l = n + 1) (fun _ hs => hs) fun t => ?_
  refine Tri.ite (fun _ => Tri.fail fun s hs => ?_) (fun _ => Tri.ret fun s hs => hs)
  obtain ⟨l, n, h1, h2, h3⟩ := hs
  exact ⟨l, n, h1, h2, by omega, by omega⟩

/-- **C38.** Whatever the repository serves: `update_root` makes one request more than it accepts
roots if it succeeds, and at most one more if it fails; each accepted root raises the version by one;
so there are at most 2^32 requests. -/
theorem C38_rounds (E : Env) (D : Digest) (R : World W) (cfg : Config) (src : Source) (persist : Bool)
    (s s' : St W) (r : Except Err Bool) (hv : s.tuf.root.version ≤ 4294967295)
    (h : updateRootWithRepos E D R cfg src persist s = (r, s')) :
    ∃ l, s'.io.log = s.io.log ++ l ∧ s.tuf.root.version ≤ s'.tuf.root.version ∧
      s'.tuf.root.version ≤ 4294967295 ∧
      fetches l ≤ s'.tuf.root.version - s.tuf.root.version + 1 ∧
      ((∃ b, r = .ok b) → fetches l = s'.tuf.root.version - s.tuf.root.version + 1) ∧
      fetches l ≤ 4294967296 - s.tuf.root.version := by
  have bound : ∀ {t t' : Tuf} {n : Nat}, RootSteps E t n t' → t.root.version ≤ 4294967295 →
      t'.root.version ≤ 4294967295 := by
    intro t t' n hs
    induction hs with
    | zero => exact id
    | succ t t1 t2 raw n h1 h2 ih =>
      intro _
      refine ih ?_
      rcases root_step h1 with ⟨_, new, hr, rfl⟩ | ⟨⟨e, he⟩, _⟩
      · have := hr.noOverflow
        have := hr.nextVersion
        simp only [ofRoot]; omega
      · cases he
  cases r with
  | ok b =>
    obtain ⟨l, n, h1, h2, h3⟩ := (updateRoot_log src persist s).run_ok rfl h
    have := h2.version
    have := bound h2 hv
    exact ⟨l, h1, by omega, this, by omega, fun _ => by omega, by omega⟩
  | error e =>
    obtain ⟨l, n, h1, h2, h3, h4⟩ := (updateRoot_log src persist s).run_error rfl h
    have := h2.version
    have := bound h2 hv
    exact ⟨l, h1, by omega, this, by omega, by simp, by omega⟩

/-- **C38.** The fuel of the modelled loop plays no role: more of it changes nothing. -/
theorem C38_fuel_irrelevant (E : Env) (D : Digest) (R : World W) (cfg : Config) (src : Source)
    (persist : Bool) (upd : Bool) (s : St W) (k : Nat) :
    rootLoop E D R cfg src persist (rootFuel + k) upd s =
      rootLoop E D R cfg src persist rootFuel upd s := by
  induction k with
  | zero => rfl
  | succ k ih =>
    rw [← ih]
    refine rootLoop_fuel src persist (rootFuel + k) upd s ?_
    show u32Max + 2 ≤ u32Max + 2 + k + _
    omega

/-- **C38.** No client call runs out of fuel, and neither does start-up. -/
theorem C38_terminates (E : Env) (hE : Decoders E) (D : Digest) (R : World W) (cfg : Config)
    (q : Quiet E R cfg) (s s' : St W) (hr : Reachable E s.tuf) (c : Call) (e : Err)
    (h : exec E D R cfg c s = (.error e, s') ∨ ∃ u, loadLocal E D R cfg s = (.error e, u)) :
    e ≠ .diverged := by
  rcases h with h | ⟨u, h⟩
  · rcases ((exec_quiet q hE c).run_error hr h).1 with h | ⟨_, h⟩
    · exact h.2
    · exact h.1
  · exact ((loadLocal_quiet q).run_error hr h).1.1

/-- The toy repositories are quiet. -/
theorem toy_quiet (w : Toy.World) (files targets now) :
    Quiet w.env (Toy.repos files targets now) Toy.config where
  parse := by intro b e h; cases Toy.tab_error h; simp
  canonicalize := by intro b e h; cases h
  root := by intro b e h; cases Toy.tab_error h; simp
  timestamp := by intro b e h; cases Toy.tab_error h; simp
  snapshot := by intro b e h; cases Toy.tab_error h; simp
  targets := by intro b e h; cases Toy.tab_error h; simp
  rootOfRaw := by intro b e h; cases Toy.tab_error h; simp
  fetch := by
    intro src p v m h w e he
    cases src
    all_goals
      simp only [Toy.repos, World.provider] at he
      split at he <;> cases he
      simp
  store := by intro p v b w e h; cases h
  fetchTarget := by
    intro p d w e h
    simp only [Toy.repos] at h
    split at h <;> cases h
    simp
  storeTarget := by
    intro evs p w e h
    simp only [Toy.repos] at h
    split at h <;> cases h
    exact toErr_plain _
  translate := by
    intro p e h
    simp only [Toy.config, Config.default, defaultTranslator, VirtualTargetPath.new] at h
    split at h <;> cases h
    rename_i h
    unfold safePath at h
    repeat' split at h
    all_goals cases h
    all_goals simp

/-- One root is accepted with two requests. -/
example : fetches (updateRootWithRepos Toy.env Toy.digest Toy.remoteRepo Toy.config .remote true
      Toy.client0).2.io.log = 2 ∧
    (updateRootWithRepos Toy.env Toy.digest Toy.remoteRepo Toy.config .remote true
      Toy.client0).2.tuf.root.version = 2 := by decide +kernel

/-! ### C39 -/

/-- A world whose only root has the largest version number. -/
def lastWorld : Toy.World := { roots := [(1, Toy.root 4294967295 1000)] }

theorem lastWorld_decoders : Decoders lastWorld.env :=
  lastWorld.decoders (by decide) (by decide) (by decide) (by decide)

/-- **C39 is false for the code** compiled with overflow checks: with the largest root version
trusted, `update` panics, although nothing outside the client does. -/
theorem C39_update_panics :
    ∃ (E : Env) (D : Digest) (R : World Toy.Disk) (cfg : Config) (s s' : St Toy.Disk),
      Decoders E ∧ Quiet E R cfg ∧ Reachable E s.tuf ∧
      exec E D R cfg .update s = (.error .panic, s') :=
  ⟨lastWorld.env, Toy.digest, Toy.repos [] [] 100, Toy.config,
    ⟨⟨Toy.root 4294967295 1000, none, none, none, []⟩, ⟨Toy.Disk.empty, []⟩⟩, _,
    lastWorld_decoders, toy_quiet _ _ _ _,
    ⟨_, [], .inr ⟨[1], by decide +kernel⟩, rfl⟩, Prod.ext (by decide +kernel) rfl⟩

/-- **C39 (partial).** This is the only panic: no other call panics, the delegated metadata unwrapped
in a target walk is present, and `update` panics only in builds with overflow checks, with the
largest root version trusted. Missing: that one case. -/
theorem C39_only_overflow_panics_partial (E : Env) (hE : Decoders E) (D : Digest) (R : World W)
    (cfg : Config) (q : Quiet E R cfg) (s s' : St W) (hr : Reachable E s.tuf) (c : Call)
    (h : exec E D R cfg c s = (.error .panic, s')) :
    c = .update ∧ cfg.overflowChecks = true ∧ s'.tuf.root.version = 4294967295 := by
  have hs := (exec_quiet q hE c).run_error hr h
  rcases hs.1 with hp | ⟨hc, hp⟩
  · exact absurd rfl hp.1
  · have := hp.2 rfl
    have := (hs.2.positive hE).root
    exact ⟨hc, by tauto, by omega⟩

/-- A walk that unwraps delegated metadata. -/
example : (exec Toy.env Toy.digest Toy.remoteRepo Toy.config (.fetchTarget "q/z".toList)
      (exec Toy.env Toy.digest Toy.remoteRepo Toy.config .update Toy.client0).2).2.tuf.delegations =
    [("b".toList, Toy.targets 1 500 [("q/z", 5)] none)] := by decide +kernel

/-! ### C41 -/

/-- **C41 (partial).** Loading the local repository never makes a constructor fail, whatever the
local repository contains or does, and the root stays linked to the initial one. Missing: the panic
of C39, possible only in builds with overflow checks if the local repository has a valid chain of
roots from the initial one up to the largest version. -/
theorem C41_start_up_partial (E : Env) (D : Digest) (R : World W) (cfg : Config) (q : Quiet E R cfg)
    (t0 : Tuf) (h0 : Fresh E t0) (io io' : Io W) (r : Except Err Tuf)
    (h : Client.new E D R cfg t0 io = (r, io')) :
    (∃ t, r = .ok t ∧ RootChain E t0.root t.root) ∨
    (r = .error .panic ∧ cfg.overflowChecks = true ∧
      ∃ root, RootChain E t0.root root ∧ 4294967295 ≤ root.version) := by
  have hreach : Reachable E (⟨t0, io⟩ : St W).tuf := ⟨t0, [], h0, rfl⟩
  have htr : Tr E D cfg t0 io.log (⟨t0, io⟩ : St W) := ⟨[], by simp, Good.nil, rfl⟩
  have chain : ∀ s : St W, Tr E D cfg t0 io.log s → RootChain E t0.root s.tuf.root := by
    rintro s ⟨l, _, _, h⟩
    rw [h]; exact C09_root_chain E t0 _
  unfold Client.new at h
  cases hl : loadLocal E D R cfg ⟨t0, io⟩ with
  | mk res s =>
    rw [hl] at h
    cases res with
    | ok u =>
      cases h
      exact .inl ⟨_, rfl, chain s (loadLocal_tr.run_ok htr hl)⟩
    | error e =>
      have hc := chain s (loadLocal_tr.run_error htr hl)
      by_cases he : e = .panic
      · subst he
        cases h
        obtain ⟨g1, g2⟩ := ((loadLocal_quiet q).run_error hreach hl).1.2 rfl
        exact .inr ⟨rfl, g1, _, hc, g2⟩
      · have h' : (Except.ok s.tuf, s.io) = (r, io') := by
          cases e <;> first | exact h | exact absurd rfl he
        cases h'
        exact .inl ⟨_, rfl, hc⟩

/-- **C41.** In builds without overflow checks, starting with an acceptable root always succeeds. -/
theorem C41_release_partial (E : Env) (D : Digest) (R : World W) (cfg : Config) (q : Quiet E R cfg)
    (hc : cfg.overflowChecks = false) (raw : Bytes) (t0 : Tuf) (h0 : fromTrustedRoot E raw = .ok t0)
    (io : Io W) :
    ∃ t io', construct E D R cfg (.trustedRoot raw) io = (.ok t, io') ∧ RootChain E t0.root t.root := by
  cases h : Client.new E D R cfg t0 io with
  | mk r io' =>
    rcases C41_start_up_partial E D R cfg q t0 (.inr ⟨raw, h0⟩) io io' r h with ⟨t, rfl, ht⟩ | ⟨_, h', _⟩
    · refine ⟨t, io', ?_, ht⟩
      show M.bind (M.ofExcept (fromTrustedRoot E raw)) _ io = _
      unfold M.bind M.ofExcept
      rw [h0]
      exact h
    · rw [hc] at h'; cases h'

/-- **C41 is false for the code**: with overflow checks, start-up panics at the largest root version.
-/
theorem C41_start_up_panics :
    ∃ (E : Env) (D : Digest) (R : World Toy.Disk) (cfg : Config) (raw : Bytes) (t0 : Tuf)
      (io io' : Io Toy.Disk),
      Decoders E ∧ Quiet E R cfg ∧ fromTrustedRoot E raw = .ok t0 ∧
      construct E D R cfg (.trustedRoot raw) io = (.error .panic, io') :=
  ⟨lastWorld.env, Toy.digest, Toy.repos [] [] 100, Toy.config, [1],
    ⟨Toy.root 4294967295 1000, none, none, none, []⟩, ⟨Toy.Disk.empty, []⟩, _,
    lastWorld_decoders, toy_quiet _ _ _ _, by decide +kernel, Prod.ext (by decide +kernel) rfl⟩

/-- A local repository full of garbage. -/
example : (construct Toy.env Toy.digest Toy.remoteRepo Toy.config (.trustedRoot [1])
    ⟨⟨Toy.files [("root", some 2, 99), ("timestamp", none, 98)], [], []⟩, []⟩).1 = .ok Toy.boot := by
  decide +kernel

end RustTuf.Props
