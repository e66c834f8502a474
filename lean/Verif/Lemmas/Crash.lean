import Verif.Lemmas.Disk

/-!
# What a call that is stopped leaves behind
The file of the timestamp after a call whose writes may fail, and the roots that are stored then.
-/

namespace RustTuf.Props
open Client Spec Tuf

variable {W : Type} {E : Env} {D : Digest} {cfg : Config} {R : World W} {file : W → Files}

/-! ### The file of the timestamp -/

/-- The record has grown. If no delegated role has a reserved name: the file of the timestamp, the
trusted root and the trusted timestamp are these. -/
def Still (file : W → Files) (L : List LogEntry) (f : Option Bytes) (r : RootMetadata)
    (x : Option TimestampMetadata) (s : St W) : Prop :=
  L <+: s.io.log ∧ (ProperNames s.io.log →
    file s.io.w "timestamp".toList .none = f ∧ s.tuf.root = r ∧ s.tuf.timestamp = x)

variable {L : List LogEntry} {f : Option Bytes} {r : RootMetadata} {x : Option TimestampMetadata}

theorem Still.grow {s s' : St W} (h : Still file L f r x s)
    (hf : file s'.io.w "timestamp".toList .none = file s.io.w "timestamp".toList .none)
    (hl : s.io.log <+: s'.io.log) (hr : s'.tuf.root = s.tuf.root)
    (hx : s'.tuf.timestamp = s.tuf.timestamp) : Still file L f r x s' := by
  refine ⟨h.1.trans hl, fun hp => ?_⟩
  obtain ⟨h1, h2, h3⟩ := h.2 (hp.of_prefix hl)
  exact ⟨hf.trans h1, hr.trans h2, hx.trans h3⟩

theorem still_fetch (hR : Reads R file) (src : Source) (role : Role) (p : MetadataPath)
    (v : MetadataVersion) (m : Option Nat) (h : HashData) :
    Keeps (Still file L f r x) (lift (fetchMetadata D R src role p v m h)) := by
  refine Tri.fix fun s0 h0 => ?_
  exact (fetch_st hR src role p v m h s0.tuf (file s0.io.w) s0.io.log).conseq
    (by rintro s rfl; exact ⟨rfl, rfl, List.prefix_refl _⟩)
    (fun _ s h => h0.grow (by rw [h.2.2.1]) h.2.2.2 (by rw [h.2.1]) (by rw [h.2.1]))
    (fun _ s h => h0.grow (by rw [h.2.1]) h.2.2 (by rw [h.1]) (by rw [h.1]))

theorem still_clock (hR : Reads R file) : Keeps (Still file L f r x) (getClock R) :=
  Tri.getClock fun s hs => hs.grow (by show file (R.clock s.io.w).2 _ _ = _; rw [hR.clock])
    (List.prefix_refl _) rfl rfl

theorem still_op (o : Op) (h1 : ∀ raw, o ≠ .root raw) (h2 : ∀ clk raw, o ≠ .timestamp clk raw) :
    Keeps (Still file L f r x) (updateTuf (W := W) E o) := by
  refine Tri.updateTuf ?_
  intro s o' t' hs hst
  have key : Still file L f r x ⟨t', ⟨s.io.w, s.io.log ++ [LogEntry.op o o']⟩⟩ := by
    refine hs.grow rfl (List.prefix_append _ _) (step_root_eq hst h1) ?_
    show t'.timestamp = s.tuf.timestamp
    have hc := step_case E s.tuf o
    rw [hst] at hc
    generalize ho : o' = ox at hc
    cases hc with
    | failed | same | targets | delegation => rfl
    | root raw new => exact absurd rfl (h1 raw)
    | timestamp clk raw => exact absurd rfl (h2 clk raw)
    | timestampExpired clk raw => exact absurd rfl (h2 clk raw)
    | snapshot clk raw new t' _ hp => exact hp.timestamp
  cases o' <;> exact key

theorem still_store (hR : Lossy R file) (role : Role) (p : MetadataPath) (v : MetadataVersion)
    (raw : Bytes) (hp : p ≠ "timestamp".toList) :
    Keeps (Still file L f r x) (lift (storeMetadata R role p v raw)) := by
  refine Tri.fix fun s0 h0 => ?_
  refine (Tri.lift (store_files hR role p v raw (file s0.io.w) s0.io.log) s0.tuf).conseq
    (by rintro s rfl; exact ⟨rfl, rfl, List.prefix_refl _⟩) ?_ ?_
  · rintro _ s ⟨e1, _, e2, e3⟩
    exact h0.grow (by rw [e2]; exact Files.put_ne hp.symm) e3 (by rw [e1]) (by rw [e1])
  · rintro _ s ⟨e1, _, e2, e3⟩
    exact h0.grow (by rw [e2]) e3 (by rw [e1]) (by rw [e1])

theorem still_finish (hR : Lossy R file) (o : Op) (h1 : ∀ raw, o ≠ .root raw)
    (h2 : ∀ clk raw, o ≠ .timestamp clk raw) (role : Role) (p : MetadataPath) (raw : Bytes)
    (persist : Bool) (hp : p ≠ "timestamp".toList) :
    Keeps (Still file L f r x) (do match ← updateTuf E o with
          | .changed =>
            M.when persist (lift (storeMetadata R role p .none raw))
            return true
          | _ => return false) := by
  refine (still_op o h1 h2).bind fun out => ?_
  cases out with
  | changed => exact (Keeps.when fun _ => still_store hR _ _ _ _ hp).bind fun _ => Keeps.ret _
  | unchanged => exact Keeps.ret _
  | failed e => exact Keeps.ret _

theorem still_snapshot (hR : Lossy R file) (src : Source) (persist consistent : Bool) :
    Keeps (Still file L f r x) (updateSnapshotWithRepos E D R src persist consistent) := by
  unfold updateSnapshotWithRepos
  refine (keeps_getTuf _).bind fun t => ?_
  cases t.timestamp with
  | none => exact Keeps.fail _
  | some ts =>
    refine Keeps.ite (fun _ => Keeps.ret _) fun _ => (Keeps.ofExcept _).bind fun p => ?_
    obtain ⟨a, v⟩ := p
    refine (still_fetch hR.toReads src _ _ _ _ _).bind fun raw => (still_clock hR.toReads).bind fun c => ?_
    exact still_finish hR _ (by simp) (by simp) _ _ _ _ (by decide)

theorem still_targets (hR : Lossy R file) (src : Source) (persist consistent : Bool) :
    Keeps (Still file L f r x) (updateTargetsWithRepos E D R src persist consistent) := by
  unfold updateTargetsWithRepos
  refine (keeps_getTuf _).bind fun t => ?_
  cases t.snapshot with
  | none => exact Keeps.fail _
  | some sn =>
    dsimp only
    cases sn.metas.get? (MetadataPath.fromRole .targets) with
    | none => exact Keeps.fail _
    | some m =>
      refine Keeps.ite (fun _ => Keeps.ret _) fun _ => (Keeps.ofExcept _).bind fun p => ?_
      obtain ⟨a, v⟩ := p
      refine (still_fetch hR.toReads src _ _ _ _ _).bind fun raw => (still_clock hR.toReads).bind fun c => ?_
      exact still_finish hR _ (by simp) (by simp) _ _ _ _ (by decide)

theorem still_walk (hR : Lossy R file) : Walk E D R (Still file L f r x)
    (fun p _ s => Still file L f r x s ∧ (ProperNames s.io.log → p ≠ "timestamp".toList)) where
  fetch := still_fetch hR.toReads
  clock := still_clock hR.toReads
  op clk parent p raw := by
    intro s hs
    have h := still_op (E := E) (.delegation clk parent p raw) (by simp) (by simp) s hs
    unfold updateTuf at h ⊢
    cases hst : Tuf.step E s.tuf (.delegation clk parent p raw) with
    | mk o' t' =>
      rw [hst] at h
      have names : ProperNames (s.io.log ++ [LogEntry.op (.delegation clk parent p raw) o']) →
          p ≠ "timestamp".toList := fun h => (h clk parent p raw o' (by simp)).1
      cases o' with
      | failed e => exact h
      | changed => exact ⟨h, names⟩
      | unchanged => exact ⟨h, names⟩
  store p raw := by
    refine Tri.fix fun s0 ⟨h0, hp⟩ => ?_
    by_cases hn : ProperNames s0.io.log
    · refine (still_store hR .targets p .none raw (hp hn)).conseq ?_ (fun _ _ h => h) (fun _ _ h => h)
      rintro s rfl; exact h0
    · have hmono : ∀ s : St W, s0.io.log <+: s.io.log → Still file L f r x s :=
        fun s hl => ⟨h0.1.trans hl, fun h => absurd (h.of_prefix hl) hn⟩
      exact (Tri.lift (store_files hR .targets p .none raw (file s0.io.w) s0.io.log) s0.tuf).conseq
        (by rintro s rfl; exact ⟨rfl, rfl, List.prefix_refl _⟩)
        (fun _ s h => hmono s h.2.2.2) (fun _ s h => hmono s h.2.2.2)

/-- The trusted timestamp is in its file, verified under the trusted root. -/
def Fresh (E : Env) (cfg : Config) (file : W → Files) (s : St W) : Prop :=
  ∃ raw new, file s.io.w "timestamp".toList .none = some raw ∧
    raw.length ≤ limit cfg.maxTimestampLength ∧
    Authentic E E.timestampFromSlice raw s.tuf.root.timestamp.threshold (timestampSigners s.tuf.root) new ∧
    s.tuf.timestamp = some new

/-- Update of the timestamp: its file is left alone, or the new timestamp is in it. -/
theorem timestamp_file (hR : Lossy R file) (f : Option Bytes) :
    Tri (fun s : St W => file s.io.w "timestamp".toList .none = f)
      (updateTimestampWithRepos E D R cfg .remote true)
      (fun _ s => file s.io.w "timestamp".toList .none = f ∨ Fresh E cfg file s)
      (fun _ s => file s.io.w "timestamp".toList .none = f ∨ Fresh E cfg file s) := by
  refine Tri.fix fun s0 h0 => ?_
  have idle : ∀ s : St W, (s.tuf = s0.tuf ∧ file s.io.w = file s0.io.w ∧ s0.io.log <+: s.io.log) →
      file s.io.w "timestamp".toList .none = f ∨ Fresh E cfg file s :=
    fun s h => .inl (by rw [h.2.1]; exact h0)
  unfold updateTimestampWithRepos
  refine Tri.bind ((fetch_st hR.toReads .remote _ _ _ _ _ s0.tuf (file s0.io.w) s0.io.log).conseq
    (by rintro s rfl; exact ⟨rfl, rfl, List.prefix_refl _⟩) (fun _ _ h => h) (fun _ s h => idle s h))
    fun raw => Tri.assume fun hraw => ?_
  refine Tri.bind ((clock_st hR.toReads s0.tuf (file s0.io.w) s0.io.log).conseq (fun _ h => h)
    (fun _ _ h => h) (fun _ s h => idle s h)) fun clk => ?_
  refine Tri.bind (Q := fun o' s => Tuf.step E s0.tuf (.timestamp clk raw) = (o', s.tuf) ∧
    file s.io.w = file s0.io.w) (Tri.updateTuf ?_) fun o' => ?_
  · rintro s o' t' ⟨e1, e2, e3⟩ hst
    rw [e1] at hst
    cases o' with
    | changed => exact ⟨hst, e2⟩
    | unchanged => exact ⟨hst, e2⟩
    | failed e => exact .inl (by show file s.io.w _ _ = _; rw [e2]; exact h0)
  cases o' with
  | unchanged => exact Tri.ret fun s h => .inl (by rw [h.2]; exact h0)
  | failed e => exact Tri.ret fun s h => .inl (by rw [h.2]; exact h0)
  | changed =>
    refine Tri.bind (Q := fun _ s => file s.io.w "timestamp".toList .none = f ∨ Fresh E cfg file s) ?_
      fun _ => Tri.ret fun _ h => h
    refine Tri.when (fun _ => ?_) (by simp)
    refine Tri.fix fun s1 ⟨e1, e2⟩ => ?_
    refine (Tri.lift (store_files hR _ _ .none raw (file s1.io.w) s1.io.log) s1.tuf).conseq
      (by rintro s rfl; exact ⟨rfl, rfl, List.prefix_refl _⟩) ?_ ?_
    · rintro _ s ⟨g1, _, g2, _⟩
      simp only [Tuf.step] at e1
      split at e1 <;> cases e1
      rename_i new hu
      obtain ⟨hrule, hn⟩ := (updateTimestamp_some_iff ..).1 hu
      refine .inr ⟨raw, new, ?_, hraw.1.1, ?_, ?_⟩
      · rw [g2]; exact if_pos ⟨rfl, rfl⟩
      · rw [g1, hn]; exact hrule.signed
      · rw [g1, hn]
    · rintro _ s ⟨_, _, g2, _⟩
      exact .inl (by rw [g2, e2]; exact h0)

theorem rootLoop_file (hR : Lossy R file) (f : Option Bytes) (fuel : Nat) : ∀ upd,
    Keeps (fun s : St W => file s.io.w "timestamp".toList .none = f)
      (rootLoop E D R cfg .remote true fuel upd) := by
  have fetch : ∀ role p v m h, Keeps (fun s : St W => file s.io.w "timestamp".toList .none = f)
      (lift (fetchMetadata D R .remote role p v m h)) := by
    intro role p v m h
    refine Tri.fix fun s0 h0 => ?_
    exact (fetch_st hR.toReads .remote role p v m h s0.tuf (file s0.io.w) s0.io.log).conseq
      (by rintro s rfl; exact ⟨rfl, rfl, List.prefix_refl _⟩)
      (fun _ s h => by rw [h.2.2.1]; exact h0) (fun _ s h => by rw [h.2.1]; exact h0)
  have store : ∀ v raw, Keeps (fun s : St W => file s.io.w "timestamp".toList .none = f)
      (lift (storeMetadata R .root (MetadataPath.fromRole .root) v raw)) := by
    intro v raw
    refine Tri.fix fun s0 h0 => ?_
    refine (Tri.lift (store_files hR .root _ v raw (file s0.io.w) s0.io.log) s0.tuf).conseq
      (by rintro s rfl; exact ⟨rfl, rfl, List.prefix_refl _⟩) ?_ ?_
    · rintro _ s ⟨_, _, e2, _⟩
      rw [e2, Files.put_ne (by decide)]; exact h0
    · rintro _ s ⟨_, _, e2, _⟩
      rw [e2]; exact h0
  induction fuel with
  | zero => exact fun _ => Keeps.fail _
  | succ fuel ih =>
    intro upd
    unfold Client.rootLoop
    refine (keeps_getTuf _).bind fun t => (Keeps.ofExcept _).bind fun next => ?_
    refine (Keeps.attempt (fetch _ _ _ _ _)).bind fun y => ?_
    cases y with
    | error e => cases e <;> first | exact Keeps.ret _ | exact Keeps.fail _
    | ok raw =>
      refine Keeps.bind (Tri.updateTuf ?_) fun _ => ?_
      · intro s o' t' hs _
        cases o' <;> exact hs
      · exact (Keeps.when fun _ => (store _ _).bind fun _ => store _ _).bind fun _ => ih true

/-! ### Files and the record -/

/-- A file is as before, or a write of its content is in the record. -/
def Recorded (file : W → Files) (p : MetadataPath) (v : MetadataVersion) (f : Option Bytes)
    (L : List LogEntry) (s : St W) : Prop :=
  ∃ l, s.io.log = L ++ l ∧ (file s.io.w p v = f ∨ ∃ raw, .store p v raw ∈ l)

theorem Recorded.grow {p v f L} {s s' : St W} (h : Recorded file p v f L s)
    (hf : file s'.io.w = file s.io.w) (hl : s.io.log <+: s'.io.log) : Recorded file p v f L s' := by
  obtain ⟨l, h1, h2⟩ := h
  obtain ⟨l', h3⟩ := hl
  refine ⟨l ++ l', by rw [← h3, h1, List.append_assoc], ?_⟩
  rw [hf]
  exact h2.imp id fun ⟨raw, h⟩ => ⟨raw, List.mem_append_left _ h⟩

/-- What a write may do: nothing, or it is recorded and done or not. -/
def StoreTried (file : W → Files) (p : MetadataPath) (v : MetadataVersion) (raw : Bytes)
    (io io' : Io W) : Prop :=
  (io'.log = io.log ∧ file io'.w = file io.w) ∨
  (io'.log = io.log ++ [.store p v raw] ∧
    (file io'.w = (file io.w).put p v raw ∨ file io'.w = file io.w))

theorem store_tried (hR : Lossy R file) (role : Role) (p : MetadataPath) (v : MetadataVersion)
    (raw : Bytes) (io : Io W) :
    Tri (fun x : Io W => x = io) (storeMetadata R role p v raw)
      (fun _ => StoreTried file p v raw io) (fun _ => StoreTried file p v raw io) := by
  unfold storeMetadata
  refine Tri.bind (Q := fun _ x => x = io) (Tri.ofExcept (fun _ _ _ h => h)
    (fun _ _ _ h => h ▸ .inl ⟨rfl, rfl⟩)) fun _ => ?_
  refine Tri.bind (Q := fun _ x => x = ⟨io.w, io.log ++ [.store p v raw]⟩)
    (by rintro x rfl; rfl) fun _ => ?_
  rintro x hx
  have hw : x.w = io.w := by rw [hx]
  have hlog : x.log = io.log ++ [.store p v raw] := by rw [hx]
  clear hx
  unfold Io.call
  have hs := hR.store p v raw x.w
  cases hq : R.storeMetadata p v raw x.w with
  | mk r w' =>
    rw [hq, hw] at hs
    cases r with
    | ok u => exact .inr ⟨hlog, hs.imp (·.2) (·.2)⟩
    | error e => exact .inr ⟨hlog, hs.imp (·.2) (·.2)⟩

theorem recorded_prims (hR : Lossy R file) (p : MetadataPath) (v : MetadataVersion) (f : Option Bytes)
    (L : List LogEntry) (ops : Op → Prop) :
    Prims E D R (Recorded file p v f L) (fun _ => True) True ops where
  fetch src _ role q v' m h := by
    refine Tri.fix fun s0 h0 => ?_
    exact (fetch_st hR.toReads src role q v' m h s0.tuf (file s0.io.w) s0.io.log).conseq
      (by rintro s rfl; exact ⟨rfl, rfl, List.prefix_refl _⟩)
      (fun _ s h => h0.grow h.2.2.1 h.2.2.2) (fun _ s h => h0.grow h.2.1 h.2.2)
  store _ role q v' raw := by
    refine Tri.fix fun s0 h0 => ?_
    have key : ∀ s : St W, (s.tuf = s0.tuf ∧ StoreTried file q v' raw s0.io s.io) →
        Recorded file p v f L s := by
      rintro s ⟨_, ⟨e1, e2⟩ | ⟨e1, e2⟩⟩
      · exact h0.grow e2 (by rw [e1]; exact List.prefix_refl _)
      · obtain ⟨l, h1, h2⟩ := h0
        have old : file s0.io.w p v = f ∨ (∃ raw, LogEntry.store p v raw ∈ l) →
            file s0.io.w p v = f ∨ ∃ raw', LogEntry.store p v raw' ∈ l ++ [.store q v' raw] :=
          fun h => h.imp id fun ⟨raw, h⟩ => ⟨raw, List.mem_append_left _ h⟩
        refine ⟨l ++ [.store q v' raw], by rw [e1, h1, List.append_assoc], ?_⟩
        rcases e2 with e2 | e2
        · by_cases he : p = q ∧ v = v'
          · obtain ⟨rfl, rfl⟩ := he
            exact .inr ⟨raw, by simp⟩
          · have : file s.io.w p v = file s0.io.w p v := by
              rw [e2]; unfold Files.put; rw [if_neg he]
            rw [this]; exact old h2
        · rw [e2]; exact old h2
    exact (Tri.lift (store_tried hR role q v' raw s0.io) s0.tuf).conseq
      (by rintro s rfl; exact ⟨rfl, rfl⟩) (fun _ => key) (fun _ => key)
  clock := Tri.getClock fun s hs => hs.grow (hR.clock _) (List.prefix_refl _)
  op o _ := by
    refine Tri.updateTuf ?_
    intro s o' t' hs _
    have key : Recorded file p v f L ⟨t', ⟨s.io.w, s.io.log ++ [LogEntry.op o o']⟩⟩ :=
      hs.grow rfl (List.prefix_append _ _)
    cases o' <;> exact key

theorem recorded_lift {α : Type} {m : M (Io W) α} {p v f L}
    (h : ∀ F L, Keeps (fun io : Io W => file io.w = F ∧ L <+: io.log) m) :
    Keeps (Recorded file p v f L) (lift m) := by
  refine Tri.fix fun s0 h0 => ?_
  exact (Tri.lift (h (file s0.io.w) s0.io.log) s0.tuf).conseq
    (by rintro s rfl; exact ⟨rfl, rfl, List.prefix_refl _⟩)
    (fun _ _ h => h0.grow h.2.1 h.2.2) (fun _ _ h => h0.grow h.2.1 h.2.2)

/-- The code of a call, for assertions that hold for its parts. -/
theorem exec_keeps {I : St W → Prop} (hup : Keeps I (update E D R cfg))
    {J : MetadataPath → Bytes → St W → Prop} (hw : Walk E D R I J)
    (hl : ∀ {α : Type} (m : M (Io W) α),
      (∀ F L, Keeps (fun io : Io W => file io.w = F ∧ L <+: io.log) m) → Keeps I (lift m))
    (hR : Reads R file) (c : Call) : Keeps I (exec E D R cfg c) := by
  have reader : ∀ p, Keeps I (fetchTargetReader E D R cfg p) := fun p =>
    hw.fetchTargetReader (fun q d => hl _ fun F L => fetchTargetStream_files hR q d F L) p
  cases c with
  | update => exact hup.bind fun _ => Keeps.ret _
  | fetchTarget p =>
    refine Keeps.bind ?_ fun _ => Keeps.ret _
    exact (reader p).bind fun st => hl _ fun F L => storeTarget_files hR st p F L
  | fetchTargetToWriter p =>
    refine Keeps.bind ?_ fun _ => Keeps.ret _
    exact (reader p).bind fun st => hl _ fun F L => copyToWriter_files hR st F L
  | fetchTargetDescription p =>
    exact Keeps.bind (hw.fetchTargetDescription p) fun _ => Keeps.ret _

theorem exec_recorded (hR : Lossy R file) (c : Call) (p : MetadataPath) (v : MetadataVersion)
    (f : Option Bytes) (L : List LogEntry) :
    Keeps (Recorded file p v f L) (exec E D R cfg c) :=
  exec_keeps ((recorded_prims hR p v f L TopOp).update trivial trivial)
    (recorded_prims hR p v f L DelegOp).walk (fun _ h => recorded_lift h) hR.toReads c

/-! ### The stored roots -/

/-- Two chains in the same files that reach the same version reach the same root. -/
theorem Stored.unique {m F a b c} (hb : Stored E m F a b) (hc : Stored E m F a c)
    (hv : b.version = c.version) : b = c := by
  induction hb generalizing c with
  | refl =>
    cases hc with
    | refl => rfl
    | snoc d _ raw h1 h2 h3 hr =>
      have := h1.version_le
      have : c.version = d.version + 1 := hr.nextVersion
      omega
  | snoc d b raw h1 h2 h3 hr ih =>
    have e1 : b.version = d.version + 1 := hr.nextVersion
    cases hc with
    | refl => have := h1.version_le; omega
    | snoc d' _ raw' g1 g2 g3 gr =>
      have e2 : c.version = d'.version + 1 := gr.nextVersion
      cases ih g1 (by omega)
      rw [h2] at g2
      cases g2
      exact Authentic.unique hr.signedByOld gr.signedByOld

/-- A call does not write over the roots that are stored. -/
theorem exec_roots (hR : Lossy R file) (c : Call) {t : Tuf} {io : Io W} {y : Except Err Reply}
    {s : St W} (he : exec E D R cfg c ⟨t, io⟩ = (y, s)) (k : Nat) (hk : k ≤ t.root.version) :
    file s.io.w "root".toList (.number k) = file io.w "root".toList (.number k) := by
  have h1 := (exec_recorded (E := E) (D := D) (cfg := cfg) hR c "root".toList (.number k)
    (file io.w "root".toList (.number k)) io.log).run (s := ⟨t, io⟩) ⟨[], by simp, .inl rfl⟩
  rw [he] at h1
  obtain ⟨l, h1, h2⟩ := h1
  rcases h2 with h2 | ⟨raw, h2⟩
  · exact h2
  exfalso
  obtain ⟨l', h3, h4, h5⟩ := execAll_tr (E := E) (D := D) (cfg := cfg) (R := R) [c]
    (⟨t, io⟩ : St W) (show Tr E D cfg t io.log _ from ⟨[], by simp, Good.nil, rfl⟩)
  simp only [execAll, List.foldl, he] at h3
  have hll : l = l' := List.append_cancel_left (h1.symm.trans h3)
  subst hll
  obtain ⟨pre, post, hpp⟩ := List.append_of_mem h2
  obtain ⟨kd, o, out, pre', mid, g1, g2, g3, g4, g5, g6⟩ := h4 pre _ post hpp
  rcases g6 with g6 | ⟨rfl, g6⟩
  · cases g6
  cases g3
  rcases g5 with rfl | ⟨_, _, _, _, _, h⟩
  swap
  · cases h
  have g7 := (h4 pre' (.op (.root raw) .changed) (mid ++ .store "root".toList (.number k) raw :: post)
    (by rw [hpp, g1]; simp)).1
  have hmid : ∀ (mid : List LogEntry), (∀ e ∈ mid, ∃ v', e = .store "root".toList v' raw) →
      opsOf mid = [] := by
    intro mid
    induction mid with
    | nil => intro _; rfl
    | cons e es ih =>
      intro h
      obtain ⟨v', rfl⟩ := h e (by simp)
      exact ih fun e he => h e (by simp [he])
  have hops : ∀ a b, opsOf (a ++ b) = opsOf a ++ opsOf b := by
    intro a b
    induction a with
    | nil => rfl
    | cons e es ih => cases e <;> simp [opsOf, ih]
  have hafter : after E t pre = (Tuf.step E (after E t pre') (.root raw)).2 := by
    unfold after
    rw [g1, hops, run_append]
    show Tuf.run E _ (Op.root raw :: opsOf mid) = _
    rw [hmid mid g2]; rfl
  have hv := root_version_mono E t (opsOf pre')
  rw [hafter] at g6
  have hs := step_case E (after E t pre') (.root raw)
  rw [g7] at hs
  generalize (Tuf.step E (after E t pre') (.root raw)).2 = u at g6 hs
  cases hs with
  | root _ new hr =>
    have e1 : new.version = (after E t pre').root.version + 1 := hr.nextVersion
    rw [MetadataVersion.number.injEq] at g6
    have e2 : k = new.version := g6
    have e3 : t.root.version ≤ (after E t pre').root.version := hv
    omega

/-! ### What is left -/

theorem tri_pair {σ α : Type} {P P' : σ → Prop} {Q Q' : α → σ → Prop} {X X' : Err → σ → Prop}
    {m : M σ α} (h : Tri P m Q X) (h' : Tri P' m Q' X') :
    Tri (fun s => P s ∧ P' s) m (fun a s => Q a s ∧ Q' a s) (fun e s => X e s ∧ X' e s) := by
  intro s hs
  have h1 := h s hs.1
  have h2 := h' s hs.2
  cases hm : m s with
  | mk y s' => rw [hm] at h1 h2; cases y <;> exact ⟨h1, h2⟩

section left
variable {a : RootMetadata} {n : Nat}

/-- The roots are stored, and the file of the timestamp is as before or up to date. -/
def Kept (E : Env) (D : Digest) (R : World W) (cfg : Config) (file : W → Files) (a : RootMetadata)
    (n : Nat) (f : Option Bytes) (s : St W) : Prop :=
  Inv E D R cfg file a n s ∧ (ProperNames s.io.log →
    file s.io.w "timestamp".toList .none = f ∨ Fresh E cfg file s)

/-- What a call that was stopped leaves. -/
def Left (E : Env) (D : Digest) (R : World W) (cfg : Config) (file : W → Files) (a : RootMetadata)
    (n : Nat) (f : Option Bytes) (s : St W) : Prop :=
  (Short E D R cfg file a n s ∧ file s.io.w "timestamp".toList .none = f) ∨ Kept E D R cfg file a n f s

theorem kept_of_still {α : Type} {m : M (St W) α} {f : Option Bytes}
    (h1 : Keeps (Inv E D R cfg file a n) m) (h2 : ∀ L f r x, Keeps (Still file L f r x) m) :
    Keeps (Kept E D R cfg file a n f) m := by
  refine Tri.fix fun s0 h0 => ?_
  have key : ∀ s : St W, Inv E D R cfg file a n s ∧ Still file s0.io.log
      (file s0.io.w "timestamp".toList .none) s0.tuf.root s0.tuf.timestamp s →
      Kept E D R cfg file a n f s := by
    rintro s ⟨e1, e2, e3⟩
    refine ⟨e1, fun hp => ?_⟩
    obtain ⟨g1, g2, g3⟩ := e3 hp
    rcases h0.2 (hp.of_prefix e2) with h | ⟨raw, new, k1, k2, k3, k4⟩
    · exact .inl (g1.trans h)
    · exact .inr ⟨raw, new, g1.trans k1, k2, by rw [g2]; exact k3, g3.trans k4⟩
  exact (tri_pair h1 (h2 s0.io.log (file s0.io.w "timestamp".toList .none) s0.tuf.root
    s0.tuf.timestamp)).conseq (by rintro s rfl; exact ⟨h0.1, List.prefix_refl _, fun _ => ⟨rfl, rfl, rfl⟩⟩)
    (fun _ => key) (fun _ => key)

theorem update_left (hR : Lossy R file) (f : Option Bytes) :
    Tri (fun s => Inv E D R cfg file a n s ∧ file s.io.w "timestamp".toList .none = f)
      (update E D R cfg) (fun _ => Kept E D R cfg file a n f) (fun _ => Left E D R cfg file a n f) := by
  have weak : ∀ {α : Type} {m : M (St W) α}, Keeps (Kept E D R cfg file a n f) m →
      Tri (Kept E D R cfg file a n f) m (fun _ => Kept E D R cfg file a n f)
        (fun _ => Left E D R cfg file a n f) :=
    fun h => h.conseq (fun _ h => h) (fun _ _ h => h) (fun _ _ h => .inr h)
  have clock : Keeps (fun s : St W => Inv E D R cfg file a n s ∧
      file s.io.w "timestamp".toList .none = f) (getClock R) :=
    Tri.getClock fun s hs => ⟨hs.1.idle rfl (hR.clock _) (List.prefix_refl _),
      (by show file (R.clock s.io.w).2 _ _ = _; rw [hR.clock]; exact hs.2)⟩
  unfold Client.update updateRootWithRepos
  refine Tri.bind (Q := fun _ s => Inv E D R cfg file a n s ∧
    file s.io.w "timestamp".toList .none = f) ?_ fun _ => ?_
  · refine Tri.bind ((tri_pair (rootLoop_disk hR _ _) (rootLoop_file hR f _ _)).conseq (fun _ h => h)
      (fun _ _ h => h) (fun _ _ h => .inl h)) fun b => ?_
    refine (clock.bind fun c => (keeps_getTuf _).bind fun t => ?_ : Keeps _ _).conseq (fun _ h => h)
      (fun _ _ h => h) (fun _ _ h => .inl ⟨h.1.short, h.2⟩)
    exact Keeps.ite (fun _ => Keeps.fail _) (fun _ => Keeps.ret _)
  · refine Tri.bind (Q := fun _ => Kept E D R cfg file a n f)
      ((tri_pair (updateTimestamp_disk hR (.inr rfl)) (timestamp_file hR f)).conseq (fun _ h => h)
        (fun _ _ h => ⟨h.1, fun _ => h.2⟩) (fun _ _ h => .inr ⟨h.1, fun _ => h.2⟩)) fun _ => weak ?_
    refine (keeps_getTuf _).bind fun _ => ?_
    refine (kept_of_still (updateSnapshot_disk hR _ (.inr rfl)) fun _ _ _ _ =>
      still_snapshot hR _ _ _).bind fun _ => (keeps_getTuf _).bind fun _ => ?_
    exact (kept_of_still (updateTargets_disk hR _ (.inr rfl)) fun _ _ _ _ =>
      still_targets hR _ _ _).bind fun _ => Keeps.ret _

theorem still_lift {α : Type} {m : M (Io W) α}
    (h : ∀ F L, Keeps (fun io : Io W => file io.w = F ∧ L <+: io.log) m) :
    Keeps (Still file L f r x) (lift m) := by
  refine Tri.fix fun s0 h0 => ?_
  exact (Tri.lift (h (file s0.io.w) s0.io.log) s0.tuf).conseq
    (by rintro s rfl; exact ⟨rfl, rfl, List.prefix_refl _⟩)
    (fun _ _ h => h0.grow (by rw [h.2.1]) h.2.2 (by rw [h.1]) (by rw [h.1]))
    (fun _ _ h => h0.grow (by rw [h.2.1]) h.2.2 (by rw [h.1]) (by rw [h.1]))

theorem exec_left (hR : Lossy R file) (c : Call) (f : Option Bytes) (s : St W)
    (h0 : Inv E D R cfg file a n s) (hf : file s.io.w "timestamp".toList .none = f) :
    Left E D R cfg file a n f (exec E D R cfg c s).2 := by
  have both : ∀ {α : Type} {m : M (St W) α}, Keeps (Kept E D R cfg file a n f) m →
      Left E D R cfg file a n f (m s).2 := by
    intro α m h
    exact .inr (h.run ⟨h0, fun _ => .inl hf⟩)
  have walk : ∀ p, Keeps (Kept E D R cfg file a n f) (fetchTargetDescription E D R cfg p) := fun p =>
    kept_of_still ((walk_disk hR).fetchTargetDescription p) fun _ _ _ _ =>
      (still_walk hR).fetchTargetDescription p
  have lifts : ∀ {α : Type} {m : M (Io W) α},
      (∀ F L, Keeps (fun io : Io W => file io.w = F ∧ L <+: io.log) m) →
      Keeps (Kept E D R cfg file a n f) (lift m) := fun h =>
    kept_of_still (lift_disk h) fun _ _ _ _ => still_lift h
  have reader : ∀ p, Keeps (Kept E D R cfg file a n f) (fetchTargetReader E D R cfg p) := fun p =>
    kept_of_still ((walk_disk hR).fetchTargetReader
      (fun q d => lift_disk fun F L => fetchTargetStream_files hR.toReads q d F L) p) fun _ _ _ _ =>
      (still_walk hR).fetchTargetReader
        (fun q d => still_lift fun F L => fetchTargetStream_files hR.toReads q d F L) p
  cases c with
  | update =>
    have h := Tri.bind (update_left (E := E) (D := D) (R := R) (cfg := cfg) (a := a) (n := n) hR f)
      (f := fun b => (pure (Reply.updated b) : M (St W) Reply))
      (R := fun _ => Kept E D R cfg file a n f) (fun _ => Tri.ret fun _ h => h) s ⟨h0, hf⟩
    show Left E D R cfg file a n f ((update E D R cfg >>= fun b => pure (Reply.updated b)) s).2
    cases hm : (update E D R cfg >>= fun b => pure (Reply.updated b)) s with
    | mk y s' =>
      rw [hm] at h
      cases y with
      | ok _ => exact .inr h
      | error _ => exact h
  | fetchTarget p =>
    refine both (Keeps.bind ?_ fun _ => Keeps.ret _)
    exact (reader p).bind fun st => lifts fun F L => storeTarget_files hR.toReads st p F L
  | fetchTargetToWriter p =>
    refine both (Keeps.bind ?_ fun _ => Keeps.ret _)
    exact (reader p).bind fun st => lifts fun F L => copyToWriter_files hR.toReads st F L
  | fetchTargetDescription p => exact both (Keeps.bind (walk p) fun _ => Keeps.ret _)

/-- After a call whose writes may fail, roots up to `b` are stored. If the root is not newer than
before, it is the same one, and the file of the timestamp is as before or has the trusted one. -/
theorem exec_remains (hR : Lossy R file) (c : Call) {t : Tuf} {io : Io W} {y : Except Err Reply}
    {s : St W} (he : exec E D R cfg c ⟨t, io⟩ = (y, s))
    (h0 : Inv E D R cfg file a t.root.version ⟨t, io⟩) (hn : ProperNames s.io.log) :
    ∃ b, RootsOn E cfg (file s.io.w) a b ∧ t.root.version ≤ b.version ∧
      (b.version = t.root.version → b = t.root ∧
        (file s.io.w "timestamp".toList .none = file io.w "timestamp".toList .none ∨
          s.tuf.root = t.root ∧ Fresh E cfg file s)) := by
  have hl := exec_left (E := E) (D := D) (cfg := cfg) hR c _ ⟨t, io⟩ h0 rfl
  rw [he] at hl
  have same : ∀ b, RootsOn E cfg (file s.io.w) a b → b.version = t.root.version → b = t.root := by
    intro b hb hv
    refine hb.stored.unique (h0.roots.stored.congr fun k hk => ?_) hv
    exact exec_roots hR c he k hk
  rcases hl with ⟨⟨⟨b, h1, h2, h3⟩, _⟩, h4⟩ | ⟨h1, h2⟩
  · exact ⟨b, h1, h2, fun hv => ⟨same b h1 hv, .inl h4⟩⟩
  · refine ⟨s.tuf.root, h1.roots, h1.version, fun hv => ⟨same _ h1.roots hv, ?_⟩⟩
    exact (h2 hn).imp id fun h => ⟨same _ h1.roots hv, h⟩

end left
end RustTuf.Props
