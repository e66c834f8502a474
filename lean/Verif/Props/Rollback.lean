import Verif.Props.ClientRestart
import Verif.Lemmas.Crash
import Verif.Spec.Rollback

/-!
# C91: Rollback protection and restarts
-/

namespace RustTuf.Props
open RustTuf RustTuf.Client RustTuf.Spec RustTuf.Tuf

variable {W : Type} {E : Env} {D : Digest} {cfg : Config} {file : W → Files} {raw : Bytes}

section load
variable {R : World W}

/-- What is trusted is changed by verification only. -/
theorem tuf_keeps (ops : Op → Prop) (P : Tuf → Prop)
    (h : ∀ o, ops o → ∀ t, P t → P (Tuf.step E t o).2) :
    (∀ src role p v mx hh, Keeps (fun s : St W => P s.tuf) (lift (fetchMetadata D R src role p v mx hh))) ∧
    Keeps (fun s : St W => P s.tuf) (getClock R) ∧
    ∀ o, ops o → Keeps (fun s : St W => P s.tuf) (updateTuf E o) := by
  refine ⟨fun src role p v mx hh s hs => ?_, Tri.getClock fun _ hs => hs, fun o ho => Tri.updateTuf ?_⟩
  · unfold lift
    cases fetchMetadata D R src role p v mx hh s.io with
    | mk r io => cases r <;> exact hs
  · intro s o' t' hs hst
    have := h o ho s.tuf hs
    rw [hst] at this
    cases o' <;> exact this

theorem updateSnapshot_keeps (P : Tuf → Prop)
    (h : ∀ clk raw t, P t → P (Tuf.step E t (.snapshot clk raw)).2) :
    Keeps (fun s : St W => P s.tuf) (updateSnapshotWithRepos E D R .cache false false) := by
  obtain ⟨h1, h2, h3⟩ := tuf_keeps (E := E) (D := D) (R := R) (fun o => ∃ clk raw, o = .snapshot clk raw) P
    (by rintro _ ⟨clk, raw, rfl⟩; exact h clk raw)
  unfold updateSnapshotWithRepos
  refine (keeps_getTuf _).bind fun t => ?_
  cases t.timestamp with
  | none => exact Keeps.fail _
  | some ts =>
    refine Keeps.ite (fun _ => Keeps.ret _) fun _ => (Keeps.ofExcept _).bind fun p => ?_
    refine (h1 _ _ _ _ _ _).bind fun raw => h2.bind fun c => (h3 _ ⟨c, raw, rfl⟩).bind fun o => ?_
    cases o with
    | changed => exact (Keeps.when (by simp)).bind fun _ => Keeps.ret _
    | unchanged => exact Keeps.ret _
    | failed e => exact Keeps.ret _

theorem updateTargets_keeps (P : Tuf → Prop)
    (h : ∀ clk raw t, P t → P (Tuf.step E t (.targets clk raw)).2) :
    Keeps (fun s : St W => P s.tuf) (updateTargetsWithRepos E D R .cache false false) := by
  obtain ⟨h1, h2, h3⟩ := tuf_keeps (E := E) (D := D) (R := R) (fun o => ∃ clk raw, o = .targets clk raw) P
    (by rintro _ ⟨clk, raw, rfl⟩; exact h clk raw)
  unfold updateTargetsWithRepos
  refine (keeps_getTuf _).bind fun t => ?_
  cases t.snapshot with
  | none => exact Keeps.fail _
  | some sn =>
    dsimp only
    cases sn.metas.get? (MetadataPath.fromRole .targets) with
    | none => exact Keeps.fail _
    | some m =>
      refine Keeps.ite (fun _ => Keeps.ret _) fun _ => (Keeps.ofExcept _).bind fun p => ?_
      refine (h1 _ _ _ _ _ _).bind fun raw => h2.bind fun c => (h3 _ ⟨c, raw, rfl⟩).bind fun o => ?_
      cases o with
      | changed => exact (Keeps.when (by simp)).bind fun _ => Keeps.ret _
      | unchanged => exact Keeps.ret _
      | failed e => exact Keeps.ret _

end load

/-- What a call does. -/
theorem call_run {R : World W} {t t' : Tuf} {io io' : Io W} {c : Call} {r : Except Err Reply}
    (he : exec E D R cfg c ⟨t, io⟩ = (r, ⟨t', io'⟩)) :
    ∃ l, io'.log = io.log ++ l ∧ t' = Tuf.run E t (opsOf l) := by
  obtain ⟨l, h1, _, h⟩ := execAll_tr (E := E) (D := D) (cfg := cfg) (R := R) [c]
    (⟨t, io⟩ : St W) (show Tr E D cfg t io.log _ from ⟨[], by simp, Good.nil, rfl⟩)
  simp only [execAll, List.foldl, he] at h h1
  exact ⟨l, h1, h⟩

/-- A restart reads the stored root and timestamp, if neither has expired. -/
theorem restart_reads {a r : RootMetadata} {t' : Tuf} {io io' : Io W} {ts : TimestampMetadata}
    {raw1 : Bytes} (h0 : fromTrustedRoot E raw = .ok (ofRoot a))
    (hroots : RootsOn E cfg (file io.w) a r) (hmax : r.version < 4294967295)
    (f1 : file io.w "timestamp".toList .none = some raw1)
    (len1 : raw1.length ≤ limit cfg.maxTimestampLength)
    (au1 : Authentic E E.timestampFromSlice raw1 r.timestamp.threshold (timestampSigners r) ts)
    (hpos : 1 ≤ ts.version)
    (R : World W) (hR : Faithful R file) (hroot : ∀ w i, (R.clock w).1 i < r.expires)
    (htime : ∀ w i, (R.clock w).1 i < ts.expires)
    (hcon : construct E D R cfg (.trustedRoot raw) io = (.ok t', io')) :
    t'.root = r ∧ t'.timestamp = some ts := by
  let u0 := Tuf.ofRoot r
  let u1 : Tuf := { u0 with timestamp := some ts }
  let P : Tuf → Prop := fun u => u.root = r ∧ u.timestamp = some ts
  have st1 : ∀ w, Tuf.step E u0 (.timestamp (R.clock w).1 raw1) = (.changed, u1) := by
    intro w
    have : updateTimestamp E (R.clock w).1 u0 raw1 = (.ok (some ts), u1) := by
      refine (updateTimestamp_some_iff ..).2 ⟨⟨au1, ?_, htime w _⟩, ?_⟩
      · exact hpos
      · simp [u1, u0, Tuf.ofRoot]
    simp only [Tuf.step, this]
  have kSn : ∀ clk raw u, P u → P (Tuf.step E u (.snapshot clk raw)).2 := by
    intro clk raw u hu
    have hc := step_case E u (.snapshot clk raw)
    generalize (Tuf.step E u (.snapshot clk raw)).1 = o at hc
    generalize (Tuf.step E u (.snapshot clk raw)).2 = u' at hc ⊢
    cases hc with
    | failed => exact hu
    | same => exact hu
    | snapshot _ _ new _ _ hp => exact ⟨hp.root.trans hu.1, hp.timestamp.trans hu.2⟩
  have kTa : ∀ clk raw u, P u → P (Tuf.step E u (.targets clk raw)).2 := by
    intro clk raw u hu
    have hc := step_case E u (.targets clk raw)
    generalize (Tuf.step E u (.targets clk raw)).1 = o at hc
    generalize (Tuf.step E u (.targets clk raw)).2 = u' at hc ⊢
    cases hc <;> exact hu
  have run : Tri (fun z : St W => z.tuf = ofRoot a ∧ file z.io.w = file io.w ∧ io.log <+: z.io.log)
      (loadLocal E D R cfg) (fun _ z => P z.tuf) (fun _ z => P z.tuf) := by
    have hfuel : r.version - a.version < rootFuel := by
      simp only [rootFuel, u32Max]; omega
    unfold Client.loadLocal
    refine Tri.bind (Q := fun _ (z : St W) => z.tuf = u0 ∧ file z.io.w = file io.w ∧
      io.log <+: z.io.log) ?_ fun _ => ?_
    · unfold updateRootWithRepos
      refine Tri.bind ((rootLoop_replay hR.toReads (file io.w) io.log rootFuel false a r
        hroots hfuel).conseq (fun _ h => h) (fun _ _ h => h) (fun _ _ h => by omega)) fun _ => ?_
      refine Tri.bind (Q := fun c (z : St W) => (∃ w, c = (R.clock w).1) ∧ z.tuf = u0 ∧
        file z.io.w = file io.w ∧ io.log <+: z.io.log)
        (Tri.getClock fun z hz => ⟨⟨z.io.w, rfl⟩, hz.1, (hR.clock _).trans hz.2.1, hz.2.2⟩)
        fun clk => Tri.assume ?_
      rintro ⟨w, rfl⟩
      refine Tri.bind (Q := fun t' (z : St W) => t' = u0 ∧ z.tuf = u0 ∧ file z.io.w = file io.w ∧
        io.log <+: z.io.log) (fun (z : St W) hz => ⟨hz.1, hz⟩) fun t' => Tri.assume ?_
      rintro rfl
      refine Tri.ite (fun hx => ?_) (fun _ => Tri.ret fun _ h => h)
      have := hroot w .root
      exact absurd hx (by show ¬ r.expires ≤ _; omega)
    refine Tri.bind (Q := fun _ (z : St W) => P z.tuf) ?_ fun _ => ?_
    · unfold updateTimestampWithRepos
      refine Tri.bind ((present_st hR.toReads (doc := raw1) (by decide) f1 (by intro _ _ h; cases h)
        ⟨len1, by intro _ _ h; cases h⟩).conseq (fun _ h => h) (fun _ _ h => h)
        (fun _ _ h => h.elim)) fun z => Tri.assume ?_
      rintro rfl
      refine (accept_st hR.toReads (o := fun c => .timestamp c z) st1).conseq (fun _ h => h)
        (fun _ z' h => ?_) (fun _ _ h => h.elim)
      rw [h.1]; exact ⟨rfl, rfl⟩
    exact (updateSnapshot_keeps P kSn).bind fun _ => (updateTargets_keeps P kTa).bind fun _ =>
      Keeps.ret _
  obtain ⟨y, z, e1, rfl, e3, _⟩ := construct_disk (n := 0) hR.lossy h0 hroots (Nat.zero_le _) hcon
  have hrun := run ⟨ofRoot a, io⟩ ⟨rfl, rfl, List.prefix_refl _⟩
  rw [e1] at hrun
  have hP : P z.tuf := by cases y <;> exact hrun
  rcases e3 with ⟨_, h⟩ | ⟨_, h⟩
  · cases h
  · cases h; exact hP

/-- A restart keeps root and timestamp, if neither has expired. -/
theorem restart_keeps (hE : Decoders E) {t t' : Tuf} {io io' : Io W} {ts : TimestampMetadata}
    (hl : Lives E D cfg file raw t io) (hts : t.timestamp = some ts)
    (hmax : t.root.version < 4294967295) (hnames : ProperNames io.log)
    (R : World W) (hR : Faithful R file) (hroot : ∀ w i, (R.clock w).1 i < t.root.expires)
    (htime : ∀ w i, (R.clock w).1 i < ts.expires)
    (hcon : construct E D R cfg (.trustedRoot raw) io = (.ok t', io')) :
    t'.root = t.root ∧ t'.timestamp = some ts := by
  obtain ⟨a, h0, hroots, htop⟩ := lives_disk hl
  have hpos := (lives_reachable hl).positive hE
  obtain ⟨clk1, raw1, f1, len1, au1, _⟩ := (htop hnames).timestamp ts hts
  exact restart_reads h0 hroots hmax f1 len1 au1 (hpos.timestamp ts hts).1 R hR hroot htime hcon

/-- What remains of root and timestamp after a call that is stopped. -/
theorem crash_keeps (hE : Decoders E) {t t' : Tuf} {io io' : Io W} {ts : TimestampMetadata}
    (hl : Lives E D cfg file raw t io) (hts : t.timestamp = some ts)
    (hmax : t.root.version < 4294967295) (Rc : World W) (hRc : Lossy Rc file) {c : Call}
    {y : Except Err Reply} {s : St W} (he : exec E D Rc cfg c ⟨t, io⟩ = (y, s))
    (hnames : ProperNames s.io.log)
    (R : World W) (hR : Faithful R file) (hroot : ∀ w i, (R.clock w).1 i < t.root.expires)
    (htime : ∀ w i ts, t.timestamp = some ts ∨ s.tuf.timestamp = some ts → (R.clock w).1 i < ts.expires)
    (hcon : construct E D R cfg (.trustedRoot raw) s.io = (.ok t', io'))
    (hsame : t'.root.version = t.root.version) :
    ∃ ts', t'.timestamp = some ts' ∧ ts.version ≤ ts'.version := by
  obtain ⟨a, h0, hroots, htop⟩ := lives_disk hl
  obtain ⟨l, hlog, hrun⟩ := call_run (t' := s.tuf) (io' := s.io) he
  have hn : ProperNames io.log := hnames.of_prefix (hlog ▸ List.prefix_append _ _)
  have inv : Inv E D Rc cfg file a t.root.version (⟨t, io⟩ : St W) :=
    ⟨hroots, Nat.le_refl _, fun _ => htop⟩
  obtain ⟨b, hb, hb1, hb2⟩ := exec_remains hRc c he inv hnames
  have hroot' : t'.root = b := by
    obtain ⟨y, z, e1, rfl, e3, e4, _⟩ := construct_disk (n := 0) hR.lossy h0 hb (Nat.zero_le _) hcon
    rcases e3 with ⟨_, h⟩ | ⟨_, h⟩
    · cases h
    · cases h; exact e4
  rw [hroot'] at hsame
  obtain ⟨rfl, hcase⟩ := hb2 hsame
  rcases hcase with hf | ⟨hr, raw2, new, f2, len2, au2, hts2⟩
  · obtain ⟨clk1, raw1, f1, len1, au1, _⟩ := (htop hn).timestamp ts hts
    exact ⟨ts, (restart_reads h0 hb hmax (hf.trans f1) len1 au1
      (((lives_reachable hl).positive hE).timestamp ts hts).1 R hR hroot
      (fun w i => htime w i ts (.inl hts)) hcon).2, Nat.le_refl _⟩
  · have hv := C08_root_version_counts E t (opsOf l)
    obtain ⟨ts2, q1, q2⟩ := C12_timestamp_no_rollback E t (opsOf l)
      (by rw [← hrun, hr] at hv; omega) ts hts
    rw [← hrun, hts2] at q1
    cases q1
    have hpos : 1 ≤ new.version :=
      Nat.le_trans (((lives_reachable hl).positive hE).timestamp ts hts).1 q2
    rw [hr] at au2
    exact ⟨new, (restart_reads h0 hb hmax f2 len2 au2 hpos R hR hroot
      (fun w i => htime w i new (.inr hts2)) hcon).2, q2⟩

/-- What a restart does with the root and the record. -/
theorem restart_root {t t' : Tuf} {io io' : Io W} (hl : Lives E D cfg file raw t io)
    (R : World W) (hR : Faithful R file)
    (hcon : construct E D R cfg (.trustedRoot raw) io = (.ok t', io')) :
    t'.root = t.root ∧ io.log <+: io'.log := by
  obtain ⟨a, h0, hroots, htop⟩ := lives_disk hl
  obtain ⟨y, z, e1, rfl, e3, e4, _, e6, _⟩ :=
    construct_disk (n := 0) hR.lossy h0 hroots (Nat.zero_le _) hcon
  rcases e3 with ⟨_, h⟩ | ⟨_, h⟩
  · cases h
  · cases h; exact ⟨e4, e6⟩

/-- What a call that is stopped and the following restart do with the root and the record. -/
theorem crash_root {t t' : Tuf} {io io' : Io W} (hl : Lives E D cfg file raw t io) (Rc : World W)
    (hRc : Lossy Rc file) {c : Call} {y : Except Err Reply} {s : St W}
    (he : exec E D Rc cfg c ⟨t, io⟩ = (y, s)) (R : World W) (hR : Faithful R file)
    (hcon : construct E D R cfg (.trustedRoot raw) s.io = (.ok t', io')) :
    t.root.version ≤ t'.root.version ∧ io.log <+: s.io.log ∧ s.io.log <+: io'.log := by
  obtain ⟨a, h0, hroots, htop⟩ := lives_disk hl
  have inv : Inv E D Rc cfg file a t.root.version (⟨t, io⟩ : St W) :=
    ⟨hroots, Nat.le_refl _, fun _ => htop⟩
  have := exec_disk hRc c ⟨t, io⟩ inv
  rw [he] at this
  have short : Short E D Rc cfg file a t.root.version s := by
    cases y with
    | ok _ => exact Inv.short this
    | error _ => exact this
  obtain ⟨⟨b, hb, hb1, _⟩, _⟩ := short
  obtain ⟨l, hlog, _⟩ := call_run (t' := s.tuf) (io' := s.io) he
  obtain ⟨x, z, e1, rfl, e3, e4, _, e6, _⟩ :=
    construct_disk (n := 0) hR.lossy h0 hb (Nat.zero_le _) hcon
  rcases e3 with ⟨_, h⟩ | ⟨_, h⟩
  · cases h
  · cases h
    exact ⟨by rw [e4]; exact hb1, by rw [hlog]; exact List.prefix_append _ _, e6⟩

theorem inTime_facts {t t' : Tuf} {io io' : Io W} (hl : Lives E D cfg file raw t io)
    (h : InTime E D cfg file raw t io t' io') :
    Lives E D cfg file raw t' io' ∧ t.root.version ≤ t'.root.version ∧ io.log <+: io'.log := by
  induction h with
  | here => exact ⟨hl, Nat.le_refl _, List.prefix_refl _⟩
  | call R t1 t2 io1 io2 c r _ hR he ih =>
    obtain ⟨i1, i2, i3⟩ := ih
    obtain ⟨l, h1, h2⟩ := call_run he
    refine ⟨.call R t1 t2 io1 io2 c r i1 hR he, Nat.le_trans i2 ?_, i3.trans (h1 ▸ List.prefix_append _ _)⟩
    rw [h2]; exact root_version_mono E t1 _
  | restart R t1 t2 io1 io2 _ hR _ _ hc ih =>
    obtain ⟨i1, i2, i3⟩ := ih
    obtain ⟨h1, h2⟩ := restart_root i1 R hR hc
    exact ⟨.restart R t1 t2 io1 io2 i1 hR hc, by rw [h1]; exact i2, i3.trans h2⟩
  | crash Rc R t1 t2 io1 io2 c r s _ hRc he hR _ _ hc ih =>
    obtain ⟨i1, i2, i3⟩ := ih
    obtain ⟨h1, h2, h3⟩ := crash_root i1 Rc hRc he R hR hc
    exact ⟨.crash Rc R t1 t2 io1 io2 c r s i1 hRc he hR hc, Nat.le_trans i2 h1,
      i3.trans (h2.trans h3)⟩

/-- **C91 (partial).** Whatever calls a client executes against whatever repositories, and however
often it is restarted or stopped in the middle of a call and restarted, as long as its root stays
the same it never trusts an older timestamp than before, and it always trusts one. Missing: it must not be restarted after the root or the timestamp
it trusts has expired (see `C91_expired_timestamp_is_forgotten`); no delegated role may have a
reserved name; and the root's version must not be the largest one. -/
theorem C91_no_rollback_after_restart_partial (hE : Decoders E) {t t' : Tuf} {io io' : Io W}
    (hl : Lives E D cfg file raw t io) (h : InTime E D cfg file raw t io t' io')
    (hsame : t'.root.version = t.root.version) (hmax : t.root.version < 4294967295)
    (hnames : ProperNames io'.log) (ts : TimestampMetadata) (hts : t.timestamp = some ts) :
    ∃ ts', t'.timestamp = some ts' ∧ ts.version ≤ ts'.version := by
  induction h with
  | here => exact ⟨ts, hts, Nat.le_refl _⟩
  | call R t1 t2 io1 io2 c r h hR he ih =>
    obtain ⟨i1, i2, i3⟩ := inTime_facts hl h
    obtain ⟨l, h1, h2⟩ := call_run he
    have hv := C08_root_version_counts E t1 (opsOf l)
    have hm := root_version_mono E t1 (opsOf l)
    rw [h2] at hsame
    obtain ⟨ts1, q1, q2⟩ := ih (by omega) (hnames.of_prefix (h1 ▸ List.prefix_append _ _))
    obtain ⟨ts2, q3, q4⟩ := C12_timestamp_no_rollback E t1 (opsOf l) (by omega) ts1 q1
    exact ⟨ts2, by rw [h2]; exact q3, Nat.le_trans q2 q4⟩
  | restart R t1 t2 io1 io2 h hR hroot htime hc ih =>
    obtain ⟨i1, i2, i3⟩ := inTime_facts hl h
    obtain ⟨h1, h2⟩ := restart_root i1 R hR hc
    rw [h1] at hsame
    have hn := hnames.of_prefix h2
    obtain ⟨ts1, q1, q2⟩ := ih hsame hn
    obtain ⟨_, q3⟩ := restart_keeps hE i1 q1 (by omega) hn R hR hroot (fun w i => htime w i ts1 q1) hc
    exact ⟨ts1, q3, q2⟩
  | crash Rc R t1 t2 io1 io2 c r s h hRc he hR hroot htime hc ih =>
    obtain ⟨i1, i2, i3⟩ := inTime_facts hl h
    obtain ⟨h1, h2, h3⟩ := crash_root i1 Rc hRc he R hR hc
    have hn := hnames.of_prefix h3
    obtain ⟨ts1, q1, q2⟩ := ih (by omega) (hn.of_prefix h2)
    obtain ⟨ts2, q3, q4⟩ := crash_keeps hE i1 q1 (by omega) Rc hRc he hn R hR hroot htime hc (by omega)
    exact ⟨ts2, q3, Nat.le_trans q2 q4⟩

/-! ### What happens after the timestamp has expired -/

/-- Timestamps 2 and 3 expire at 500, timestamp 1 at 700, everything else later. -/
@[reducible] def staleWorld : Toy.World where
  roots := [(1, Toy.root 1 1000)]
  timestamps := [(10, Toy.timestamp 2 500 1), (11, Toy.timestamp 1 700 1), (12, Toy.timestamp 3 500 1)]
  snapshots := [(20, Toy.snapshot 1 900 [("targets", 1)])]
  targets := [(30, Toy.targets 1 900 [("x", 1)] none)]

/-- The remote repository with timestamp document `i`, at a time. -/
def staleRepo (i : UInt8) (now : Time) : World Toy.Disk :=
  Toy.repos (Toy.files [("timestamp", none, i), ("snapshot", none, 20), ("targets", none, 30)]) [] now

/-- A client that has updated itself with timestamp 2. -/
def stale1 : St Toy.Disk :=
  (exec staleWorld.env Toy.digest (staleRepo 10 100) Toy.config .update ⟨Toy.boot,
    (construct staleWorld.env Toy.digest (staleRepo 10 100) Toy.config (.trustedRoot [1])
      ⟨Toy.Disk.empty, []⟩).2⟩).2

theorem stale1_lives : Lives staleWorld.env Toy.digest Toy.config toyFile [1] stale1.tuf stale1.io :=
  .call (staleRepo 10 100) _ _ _ _ .update _
    (.start (staleRepo 10 100) Toy.boot Toy.boot ⟨Toy.Disk.empty, []⟩ _ (toy_faithful _ _ _)
      (by decide +kernel) (fun _ _ => rfl) (Prod.ext (by decide +kernel) rfl))
    (toy_faithful _ _ _) rfl

theorem stale1_tuf : stale1.tuf = ⟨Toy.root 1 1000, some (Toy.snapshot 1 900 [("targets", 1)]),
    some (Toy.targets 1 900 [("x", 1)] none), some (Toy.timestamp 2 500 1), []⟩ := by decide +kernel

/-- It is restarted at some time. -/
def staleStart (now : Time) : Except Err Tuf × Io Toy.Disk :=
  construct staleWorld.env Toy.digest (staleRepo 11 now) Toy.config (.trustedRoot [1]) stale1.io

/-- **C91 does not hold without that.** A client trusts timestamp 2. It is restarted after that
timestamp has expired: it trusts no timestamp now, and the next update accepts timestamp 1, under the
same root. Had it not been restarted, the same update would have kept timestamp 2. -/
theorem C91_expired_timestamp_is_forgotten :
    ∃ (E : Env) (D : Digest) (R : World Toy.Disk) (cfg : Config) (s s' z : St Toy.Disk) (t' : Tuf)
      (io' : Io Toy.Disk),
      Decoders E ∧ Faithful R toyFile ∧ Lives E D cfg toyFile [1] s.tuf s.io ∧
      ProperNames z.io.log ∧ s.tuf.timestamp.map (·.version) = some 2 ∧
      construct E D R cfg (.trustedRoot [1]) s.io = (.ok t', io') ∧ t'.root = s.tuf.root ∧
      update E D R cfg ⟨t', io'⟩ = (.ok true, z) ∧ z.tuf.root = s.tuf.root ∧
      z.tuf.timestamp.map (·.version) = some 1 ∧
      (update E D R cfg s).2 = s' ∧ s'.tuf.timestamp.map (·.version) = some 2 :=
  ⟨staleWorld.env, Toy.digest, staleRepo 11 600, Toy.config, stale1, _,
    (update staleWorld.env Toy.digest (staleRepo 11 600) Toy.config ⟨Toy.boot, (staleStart 600).2⟩).2,
    Toy.boot, (staleStart 600).2,
    staleWorld.decoders (by decide) (by decide) (by decide) (by decide), toy_faithful _ _ _,
    stale1_lives, proper_of_none (by decide +kernel), by decide +kernel,
    Prod.ext (by decide +kernel) rfl, by decide +kernel, Prod.ext (by decide +kernel) rfl,
    by decide +kernel, by decide +kernel, rfl, by decide +kernel⟩

/-- What it trusts after a restart at time 400 and an update with timestamp 1. -/
def stale2 : St Toy.Disk :=
  (exec staleWorld.env Toy.digest (staleRepo 11 400) Toy.config .update
    ⟨stale1.tuf, (staleStart 400).2⟩).2

/-- The hypotheses of `C91_no_rollback_after_restart_partial` are met: if the restart is in time,
timestamp 1 is not accepted. -/
example : ∃ ts', stale2.tuf.timestamp = some ts' ∧ (Toy.timestamp 2 500 1).version ≤ ts'.version := by
  have hin : InTime staleWorld.env Toy.digest Toy.config toyFile [1] stale1.tuf stale1.io
      stale2.tuf stale2.io :=
    .call (staleRepo 11 400) stale1.tuf _ (staleStart 400).2 _ .update _
      (.restart (staleRepo 11 400) stale1.tuf _ stale1.io _ .here (toy_faithful _ _ _)
        (by rw [stale1_tuf]; intro w i; exact (by decide : (400 : Time) < 1000))
        (by rw [stale1_tuf]; rintro w i ts ⟨⟩; exact (by decide : (400 : Time) < 500))
        (Prod.ext (by decide +kernel) rfl))
      (toy_faithful _ _ _) rfl
  exact C91_no_rollback_after_restart_partial
    (staleWorld.decoders (by decide) (by decide) (by decide) (by decide)) stale1_lives hin
    (by decide +kernel) (by rw [stale1_tuf]; decide) (proper_of_none (by decide +kernel)) _
    (by rw [stale1_tuf])

/-- A client with timestamp 2, whose process will be stopped before its next write. -/
def halt1 : St (Toy.Disk × Nat) :=
  (exec staleWorld.env Toy.digest (goOn (staleRepo 10 100)) Toy.config .update ⟨Toy.boot,
    (construct staleWorld.env Toy.digest (goOn (staleRepo 10 100)) Toy.config (.trustedRoot [1])
      ⟨(Toy.Disk.empty, 0), []⟩).2⟩).2

theorem halt1_tuf : halt1.tuf = stale1.tuf := by rw [stale1_tuf]; decide +kernel

/-- It is stopped when it is about to store timestamp 3. -/
def halt2 : St (Toy.Disk × Nat) :=
  (exec staleWorld.env Toy.digest (stopAfter (staleRepo 12 100)) Toy.config .update halt1).2

/-- It is restarted. -/
def halt3 : Except Err Tuf × Io (Toy.Disk × Nat) :=
  construct staleWorld.env Toy.digest (goOn (staleRepo 11 400)) Toy.config (.trustedRoot [1]) halt2.io

/-- It trusted timestamp 3 when it was stopped, and trusts timestamp 2 again after the restart. -/
example : halt2.tuf.timestamp = some (Toy.timestamp 3 500 1) ∧ halt3.1 = .ok stale1.tuf := by
  rw [stale1_tuf]
  exact ⟨by decide +kernel, by decide +kernel⟩

/-- The hypotheses of `C91_no_rollback_after_restart_partial` are met when a process is stopped: no
timestamp before 2 is trusted afterwards. -/
example : ∃ ts', stale1.tuf.timestamp = some ts' ∧ (Toy.timestamp 2 500 1).version ≤ ts'.version := by
  have hl : Lives staleWorld.env Toy.digest Toy.config (fun w : Toy.Disk × Nat => toyFile w.1) [1]
      halt1.tuf halt1.io :=
    .call (goOn (staleRepo 10 100)) _ _ _ _ .update _
      (.start (goOn (staleRepo 10 100)) Toy.boot Toy.boot ⟨(Toy.Disk.empty, 0), []⟩ _
        (goOn_faithful (toy_faithful _ _ _)) (by decide +kernel) (fun _ _ => rfl)
        (Prod.ext (by decide +kernel) rfl))
      (goOn_faithful (toy_faithful _ _ _)) rfl
  have hin : InTime staleWorld.env Toy.digest Toy.config (fun w : Toy.Disk × Nat => toyFile w.1) [1]
      halt1.tuf halt1.io stale1.tuf halt3.2 := by
    refine .crash (stopAfter (staleRepo 12 100)) (goOn (staleRepo 11 400)) halt1.tuf _ halt1.io _
      .update _ halt2 .here (stopAfter_lossy (toy_faithful _ _ _)) rfl (goOn_faithful (toy_faithful _ _ _))
      ?_ ?_ (Prod.ext (by rw [stale1_tuf]; decide +kernel) rfl)
    · rw [halt1_tuf, stale1_tuf]; intro w i; exact (by decide : (400 : Time) < 1000)
    · rw [halt1_tuf, stale1_tuf]
      have h2 : halt2.tuf.timestamp = some (Toy.timestamp 3 500 1) := by decide +kernel
      rw [h2]
      rintro w i ts (h | h) <;> cases h <;> exact (by decide : (400 : Time) < 500)
  exact C91_no_rollback_after_restart_partial
    (staleWorld.decoders (by decide) (by decide) (by decide) (by decide)) hl hin
    (by rw [halt1_tuf]) (by rw [halt1_tuf, stale1_tuf]; decide) (proper_of_none (by decide +kernel)) _
    (by rw [halt1_tuf, stale1_tuf])

end RustTuf.Props
