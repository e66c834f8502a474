import Verif.Lemmas.Disk

/-!
# C31, C32: restarts and crashes
-/

namespace RustTuf.Props
open Client Spec Tuf

variable {W : Type} {E : Env} {D : Digest} {cfg : Config} {file : W → Files} {raw : Bytes}

theorem fromTrustedRoot_ofRoot {t : Tuf} (h : fromTrustedRoot E raw = .ok t) : ∃ r, t = ofRoot r := by
  unfold fromTrustedRoot at h
  repeat' split at h
  all_goals cases h
  exact ⟨_, rfl⟩

/-- What holds throughout the lives of a client. -/
theorem lives_disk {t : Tuf} {io : Io W} (h : Lives E D cfg file raw t io) :
    ∃ a, fromTrustedRoot E raw = .ok (ofRoot a) ∧ RootsOn E cfg (file io.w) a t.root ∧
      (ProperNames io.log → Top E D cfg (file io.w) io.log t) := by
  have cons : ∀ (R : World W) (a b : RootMetadata) (io io' : Io W) (t : Tuf), Faithful R file →
      fromTrustedRoot E raw = .ok (ofRoot a) → RootsOn E cfg (file io.w) a b →
      construct E D R cfg (.trustedRoot raw) io = (.ok t, io') →
      ∃ a, fromTrustedRoot E raw = .ok (ofRoot a) ∧ RootsOn E cfg (file io'.w) a t.root ∧
      (ProperNames io'.log → Top E D cfg (file io'.w) io'.log t) := by
    intro R a b io io' t hR h0 hb hc
    obtain ⟨r', s, _, rfl, h2, _, _, _, h6⟩ := construct_disk (n := 0) hR.lossy h0 hb (Nat.zero_le _) hc
    rcases h2 with ⟨_, h⟩ | ⟨_, h⟩
    · cases h
    · cases h
      exact ⟨a, h0, h6.roots, h6.top hR⟩
  induction h with
  | start R t0 t io io' hR h0 hno hc =>
    obtain ⟨a, rfl⟩ := fromTrustedRoot_ofRoot h0
    exact cons R a a io io' t hR h0 ⟨.refl, hno⟩ hc
  | call R t t' io io' c r _ hR he ih =>
    obtain ⟨a, h0, h1, h2⟩ := ih
    have inv : Inv E D R cfg file a 0 (⟨t, io⟩ : St W) := ⟨h1, Nat.zero_le _, fun _ => h2⟩
    have := exec_disk hR.lossy c ⟨t, io⟩ inv
    rw [he] at this
    have inv' : Inv E D R cfg file a 0 (⟨t', io'⟩ : St W) := by
      cases r with
      | ok _ => exact this
      | error _ => exact this.2 hR
    exact ⟨a, h0, inv'.roots, inv'.top hR⟩
  | restart R t t' io io' _ hR hc ih =>
    obtain ⟨a, h0, h1, _⟩ := ih
    exact cons R a _ io io' t' hR h0 h1 hc
  | crash Rc R t t' io io' c r s _ hRc he hR hc ih =>
    obtain ⟨a, h0, h1, h2⟩ := ih
    have inv : Inv E D Rc cfg file a 0 (⟨t, io⟩ : St W) := ⟨h1, Nat.zero_le _, fun _ => h2⟩
    have := exec_disk hRc c ⟨t, io⟩ inv
    rw [he] at this
    have short : Short E D Rc cfg file a 0 s := by
      cases r with
      | ok _ => exact Inv.short this
      | error _ => exact this
    obtain ⟨⟨b, hb, _⟩, _⟩ := short
    exact cons R a b s.io io' t' hR h0 hb hc

/-- Trusted metadata is what verification accepted since the last start. -/
theorem lives_run {t : Tuf} {io : Io W} (h : Lives E D cfg file raw t io) :
    ∃ t0 ops, fromTrustedRoot E raw = .ok t0 ∧ t = run E t0 ops := by
  have cons : ∀ (R : World W) (io io' : Io W) (t : Tuf),
      construct E D R cfg (.trustedRoot raw) io = (.ok t, io') →
      ∃ t0 ops, fromTrustedRoot E raw = .ok t0 ∧ t = run E t0 ops := by
    intro R io io' t hc
    obtain ⟨t0, L, h0, l, _, _, h⟩ := construct_good E D R cfg _ io io' t hc
    exact ⟨t0, opsOf l, h0, h⟩
  induction h with
  | start R t0 t io io' hR h0 hno hc => exact cons R io io' t hc
  | restart R t t' io io' _ hR hc ih => exact cons R io io' t' hc
  | crash Rc R t t' io io' c r s _ hRc he hR hc ih => exact cons R s.io io' t' hc
  | call R t t' io io' c r _ hR he ih =>
    obtain ⟨t0, ops, h0, rfl⟩ := ih
    obtain ⟨l, _, _, h⟩ := execAll_tr (E := E) (D := D) (cfg := cfg) (R := R) [c]
      (⟨run E t0 ops, io⟩ : St W)
      (show Tr E D cfg (run E t0 ops) io.log _ from ⟨[], by simp, Good.nil, rfl⟩)
    simp only [execAll, List.foldl, he] at h
    exact ⟨t0, ops ++ opsOf l, h0, by rw [h, after, run_append]⟩

theorem lives_reachable {t : Tuf} {io : Io W} (h : Lives E D cfg file raw t io) : Reachable E t := by
  obtain ⟨t0, ops, h0, rfl⟩ := lives_run h
  exact ⟨t0, ops, .inr ⟨raw, h0⟩, rfl⟩

/-! ### C32 -/

/-- **C32.** If a client is stopped during any call, after any number of its writes, then a new client
can be constructed from the local repository. Its root is at least as new as the one that was trusted
before the call, and everything it trusts was verified starting from the initial root. -/
theorem C32_crash_safe {t : Tuf} {io : Io W} (hl : Lives E D cfg file raw t io) (Rc : World W)
    (hc : Lossy Rc file) (c : Call) (r : Except Err Reply) (s : St W)
    (h : exec E D Rc cfg c ⟨t, io⟩ = (r, s)) (hmax : s.tuf.root.version < 4294967295)
    (R : World W) (hR : Faithful R file) (q : Quiet E R cfg) :
    ∃ t' io', construct E D R cfg (.trustedRoot raw) s.io = (.ok t', io') ∧
      t.root.version ≤ t'.root.version ∧ t'.root.version ≤ s.tuf.root.version ∧
      ∃ t0 ops, fromTrustedRoot E raw = .ok t0 ∧ t' = run E t0 ops := by
  obtain ⟨a, h0, h1, h2⟩ := lives_disk hl
  have inv : Inv E D Rc cfg file a t.root.version (⟨t, io⟩ : St W) :=
    ⟨h1, Nat.le_refl _, fun _ => h2⟩
  have := exec_disk hc c ⟨t, io⟩ inv
  rw [h] at this
  have short : Short E D Rc cfg file a t.root.version s := by
    cases r with
    | ok _ => exact Inv.short this
    | error _ => exact this
  obtain ⟨⟨b, hb, hb1, hb2⟩, _⟩ := short
  cases hcon : construct E D R cfg (.trustedRoot raw) s.io with
  | mk r' io' =>
    obtain ⟨x, s', e1, rfl, e3, e4, _, _, _⟩ := construct_disk hR.lossy h0 hb hb1 hcon
    rcases e3 with ⟨rfl, _⟩ | ⟨_, rfl⟩
    · exfalso
      have hq := loadLocal_quiet (D := D) q ⟨ofRoot a, s.io⟩ ⟨ofRoot a, [], .inr ⟨raw, h0⟩, rfl⟩
      rw [e1] at hq
      have := (hq.1.2 rfl).2
      rw [e4] at this
      omega
    · refine ⟨s'.tuf, s'.io, rfl, by rw [e4]; exact hb1, by rw [e4]; exact hb2, ?_⟩
      obtain ⟨t0, L, h3, l, _, _, h4⟩ := construct_good E D R cfg _ s.io s'.io s'.tuf hcon
      exact ⟨t0, opsOf l, h3, h4⟩

/-! ### C31 -/

section replay
variable {R : World W}

theorem present_st (hR : Reads R file) {role : Role} {p : MetadataPath} {v : MetadataVersion}
    {m : Option Nat} {h : HashData} {doc : Bytes} {t : Tuf} {F : Files} {L : List LogEntry}
    (hc : checkRole role p = .ok ()) (hf : F p v = some doc) (hu : Usable h)
    (hr : Readable D m h doc) :
    Tri (fun s : St W => s.tuf = t ∧ file s.io.w = F ∧ L <+: s.io.log)
      (lift (fetchMetadata D R .cache role p v m h))
      (fun x s => x = doc ∧ s.tuf = t ∧ file s.io.w = F ∧ L <+: s.io.log) (fun _ _ => False) := by
  rintro ⟨t', io⟩ ⟨e1, e2, e3⟩
  obtain ⟨io', q1, q2, q3⟩ := cacheFetch_present (D := D) (m := m) (h := h) hR (role := role) (p := p)
    (v := v) (io := io) (raw := doc) hc (by rw [show file io.w = F from e2]; exact hf) hu hr
  simp only [lift, q1]
  exact ⟨trivial, e1, q2.trans e2, by rw [q3]; exact e3.trans (List.prefix_append _ _)⟩

theorem usable_of {hs : Map HashAlg HashValue} {al : HashAlg} {v : HashValue}
    (h : hashPreference hs = .ok (al, v)) : Usable (some (al, v)) := by
  rintro _ _ ⟨rfl, rfl⟩
  rcases (preferred_of h).2 with h | ⟨h, _⟩
  · exact .inl h
  · exact .inr h

/-- A document that is accepted when it is loaded. -/
theorem accept_st (hR : Reads R file) {t t' : Tuf} {F : Files} {L : List LogEntry} {o : Clock → Op}
    {role : Role} {p : MetadataPath} {doc : Bytes}
    (hst : ∀ w, Tuf.step E t (o (R.clock w).1) = (.changed, t')) :
    Tri (fun s : St W => s.tuf = t ∧ file s.io.w = F ∧ L <+: s.io.log)
      (do
        let clk ← getClock R
        match ← updateTuf E (o clk) with
        | .changed =>
          M.when false (lift (storeMetadata R role p .none doc))
          return true
        | _ => return false)
      (fun _ s => s.tuf = t' ∧ file s.io.w = F ∧ L <+: s.io.log) (fun _ _ => False) := by
  refine Tri.bind (Q := fun c (s : St W) => (∃ w, c = (R.clock w).1) ∧ s.tuf = t ∧ file s.io.w = F ∧
    L <+: s.io.log) (Tri.getClock fun s hs => ⟨⟨s.io.w, rfl⟩, hs.1, (hR.clock _).trans hs.2.1, hs.2.2⟩)
    fun clk => Tri.assume ?_
  rintro ⟨w, rfl⟩
  refine Tri.bind (Q := fun x (s : St W) => x = .changed ∧ s.tuf = t' ∧ file s.io.w = F ∧
    L <+: s.io.log) (Tri.updateTuf ?_) fun x => Tri.assume ?_
  · rintro s o' t1 ⟨e1, e2, e3⟩ hs
    rw [e1, hst w] at hs
    cases hs
    exact ⟨rfl, rfl, e2, e3.trans (List.prefix_append _ _)⟩
  · rintro rfl
    exact Tri.bind (Q := fun _ (s : St W) => s.tuf = t' ∧ file s.io.w = F ∧ L <+: s.io.log)
      (Tri.when (by simp) fun _ _ h => h) fun _ => Tri.ret fun _ h => h

end replay

/-- Loading the local repository asks the local repository only. -/
theorem loadLocal_cacheOnly (E : Env) (D : Digest) (R : World W) (cfg : Config) (L : List LogEntry) :
    Keeps (fun s : St W => Grown (fun e => ∀ src p v m h, e = .fetch src p v m h → src = .cache)
      L s.io.log) (loadLocal E D R cfg) := by
  have prims : Prims E D R (fun s : St W => Grown (fun e => ∀ src p v m h, e = .fetch src p v m h →
      src = .cache) L s.io.log) (· = .cache) False TopOp := by
    refine ⟨?_, False.elim, ?_, ?_⟩
    · rintro src rfl role p v mx h
      exact lift_keeps (fetchMetadata_grown D R .cache role p v mx h _
        (by rintro _ _ _ _ _ ⟨⟩; rfl) (by intro _ _ _ _ _ _ _ h; cases h) L)
    · exact Tri.getClock fun s hs => hs
    · intro o _
      refine Tri.updateTuf ?_
      intro s o' t' hs _
      have key := hs.snoc (e := .op o o') (by intro _ _ _ _ _ h; cases h)
      cases o' <;> exact key
  exact prims.loadLocal rfl

/-- **C31 (partial).** After a successful update, a client constructed from the same initial root and
the local repository trusts the same root, timestamp, snapshot and targets metadata, without asking
the remote repository. Missing: this needs that accepted documents never described the same version
of the snapshot or of the targets metadata in two ways, that no delegated role has a reserved name,
and that the root's version is not the largest one; see the theorems below for what happens
otherwise. -/
theorem C31_restart_partial (hE : Decoders E) {t : Tuf} {io : Io W}
    (hl : Lives E D cfg file raw t io) (R : World W) (hR : Faithful R file) (x : Bool) (s : St W)
    (h : update E D R cfg ⟨t, io⟩ = (.ok x, s)) (hmax : s.tuf.root.version < 4294967295)
    (hsteady : Steady E s.io.log) (hnames : ProperNames s.io.log)
    (R' : World W) (hR' : Faithful R' file) (hcur : ∀ w, Current s.tuf (R'.clock w).1) :
    ∃ t' io' l, construct E D R' cfg (.trustedRoot raw) s.io = (.ok t', io') ∧
      t'.root = s.tuf.root ∧ t'.timestamp = s.tuf.timestamp ∧ t'.snapshot = s.tuf.snapshot ∧
      t'.targets = s.tuf.targets ∧ io'.log = s.io.log ++ l ∧
      ∀ src p v m hash, LogEntry.fetch src p v m hash ∈ l → src = .cache := by
  have he : exec E D R cfg .update ⟨t, io⟩ = (.ok (.updated x), s) := by
    show M.bind _ _ _ = _
    unfold M.bind; rw [h]; rfl
  have hl' : Lives E D cfg file raw s.tuf s.io := .call R t s.tuf io s.io .update _ hl hR he
  obtain ⟨a, h0, hroots, htop⟩ := lives_disk hl'
  have htop := htop hnames
  have hreach := lives_reachable hl'
  have hpos := hreach.positive hE
  obtain ⟨⟨⟨ts, sn, hts, hsn, hsv⟩, ⟨sn', m, ta, hsn', hm, hta, htv⟩⟩, _⟩ :=
    C29_update_complete E hE D R cfg ⟨t, io⟩ s x (lives_reachable hl) h
  rw [hsn] at hsn'; cases hsn'
  obtain ⟨clk1, raw1, f1, len1, au1, op1⟩ := htop.timestamp ts hts
  obtain ⟨clk2, raw2, d2, al2, v2, f2, au2, an2, dv2, hp2, rd2, op2⟩ := htop.snapshot sn hsn
  obtain ⟨raw3, d3, al3, v3, f3, au3, li3, dv3, hp3, rd3⟩ := htop.targets ta hta
  have e2 : d2 = ts.snapshot := hsteady.snapshot _ _ an2 ⟨clk1, raw1, ts, op1, au1.decodes, rfl⟩
    (by omega)
  subst e2
  have e3 : d3 = m := hsteady.targets _ _ li3 ⟨clk2, raw2, sn, op2, au2.decodes, hm⟩ (by omega)
  subst e3
  -- the states on the way
  let u0 := Tuf.ofRoot s.tuf.root
  let u1 : Tuf := { u0 with timestamp := some ts }
  let u2 : Tuf := { u1 with snapshot := some sn }
  let u3 : Tuf := { u2 with targets := some ta }
  have st1 : ∀ w, Tuf.step E u0 (.timestamp (R'.clock w).1 raw1) = (.changed, u1) := by
    intro w
    have : updateTimestamp E (R'.clock w).1 u0 raw1 = (.ok (some ts), u1) := by
      refine (updateTimestamp_some_iff ..).2 ⟨⟨au1, ?_, (hcur w).timestamp _ ts hts⟩, ?_⟩
      · exact (hpos.timestamp ts hts).1
      · simp [u1, u0, Tuf.ofRoot]
    simp only [Tuf.step, this]
  have st2 : ∀ w, Tuf.step E u1 (.snapshot (R'.clock w).1 raw2) = (.changed, u2) := by
    intro w
    obtain ⟨t', ht'⟩ := updateSnapshot_true_of_rule E (R'.clock w).1 u1 raw2 sn
      ⟨(hcur w).root _, ⟨ts, rfl, (hcur w).timestamp _ ts hts, (hpos.timestamp ts hts).2, hsv⟩, au2⟩
    obtain ⟨new, hrule, hpost⟩ := updateSnapshot_true E _ _ _ _ ht'
    have hnew : new = sn := hrule.signed.unique au2
    subst hnew
    have : t' = u2 := by
      obtain ⟨p1, p2, p3, p4, p5, p6⟩ := hpost
      have ht : t'.targets = none := by
        by_cases hk : verOf (·.version) u1.targets = listed new targetsName
        · rw [p4 hk]; rfl
        · exact p5 hk
      have hd : t'.delegations = [] := by
        cases hq : t'.delegations with
        | nil => rfl
        | cons y ys =>
          obtain ⟨k, v⟩ := y
          have := (p6 k v).1 (by rw [hq]; simp [Map.get?])
          exact absurd this.1 (by simp [u1, u0, Tuf.ofRoot, Map.get?])
      cases t'
      simp only at p1 p2 p3 ht hd
      subst p1 p2 p3 ht hd
      rfl
    rw [this] at ht'
    simp only [Tuf.step, ht']
  have st3 : ∀ w, Tuf.step E u2 (.targets (R'.clock w).1 raw3) = (.changed, u3) := by
    intro w
    have : updateTargets E (R'.clock w).1 u2 raw3 = (.ok true, u3) := by
      refine (updateTargets_true_iff ..).2 ⟨ta, ⟨(hcur w).root _, ⟨sn, d3, rfl,
        (hcur w).snapshot _ sn hsn, hm, ?_, htv⟩, au3, (hcur w).targets _ ta hta⟩, rfl⟩
      have := hpos.targets ta hta
      show 0 < d3.version
      omega
    simp only [Tuf.step, this]
  have run : Tri (fun z : St W => z.tuf = ofRoot a ∧ file z.io.w = file s.io.w ∧ s.io.log <+: z.io.log)
      (loadLocal E D R' cfg) (fun _ z => z.tuf = u3 ∧ file z.io.w = file s.io.w ∧
        s.io.log <+: z.io.log) (fun _ _ => False) := by
    have hfuel : s.tuf.root.version - a.version < rootFuel := by
      simp only [rootFuel, u32Max]; omega
    unfold Client.loadLocal
    refine Tri.bind (Q := fun _ (z : St W) => z.tuf = u0 ∧ file z.io.w = file s.io.w ∧
      s.io.log <+: z.io.log) ?_ fun _ => ?_
    · unfold updateRootWithRepos
      refine Tri.bind ((rootLoop_replay hR'.toReads (file s.io.w) s.io.log rootFuel false a s.tuf.root
        hroots hfuel).conseq (fun _ h => h) (fun _ _ h => h) (fun _ _ h => by omega)) fun _ => ?_
      refine Tri.bind (Q := fun c (z : St W) => (∃ w, c = (R'.clock w).1) ∧ z.tuf = u0 ∧
        file z.io.w = file s.io.w ∧ s.io.log <+: z.io.log)
        (Tri.getClock fun z hz => ⟨⟨z.io.w, rfl⟩, hz.1, (hR'.clock _).trans hz.2.1, hz.2.2⟩)
        fun clk => Tri.assume ?_
      rintro ⟨w, rfl⟩
      refine Tri.bind (Q := fun t' (z : St W) => t' = u0 ∧ z.tuf = u0 ∧ file z.io.w = file s.io.w ∧
        s.io.log <+: z.io.log) (fun (z : St W) hz => ⟨hz.1, hz⟩) fun t' => Tri.assume ?_
      rintro rfl
      refine Tri.ite (fun hx => ?_) (fun _ => Tri.ret fun _ h => h)
      have := (hcur w).root .root
      exact absurd hx (by show ¬ s.tuf.root.expires ≤ _; omega)
    refine Tri.bind (Q := fun _ (z : St W) => z.tuf = u1 ∧ file z.io.w = file s.io.w ∧
      s.io.log <+: z.io.log) ?_ fun _ => ?_
    · unfold updateTimestampWithRepos
      refine Tri.bind (present_st hR'.toReads (doc := raw1) (by decide) f1 (by intro _ _ h; cases h)
        ⟨len1, by intro _ _ h; cases h⟩) fun z => Tri.assume ?_
      rintro rfl
      exact accept_st hR'.toReads (o := fun c => .timestamp c z) st1
    refine Tri.bind (Q := fun _ (z : St W) => z.tuf = u2 ∧ file z.io.w = file s.io.w ∧
      s.io.log <+: z.io.log) ?_ fun _ => ?_
    · unfold updateSnapshotWithRepos
      refine Tri.bind (Q := fun t' (z : St W) => t' = u1 ∧ z.tuf = u1 ∧ file z.io.w = file s.io.w ∧
        s.io.log <+: z.io.log) (fun (z : St W) hz => ⟨hz.1, hz⟩) fun t' => Tri.assume ?_
      rintro rfl
      show Tri _ (if ts.snapshot.version ≤ 0 then _ else _) _ _
      have := (hpos.timestamp ts hts).2
      rw [if_neg (by omega), hp2]
      refine Tri.bind (Q := fun z (z' : St W) => z = (al2, v2) ∧ z'.tuf = u1 ∧
        file z'.io.w = file s.io.w ∧ s.io.log <+: z'.io.log) (fun (z : St W) hz => ⟨rfl, hz⟩)
        fun z => Tri.assume ?_
      rintro rfl
      refine Tri.bind (present_st hR'.toReads (doc := raw2) (by decide) f2 (usable_of hp2) rd2)
        fun z => Tri.assume ?_
      rintro rfl
      exact accept_st hR'.toReads (o := fun c => .snapshot c z) st2
    refine Tri.bind (Q := fun _ (z : St W) => z.tuf = u3 ∧ file z.io.w = file s.io.w ∧
      s.io.log <+: z.io.log) ?_ fun _ => Tri.ret fun _ h => h
    · unfold updateTargetsWithRepos
      refine Tri.bind (Q := fun t' (z : St W) => t' = u2 ∧ z.tuf = u2 ∧ file z.io.w = file s.io.w ∧
        s.io.log <+: z.io.log) (fun (z : St W) hz => ⟨hz.1, hz⟩) fun t' => Tri.assume ?_
      rintro rfl
      have hm' : sn.metas.get? (MetadataPath.fromRole .targets) = some d3 := hm
      simp only [u2, hm']
      have hv : ¬ d3.version ≤ Tuf.targetsVersion { u1 with snapshot := some sn } := by
        have := hpos.targets ta hta
        show ¬ d3.version ≤ 0
        omega
      rw [if_neg hv, hp3]
      refine Tri.bind (Q := fun z (z' : St W) => z = (al3, v3) ∧ z'.tuf = u2 ∧
        file z'.io.w = file s.io.w ∧ s.io.log <+: z'.io.log) (fun (z : St W) hz => ⟨rfl, hz⟩)
        fun z => Tri.assume ?_
      rintro rfl
      refine Tri.bind (present_st hR'.toReads (doc := raw3) (by decide) f3 (usable_of hp3) rd3)
        fun z => Tri.assume ?_
      rintro rfl
      exact accept_st hR'.toReads (o := fun c => .targets c z) st3
  cases hcon : construct E D R' cfg (.trustedRoot raw) s.io with
  | mk r' io' =>
    obtain ⟨y, z, e1, rfl, e3, _⟩ := construct_disk (n := 0) hR'.lossy h0 hroots (Nat.zero_le _) hcon
    have hrun := run ⟨ofRoot a, s.io⟩ ⟨rfl, rfl, List.prefix_refl _⟩
    have hcache := (loadLocal_cacheOnly E D R' cfg s.io.log).run (s := ⟨ofRoot a, s.io⟩)
      (Grown.refl _ _)
    rw [e1] at hrun hcache
    cases y with
    | error e => exact hrun.elim
    | ok u =>
      rcases e3 with ⟨h, _⟩ | ⟨_, rfl⟩
      · cases h
      · obtain ⟨l, hl1, hl2⟩ := hcache
        refine ⟨z.tuf, z.io, l, rfl, ?_⟩
        rw [hrun.1]
        exact ⟨rfl, hts.symm, hsn.symm, hta.symm, hl1, fun src p v m hash hm => hl2 _ hm _ _ _ _ _ rfl⟩

/-! ### Concrete repositories -/

/-- The files of the example repositories. -/
def toyFile (w : Toy.Disk) : Files := fun p v => w.metas.get? (p, v)

theorem toy_delivered (b : Bytes) : delivered (Toy.stream b) = (b, .eof) := by
  unfold Toy.stream
  split
  · subst_vars; rfl
  · simp [delivered, *]

theorem toy_faithful (files targets now) : Faithful (Toy.repos files targets now) toyFile where
  present := by
    intro p v m h w b hb
    refine ⟨Toy.stream b, ?_, toy_delivered b⟩
    have hb : w.metas.get? (p, v) = some b := hb
    simp only [Toy.repos, hb]
  absent := by
    intro p v m h w hb
    have hb : w.metas.get? (p, v) = none := hb
    simp only [Toy.repos, hb]
  cacheFetch _ _ _ _ _ := rfl
  remoteFetch _ _ _ _ _ := rfl
  targetFetch _ _ _ := rfl
  targetStore evs p w := by
    simp only [Toy.repos]
    split <;> rfl
  write _ _ := rfl
  flush _ := rfl
  clock _ := rfl
  store p v raw w := by
    refine ⟨rfl, ?_⟩
    funext p' v'
    simp only [toyFile, Toy.repos, Files.put, Map.get?_insert, Prod.mk.injEq]

/-- The world of a process that is stopped after some writes meets the assumption of C32. -/
theorem stopAfter_lossy {R : World W} (h : Faithful R file) :
    Lossy (stopAfter R) (fun w => file w.1) where
  present p v m hash w b hb := h.present p v m hash w.1 b hb
  absent p v m hash w hb := h.absent p v m hash w.1 hb
  cacheFetch p v m hash w := h.cacheFetch p v m hash w.1
  remoteFetch p v m hash w := h.remoteFetch p v m hash w.1
  targetFetch p d w := h.targetFetch p d w.1
  targetStore evs p w := h.targetStore evs p w.1
  write b w := h.write b w.1
  flush w := h.flush w.1
  clock w := h.clock w.1
  store p v raw w := by
    obtain ⟨w, k⟩ := w
    cases k with
    | zero => exact .inr ⟨⟨_, rfl⟩, rfl⟩
    | succ k => exact .inl (h.store p v raw w)

theorem goOn_faithful {R : World W} (h : Faithful R file) :
    Faithful (goOn R) (fun w => file w.1) where
  present p v m hash w b hb := h.present p v m hash w.1 b hb
  absent p v m hash w hb := h.absent p v m hash w.1 hb
  cacheFetch p v m hash w := h.cacheFetch p v m hash w.1
  remoteFetch p v m hash w := h.remoteFetch p v m hash w.1
  targetFetch p d w := h.targetFetch p d w.1
  targetStore evs p w := h.targetStore evs p w.1
  write b w := h.write b w.1
  flush w := h.flush w.1
  clock w := h.clock w.1
  store p v raw w := h.store p v raw w.1

/-- Accepted timestamps, snapshots and delegations in a record. -/
def isTs : LogEntry → Bool
  | .op (.timestamp _ _) .changed => true
  | _ => false
def isSn : LogEntry → Bool
  | .op (.snapshot _ _) .changed => true
  | _ => false
def isDel : LogEntry → Bool
  | .op (.delegation _ _ _ _) _ => true
  | _ => false

theorem mem_unique {α : Type} {f : α → Bool} {l : List α} (h : (l.filter f).length ≤ 1) {x y : α}
    (hx : x ∈ l) (hy : y ∈ l) (fx : f x = true) (fy : f y = true) : x = y := by
  have hx' : x ∈ l.filter f := List.mem_filter.2 ⟨hx, fx⟩
  have hy' : y ∈ l.filter f := List.mem_filter.2 ⟨hy, fy⟩
  match hl : l.filter f with
  | [] => rw [hl] at hx'; cases hx'
  | [z] =>
    rw [hl] at hx' hy'
    rw [List.mem_singleton.1 hx', List.mem_singleton.1 hy']
  | _ :: _ :: _ => rw [hl] at h; simp at h

theorem _root_.RustTuf.Spec.Decodes.unique {M : Type} {dec : Bytes → Except Err M} {doc : Bytes} {m m' : M}
    (h : Decodes E dec doc m) (h' : Decodes E dec doc m') : m = m' := by
  obtain ⟨_, _, _, a1, a2, a3⟩ := h
  obtain ⟨_, _, _, b1, b2, b3⟩ := h'
  rw [a1] at b1; cases b1
  rw [a2] at b2; cases b2
  rw [a3] at b3; cases b3; rfl

theorem steady_of_single {log : List LogEntry} (h1 : (log.filter isTs).length ≤ 1)
    (h2 : (log.filter isSn).length ≤ 1) : Steady E log where
  snapshot := by
    rintro d d' ⟨clk, x, ts, m1, m2, rfl⟩ ⟨clk', x', ts', m1', m2', rfl⟩ _
    cases mem_unique h1 m1 m1' rfl rfl
    rw [m2.unique m2']
  targets := by
    rintro d d' ⟨clk, x, sn, m1, m2, m3⟩ ⟨clk', x', sn', m1', m2', m3'⟩ _
    cases mem_unique h2 m1 m1' rfl rfl
    rw [m2.unique m2', m3'] at m3
    cases m3; rfl

theorem proper_of_none {log : List LogEntry} (h : log.any isDel = false) : ProperNames log := by
  intro clk parent role x out hm
  have : log.any isDel = true := List.any_eq_true.2 ⟨_, hm, rfl⟩
  rw [h] at this; cases this

/-- A client constructed from root 1 with an empty local repository. -/
theorem toy_start : Lives Toy.env Toy.digest Toy.config toyFile [1] Toy.boot
    (construct Toy.env Toy.digest Toy.remoteRepo Toy.config (.trustedRoot [1]) ⟨Toy.Disk.empty, []⟩).2 :=
  .start Toy.remoteRepo Toy.boot Toy.boot ⟨Toy.Disk.empty, []⟩ _ (toy_faithful _ _ _)
    (by decide +kernel) (fun _ _ => rfl) (Prod.ext (by decide +kernel) rfl)

/-- It updates itself, to root 2 and the rest. -/
def toyUpdated : St Toy.Disk :=
  (update Toy.env Toy.digest Toy.remoteRepo Toy.config ⟨Toy.boot,
    (construct Toy.env Toy.digest Toy.remoteRepo Toy.config (.trustedRoot [1])
      ⟨Toy.Disk.empty, []⟩).2⟩).2

theorem toyUpdated_tuf : toyUpdated.tuf = ⟨Toy.root 2 1000,
    some (Toy.snapshot 1 500 [("targets", 1), ("a", 1), ("b", 1)]), some Toy.topTargets,
    some (Toy.timestamp 1 500 1), []⟩ := by decide +kernel

/-- The hypotheses of `C31_restart_partial` are met, and a client without any remote repository gets
everything back. -/
example : ∃ t' io' l, construct Toy.env Toy.digest (Toy.repos [] [] 100) Toy.config (.trustedRoot [1])
      toyUpdated.io = (.ok t', io') ∧
      t'.root = toyUpdated.tuf.root ∧ t'.timestamp = toyUpdated.tuf.timestamp ∧
      t'.snapshot = toyUpdated.tuf.snapshot ∧
      t'.targets = toyUpdated.tuf.targets ∧ io'.log = toyUpdated.io.log ++ l ∧
      ∀ src p v m hash, LogEntry.fetch src p v m hash ∈ l → src = .cache := by
  refine C31_restart_partial Toy.env_decoders toy_start Toy.remoteRepo (toy_faithful _ _ _) true
    toyUpdated (Prod.ext (by decide +kernel) rfl) (by rw [toyUpdated_tuf]; decide)
    (steady_of_single (by decide +kernel) (by decide +kernel)) (proper_of_none (by decide +kernel))
    _ (toy_faithful _ _ _) ?_
  intro w
  rw [toyUpdated_tuf]
  constructor
  · intro i; exact (by decide : (100 : Time) < 1000)
  · rintro i ts ⟨⟩; exact (by decide : (100 : Time) < 500)
  · rintro i ts ⟨⟩; exact (by decide : (100 : Time) < 500)
  · rintro i ts ⟨⟩; exact (by decide : (100 : Time) < 500)

/-- A client whose first update is stopped after one write (of the unversioned root file). -/
def toyStopped : St (Toy.Disk × Nat) :=
  (exec Toy.env Toy.digest (stopAfter Toy.remoteRepo) Toy.config .update ⟨Toy.boot,
    (construct Toy.env Toy.digest (goOn Toy.remoteRepo) Toy.config (.trustedRoot [1])
      ⟨(Toy.Disk.empty, 1), []⟩).2⟩).2

theorem goOn_quiet (w : Toy.World) (files targets now) :
    Quiet w.env (goOn (Toy.repos files targets now)) Toy.config := by
  have q := toy_quiet w files targets now
  exact { parse := q.parse, canonicalize := q.canonicalize, root := q.root, timestamp := q.timestamp,
          snapshot := q.snapshot, targets := q.targets, rootOfRaw := q.rootOfRaw,
          fetch := fun src p v m h w' e he => q.fetch src p v m h w'.1 e (by cases src <;> exact he),
          store := fun p v b w' e he => q.store p v b w'.1 e he,
          fetchTarget := fun p d w' e he => q.fetchTarget p d w'.1 e he,
          storeTarget := fun evs p w' e he => q.storeTarget evs p w'.1 e he,
          translate := q.translate }

/-- The hypotheses of `C32_crash_safe` are met. -/
example : toyStopped.io.w.1.metas = [(("root".toList, .none), [2])] ∧
    ∃ t' io', construct Toy.env Toy.digest (goOn Toy.remoteRepo) Toy.config (.trustedRoot [1])
      toyStopped.io = (.ok t', io') ∧ Toy.boot.root.version ≤ t'.root.version ∧
      t'.root.version ≤ toyStopped.tuf.root.version ∧
      ∃ t0 ops, fromTrustedRoot Toy.env [1] = .ok t0 ∧ t' = run Toy.env t0 ops :=
  ⟨by decide +kernel, C32_crash_safe
    (.start (goOn Toy.remoteRepo) Toy.boot Toy.boot ⟨(Toy.Disk.empty, 1), []⟩ _
      (goOn_faithful (toy_faithful _ _ _)) (by decide +kernel) (fun _ _ => rfl)
      (Prod.ext (by decide +kernel) rfl))
    (stopAfter Toy.remoteRepo) (stopAfter_lossy (toy_faithful _ _ _)) .update _ toyStopped rfl
    (by decide +kernel) _ (goOn_faithful (toy_faithful _ _ _)) (goOn_quiet _ _ _ _)⟩

/-! ### What the hypotheses exclude -/

/-- Timestamps 1 and 2 announce the same snapshot version with different hashes. -/
@[reducible] def fickleWorld : Toy.World where
  roots := [(1, Toy.root 1 1000)]
  timestamps := [(10, Toy.timestamp 1 500 1),
    (11, { Toy.timestamp 2 500 1 with snapshot := { Toy.descr 1 with hashes := [(.sha256, [9])] } })]
  snapshots := [(20, Toy.snapshot 1 500 [("targets", 1)])]
  targets := [(30, Toy.targets 1 500 [("x", 1)] none)]

/-- The remote repository with timestamp `i`. -/
def fickleRepo (i : UInt8) : World Toy.Disk :=
  Toy.repos (Toy.files [("timestamp", none, i), ("snapshot", none, 20), ("targets", none, 30)]) [] 100

/-- A client that has updated itself with timestamp 1. -/
def fickle1 : St Toy.Disk :=
  (exec fickleWorld.env Toy.digest (fickleRepo 10) Toy.config .update ⟨Toy.boot,
    (construct fickleWorld.env Toy.digest (fickleRepo 10) Toy.config (.trustedRoot [1])
      ⟨Toy.Disk.empty, []⟩).2⟩).2

/-- The same after an update with timestamp 2. -/
def fickle2 : St Toy.Disk := (update fickleWorld.env Toy.digest (fickleRepo 11) Toy.config fickle1).2

/-- **C31 does not hold as stated.** If a publisher announces the same snapshot version again with
another hash, an update keeps the trusted snapshot, but after a restart the cached snapshot does not
match the cached timestamp any more: snapshot and targets metadata are gone. -/
theorem C31_reannounced_snapshot_is_lost :
    ∃ (E : Env) (D : Digest) (R : World Toy.Disk) (cfg : Config) (t : Tuf) (io : Io Toy.Disk)
      (s : St Toy.Disk) (t' : Tuf) (io' : Io Toy.Disk),
      Decoders E ∧ Faithful R toyFile ∧ Lives E D cfg toyFile [1] t io ∧
      update E D R cfg ⟨t, io⟩ = (.ok true, s) ∧ ProperNames s.io.log ∧
      (∀ w, Current s.tuf (R.clock w).1) ∧
      construct E D R cfg (.trustedRoot [1]) s.io = (.ok t', io') ∧
      s.tuf.snapshot ≠ none ∧ s.tuf.targets ≠ none ∧ t'.snapshot = none ∧ t'.targets = none := by
  have start : Lives fickleWorld.env Toy.digest Toy.config toyFile [1] Toy.boot
      (construct fickleWorld.env Toy.digest (fickleRepo 10) Toy.config (.trustedRoot [1])
        ⟨Toy.Disk.empty, []⟩).2 :=
    .start (fickleRepo 10) Toy.boot Toy.boot ⟨Toy.Disk.empty, []⟩ _ (toy_faithful _ _ _)
      (by decide +kernel) (fun _ _ => rfl) (Prod.ext (by decide +kernel) rfl)
  have h1 : Lives fickleWorld.env Toy.digest Toy.config toyFile [1] fickle1.tuf fickle1.io :=
    .call (fickleRepo 10) _ _ _ _ .update _ start (toy_faithful _ _ _) rfl
  have ht : fickle2.tuf = ⟨Toy.root 1 1000, some (Toy.snapshot 1 500 [("targets", 1)]),
      some (Toy.targets 1 500 [("x", 1)] none),
      some { Toy.timestamp 2 500 1 with
        snapshot := { Toy.descr 1 with hashes := [(.sha256, [9])] } }, []⟩ := by decide +kernel
  refine ⟨fickleWorld.env, Toy.digest, fickleRepo 11, Toy.config, fickle1.tuf, fickle1.io, fickle2,
    ⟨Toy.root 1 1000, none, none, some { Toy.timestamp 2 500 1 with
        snapshot := { Toy.descr 1 with hashes := [(.sha256, [9])] } }, []⟩, _,
    fickleWorld.decoders (by decide) (by decide) (by decide) (by decide), toy_faithful _ _ _, h1,
    Prod.ext (by decide +kernel) rfl, proper_of_none (by decide +kernel), ?_,
    Prod.ext (by decide +kernel) rfl, by rw [ht]; simp, by rw [ht]; simp, rfl, rfl⟩
  intro w
  rw [ht]
  constructor
  · intro i; exact (by decide : (100 : Time) < 1000)
  · rintro i ts ⟨⟩; exact (by decide : (100 : Time) < 500)
  · rintro i ts ⟨⟩; exact (by decide : (100 : Time) < 500)
  · rintro i ts ⟨⟩; exact (by decide : (100 : Time) < 500)

/-- A remote repository that publishes roots up to 2 and then up to 3. -/
def growingRepo (three : Bool) : World Toy.Disk :=
  Toy.repos (Toy.files ([("root", some 2, 2), ("timestamp", none, 10), ("snapshot", none, 20),
    ("targets", none, 30)] ++ if three then [("root", some 3, 3)] else [])) [] 100

/-- An update during which the second write fails. -/
def gap1 : St (Toy.Disk × Nat) :=
  (exec Toy.env Toy.digest (stopAfter (growingRepo false)) Toy.config .update
    ⟨Toy.boot, ⟨(Toy.Disk.empty, 1), []⟩⟩).2

/-- The next update, in which all writes succeed. -/
def gap2 : St (Toy.Disk × Nat) :=
  (exec Toy.env Toy.digest (goOn (growingRepo true)) Toy.config .update gap1).2

/-- **Limit of C32.** It is about processes that stop. If a process goes on after a failed write of a
root, the versions it stores later do not connect to the earlier ones: here the client trusts root 3,
and after a restart it trusts root 1 again. -/
theorem C32_failed_write_and_go_on :
    (exec Toy.env Toy.digest (stopAfter (growingRepo false)) Toy.config .update
      ⟨Toy.boot, ⟨(Toy.Disk.empty, 1), []⟩⟩).1 = .error .opaqueErr ∧
    (exec Toy.env Toy.digest (goOn (growingRepo true)) Toy.config .update gap1).1 =
      .ok (.updated true) ∧
    gap2.tuf.root.version = 3 ∧
    ∃ t' io', construct Toy.env Toy.digest (goOn (growingRepo true)) Toy.config (.trustedRoot [1])
      gap2.io = (.ok t', io') ∧ t'.root.version = 1 :=
  ⟨by decide +kernel, by decide +kernel, by decide +kernel,
    { Toy.full with delegations := [] }, _,
    Prod.ext (by decide +kernel) rfl, rfl⟩

end RustTuf.Props
