import Verif.Props.ClientTotal

/-!
# Updating twice
-/

namespace RustTuf.Props
open Client Spec RustTuf Tuf

variable {W : Type}

/-- The remote repository serves the same files all the time: its answers depend on the request
only. -/
def Static (R : World W)
    (f : MetadataPath → MetadataVersion → Option Nat → HashData → Except Err (List Ev)) : Prop :=
  ∀ p v m h w, (R.remote.fetchMetadata p v m h w).1 = f p v m h

/-- The document such a repository delivers, after the checked read. -/
def served (D : Digest)
    (f : MetadataPath → MetadataVersion → Option Nat → HashData → Except Err (List Ev))
    (p : MetadataPath) (v : MetadataVersion) (m : Option Nat) (h : HashData) : Except Err Bytes :=
  match f p v m h with
  | .error e => .error e
  | .ok evs => readChecked D (m.getD usizeMax) h evs

section static
variable {E : Env} {D : Digest} {R : World W} {cfg : Config}
  {f : MetadataPath → MetadataVersion → Option Nat → HashData → Except Err (List Ev)}
  (hf : Static R f)
include hf

theorem fetch_static (role : Role) (p : MetadataPath) (v : MetadataVersion) (m : Option Nat)
    (h : HashData) (hc : checkRole role p = .ok ()) {P : Io W → Prop} :
    Tri P (fetchMetadata D R .remote role p v m h) (fun raw _ => served D f p v m h = .ok raw)
      (fun e _ => served D f p v m h = .error e) := by
  unfold fetchMetadata
  rw [hc]
  refine Tri.bind (Q := fun _ _ => True) (Tri.ofExcept (fun _ _ _ _ => trivial)
    (fun _ _ h => by cases h)) fun _ => ?_
  refine Tri.bind (Q := fun _ _ => True) (fun _ _ => trivial) fun _ => ?_
  refine Tri.bind (Q := fun evs _ => f p v m h = .ok evs) (fun io _ => ?_) fun evs => ?_
  · unfold Io.call
    have := hf p v m h io.w
    cases hr : R.remote.fetchMetadata p v m h io.w with
    | mk r w' =>
      rw [hr] at this
      simp only [World.provider, hr]
      cases r with
      | ok evs => exact this.symm
      | error e =>
        show served D f p v m h = .error e
        unfold served; rw [← this]
  refine Tri.fix fun io hio => ?_
  have key : served D f p v m h = readChecked D (m.getD usizeMax) h evs := by
    unfold served; rw [hio]
  refine Tri.bind (Q := fun raw _ => served D f p v m h = .ok raw)
    (Tri.ofExcept (fun _ _ h _ => by rw [key, h]) (fun _ _ h _ => by rw [key, h])) fun raw => ?_
  exact Tri.bind (Q := fun _ _ => served D f p v m h = .ok raw) (fun _ hs => hs) fun _ =>
    Tri.ret fun _ hs => hs

/-- Request, keeping the trusted metadata. -/
theorem fetch_static' (role : Role) (p : MetadataPath) (v : MetadataVersion) (m : Option Nat)
    (h : HashData) (hc : checkRole role p = .ok ()) (I : Tuf → Prop) :
    Tri (fun s : St W => I s.tuf) (lift (fetchMetadata D R .remote role p v m h))
      (fun raw s => served D f p v m h = .ok raw ∧ I s.tuf)
      (fun e s => served D f p v m h = .error e ∧ I s.tuf) := by
  intro s hs
  have h1 := fetch_static (D := D) hf role p v m h hc (P := fun _ => True) s.io trivial
  unfold lift
  cases hm : fetchMetadata D R .remote role p v m h s.io with
  | mk r io' => rw [hm] at h1; cases r <;> exact ⟨h1, hs⟩

/-- A successful root update ended because there was no next root. -/
theorem rootLoop_static (persist : Bool) (fuel : Nat) : ∀ upd,
    Tri (fun _ : St W => True) (rootLoop E D R cfg .remote persist fuel upd)
      (fun _ s => ∃ next, nextRootVersion cfg.overflowChecks s.tuf.root.version = .ok next ∧
        served D f (MetadataPath.fromRole .root) (.number next) cfg.maxRootLength none =
          .error .notFound)
      (fun _ _ => True) := by
  induction fuel with
  | zero => intro upd; exact Tri.fail fun _ _ => trivial
  | succ fuel ih =>
    intro upd
    unfold rootLoop
    refine Tri.bind (Q := fun (t : Tuf) (s : St W) => s.tuf = t) (fun _ _ => rfl) fun t => ?_
    refine Tri.bind (Q := fun next s => nextRootVersion cfg.overflowChecks t.root.version = .ok next ∧
      s.tuf = t) (Tri.ofExcept (fun _ _ h hs => ⟨h, hs⟩) (fun _ _ _ _ => trivial)) fun next => ?_
    refine Tri.assume fun hn => ?_
    refine Tri.bind (Tri.attempt (fetch_static' (D := D) hf .root (MetadataPath.fromRole .root)
      (.number next) cfg.maxRootLength none (by decide +kernel) (fun t' => t' = t))) fun r => ?_
    cases r with
    | error e =>
      have bad : Tri (fun _ : St W => True) (M.fail e : M (St W) Bool)
          (fun _ s => ∃ next, nextRootVersion cfg.overflowChecks s.tuf.root.version = .ok next ∧
            served D f (MetadataPath.fromRole .root) (.number next) cfg.maxRootLength none =
              .error .notFound)
          (fun _ _ => True) := Tri.fail fun _ _ => trivial
      cases e with
      | notFound => exact Tri.ret fun s hs => ⟨next, by rw [hs.2]; exact hn, hs.1⟩
      | _ => exact bad.pre fun _ _ => trivial
    | ok raw =>
      refine Tri.bind (Q := fun _ _ => True) (Tri.updateTuf fun s o t'' hs hst => by
        cases o <;> trivial) fun o => ?_
      refine Tri.bind (Q := fun _ _ => True) ?_ fun _ => ih true
      have one : ∀ v, Tri (fun _ : St W => True)
          (lift (storeMetadata R .root (MetadataPath.fromRole .root) v raw))
          (fun _ _ => True) (fun _ _ => True) := by
        intro v s _
        split <;> trivial
      exact Tri.when (fun _ => Tri.bind (one _) fun _ => one _) (fun _ s hs => trivial)

theorem updateRoot_static (persist : Bool) :
    Tri (fun _ : St W => True) (updateRootWithRepos E D R cfg .remote persist)
      (fun _ s => ∃ next, nextRootVersion cfg.overflowChecks s.tuf.root.version = .ok next ∧
        served D f (MetadataPath.fromRole .root) (.number next) cfg.maxRootLength none =
          .error .notFound)
      (fun _ _ => True) := by
  unfold updateRootWithRepos
  refine Tri.bind (rootLoop_static hf persist _ _) fun b => ?_
  refine Tri.fix fun s0 h0 => ?_
  refine Tri.bind (Q := fun _ s => s.tuf = s0.tuf) (Tri.getClock (by rintro s rfl; rfl)) fun c => ?_
  refine Tri.bind (Q := fun (_ : Tuf) (s : St W) => s.tuf = s0.tuf) (fun _ hs => hs) fun t => ?_
  exact Tri.ite (fun _ => Tri.fail fun s hs => trivial) (fun _ => Tri.ret fun s hs => by rw [hs]; exact h0)

/-- After a successful timestamp update, the served timestamp has the trusted version. -/
theorem updateTimestamp_static (persist : Bool) :
    Tri (fun _ : St W => True) (updateTimestampWithRepos E D R cfg .remote persist)
      (fun _ s => ∃ raw new, served D f (MetadataPath.fromRole .timestamp) .none
          cfg.maxTimestampLength none = .ok raw ∧
        Authentic E E.timestampFromSlice raw s.tuf.root.timestamp.threshold (timestampSigners s.tuf.root) new ∧
        new.version = verOf (·.version) s.tuf.timestamp)
      (fun _ _ => True) := by
  unfold updateTimestampWithRepos
  refine Tri.fix fun s0 _ => ?_
  refine Tri.bind (((fetch_static' (D := D) hf .timestamp (MetadataPath.fromRole .timestamp) .none
    cfg.maxTimestampLength none (by decide +kernel) (fun t' => t' = s0.tuf))).conseq
    (by rintro s rfl; rfl) (fun _ _ h => h) (fun _ _ _ => trivial)) fun raw => ?_
  refine Tri.assume fun hraw => ?_
  refine Tri.bind (Q := fun _ s => s.tuf = s0.tuf) (Tri.getClock fun _ hs => hs) fun clk => ?_
  refine (finish_eff (.timestamp clk raw) _ _ raw s0.tuf persist).conseq (fun _ h => h) ?_
    (fun _ _ _ => trivial)
  intro b s hs
  refine ⟨raw, ?_⟩
  rcases hs with ⟨_, h⟩ | ⟨_, h⟩
  · simp only [Tuf.step] at h
    split at h <;> cases h
    rename_i hu
    obtain ⟨hr, ht⟩ := (updateTimestamp_some_iff ..).1 hu
    rw [ht]
    exact ⟨_, hraw, hr.signed, rfl⟩
  · simp only [Tuf.step] at h
    split at h <;> cases h
    rename_i hu
    obtain ⟨ht, new, ha, hv⟩ := (updateTimestamp_none_iff ..).1 hu
    rw [ht]
    exact ⟨new, hraw, ha, hv⟩

end static

/-! ### C40 -/

/-- Requests change nothing but the record, which gets no store. -/
theorem fetch_silent (D : Digest) (R : World W) (role : Role) (p : MetadataPath)
    (v : MetadataVersion) (m : Option Nat) (h : HashData) (L : List LogEntry) :
    Keeps (fun s : St W => Grown NoStore L s.io.log) (lift (fetchMetadata D R .remote role p v m h)) :=
  lift_keeps (fetchMetadata_grown D R .remote role p v m h NoStore (by simp [NoStore])
    (by simp [NoStore]) L)

theorem Tri.and {σ α : Type} {P P' : σ → Prop} {m : M σ α} {Q Q' : α → σ → Prop}
    {X X' : Err → σ → Prop} (h : Tri P m Q X) (h' : Tri P' m Q' X') :
    Tri (fun s => P s ∧ P' s) m (fun a s => Q a s ∧ Q' a s) (fun e s => X e s ∧ X' e s) := by
  intro s hs
  have h1 := h s hs.1
  have h2 := h' s hs.2
  cases hm : m s with
  | mk r s' =>
    rw [hm] at h1 h2
    cases r <;> exact ⟨h1, h2⟩

/-- **C40.** Whatever the remote repository serves, as long as it keeps serving the same: after a
successful update, and while the root is unexpired, another update succeeds, reports no change,
changes no trusted metadata and writes nothing to the local repository. -/
theorem C40_update_idempotent (E : Env) (hE : Decoders E) (D : Digest) (R : World W) (cfg : Config)
    (f : MetadataPath → MetadataVersion → Option Nat → HashData → Except Err (List Ev))
    (hf : Static R f) (s s' : St W) (b : Bool) (hr : Reachable E s.tuf)
    (h : update E D R cfg s = (.ok b, s'))
    (hclk : ∀ w, (R.clock w).1 .root < s'.tuf.root.expires) :
    ∃ s'', update E D R cfg s' = (.ok false, s'') ∧ s''.tuf = s'.tuf ∧
      ∃ l, s''.io.log = s'.io.log ++ l ∧ ∀ e ∈ l, ∀ p v raw, e ≠ .store p v raw := by
  obtain ⟨hcomplete, _, _⟩ := C29_update_complete E hE D R cfg s s' b hr h
  obtain ⟨b1, b2, b3, b4, s1, s2, s3, e1, e2, e3, e4, rfl⟩ := update_parts h
  obtain ⟨next, hn, hnf⟩ := (updateRoot_static hf true).run_ok trivial e1
  obtain ⟨raw, new, hraw, ha, hv⟩ := (updateTimestamp_static (E := E) hf true).run_ok trivial e2
  obtain ⟨n, r1, _⟩ := (updateRoot_eff (E := E) (D := D) (R := R) (cfg := cfg) .remote true
    s.tuf).run_ok rfl e1
  obtain ⟨w2, raw2, r2⟩ := (updateTimestamp_eff (E := E) (D := D) (R := R) (cfg := cfg) .remote true
    s1.tuf).run_ok rfl e2
  have r3 := (updateSnapshot_eff (E := E) (D := D) (R := R) .remote true _ s2.tuf).run_ok rfl e3
  have r4 := (updateTargets_eff (E := E) (D := D) (R := R) .remote true _ s3.tuf).run_ok rfl e4
  have k2 : s2.tuf.root = s1.tuf.root := by
    rcases r2 with ⟨_, r⟩ | ⟨_, r⟩
    · exact (timestamp_step hE r (by simp)).2.1
    · exact (timestamp_step hE r (by simp)).2.1
  have k3 : s3.tuf.root = s2.tuf.root ∧ s3.tuf.timestamp = s2.tuf.timestamp := by
    rcases r3 with ⟨w, raw, _, r⟩ | ⟨_, r, _⟩
    · obtain ⟨new, _, hpost⟩ := snapshot_step r
      exact ⟨hpost.root, hpost.timestamp⟩
    · rw [r]; exact ⟨rfl, rfl⟩
  have k4 : s'.tuf.root = s3.tuf.root ∧ s'.tuf.timestamp = s3.tuf.timestamp := by
    rcases r4 with ⟨w, raw, _, r⟩ | ⟨_, r, _⟩
    · obtain ⟨new, _, hpost⟩ := targets_step r
      rw [hpost]; exact ⟨rfl, rfl⟩
    · rw [r]; exact ⟨rfl, rfl⟩
  have hroot : s'.tuf.root = s1.tuf.root := by rw [k4.1, k3.1, k2]
  have hts : s'.tuf.timestamp = s2.tuf.timestamp := by rw [k4.2, k3.2]
  rw [← hroot] at hn
  rw [k2, ← hroot] at ha
  rw [← hts] at hv
  generalize ht : s'.tuf = t at hcomplete hn ha hv hclk
  -- the second run
  let I : St W → Prop := fun s => s.tuf = t ∧ Grown NoStore s'.io.log s.io.log
  have hfetch : ∀ (role : Role) (p : MetadataPath) (v : MetadataVersion) (m : Option Nat)
      (h : HashData), checkRole role p = .ok () →
      Tri I (lift (fetchMetadata D R .remote role p v m h))
        (fun raw s => served D f p v m h = .ok raw ∧ I s)
        (fun e s => served D f p v m h = .error e ∧ I s) := by
    intro role p v m h hc
    exact (Tri.and (fetch_static' hf role p v m h hc (fun t' => t' = t))
      (fetch_silent D R role p v m h s'.io.log)).conseq (fun _ h => h)
      (fun _ _ h => ⟨h.1.1, h.1.2, h.2⟩) (fun _ _ h => ⟨h.1.1, h.1.2, h.2⟩)
  have hget : Tri I getTuf (fun t' s => t' = t ∧ I s) (fun _ _ => False) := fun s hs => ⟨hs.1, hs⟩
  have c1 : Tri I (updateRootWithRepos E D R cfg .remote true) (fun b s => b = false ∧ I s)
      (fun _ _ => False) := by
    unfold updateRootWithRepos
    refine Tri.bind (Q := fun b s => b = false ∧ I s) ?_ fun b => ?_
    · show Tri I (rootLoop E D R cfg .remote true (u32Max + 1 + 1) false) _ _
      unfold rootLoop
      refine Tri.bind hget fun t' => Tri.assume fun ht' => ?_
      subst ht'
      refine Tri.bind (Q := fun nx s => nx = next ∧ I s)
        (Tri.ofExcept (fun _ _ h hs => ⟨by rw [hn] at h; cases h; rfl, hs⟩)
          (fun _ _ h _ => by rw [hn] at h; cases h)) fun nx => Tri.assume fun hnx => ?_
      subst hnx
      refine Tri.bind (Tri.attempt (hfetch .root (MetadataPath.fromRole .root) (.number nx)
        cfg.maxRootLength none (by decide +kernel)) (fun s h => by rw [hnf] at h; cases h.1)) fun r => ?_
      cases r with
      | ok raw => refine Tri.assume fun h => ?_; rw [hnf] at h; cases h
      | error e =>
        refine Tri.assume fun h => ?_
        rw [hnf] at h; cases h
        exact Tri.ret fun s hs => ⟨rfl, hs⟩
    · refine Tri.assume fun hb => ?_
      refine Tri.bind (Q := fun c s => (∃ w, c = (R.clock w).1) ∧ I s)
        (Tri.getClock fun s hs => ⟨⟨_, rfl⟩, hs⟩) fun c => Tri.assume ?_
      rintro ⟨w, rfl⟩
      refine Tri.bind hget fun t' => Tri.assume fun ht' => ?_
      subst ht'
      refine Tri.ite (fun hx => ?_) (fun _ => Tri.ret fun s hs => ⟨hb, hs⟩)
      have := hclk w
      omega
  have c2 : Tri I (updateTimestampWithRepos E D R cfg .remote true) (fun b s => b = false ∧ I s)
      (fun _ _ => False) := by
    unfold updateTimestampWithRepos
    refine Tri.bind ((hfetch .timestamp (MetadataPath.fromRole .timestamp) .none
      cfg.maxTimestampLength none (by decide +kernel)).conseq (fun _ h => h) (fun _ _ h => h)
      (fun _ _ h => by rw [hraw] at h; cases h.1)) fun raw' => Tri.assume fun h => ?_
    rw [hraw] at h; cases h
    refine Tri.bind (Q := fun _ => I) (Tri.getClock fun s hs => hs) fun c => ?_
    refine Tri.bind (Q := fun o s => o = .unchanged ∧ I s) (Tri.updateTuf fun s o t' hs hst => ?_)
      fun o => Tri.assume fun ho => by subst ho; exact Tri.ret fun s hs => ⟨rfl, hs⟩
    rw [hs.1] at hst
    have hu : updateTimestamp E c t raw = (.ok none, t) :=
      (updateTimestamp_none_iff ..).2 ⟨rfl, new, ha, hv⟩
    simp only [Tuf.step, hu] at hst
    cases hst
    exact ⟨rfl, rfl, hs.2.snoc (by simp [NoStore])⟩
  obtain ⟨⟨ts, sn, g1, g2, g3⟩, sn', m, ta, g4, g5, g6, g7⟩ := hcomplete
  have c3 : ∀ c, Tri I (updateSnapshotWithRepos E D R .remote true c) (fun b s => b = false ∧ I s)
      (fun _ _ => False) := by
    intro c
    unfold updateSnapshotWithRepos
    refine Tri.bind hget fun t' => Tri.assume fun ht' => ?_
    subst ht'
    rw [g1]
    refine Tri.ite (fun _ => Tri.ret fun s hs => ⟨rfl, hs⟩) (fun hx => ?_)
    rw [snapshotVersion_eq, g2] at hx
    simp only [verOf] at hx
    omega
  have c4 : ∀ c, Tri I (updateTargetsWithRepos E D R .remote true c) (fun b s => b = false ∧ I s)
      (fun _ _ => False) := by
    intro c
    unfold updateTargetsWithRepos
    refine Tri.bind hget fun t' => Tri.assume fun ht' => ?_
    subst ht'
    rw [g4]
    have g5' : sn'.metas.get? (MetadataPath.fromRole .targets) = some m := g5
    simp only [g5']
    refine Tri.ite (fun _ => Tri.ret fun s hs => ⟨rfl, hs⟩) (fun hx => ?_)
    rw [targetsVersion_eq, g6] at hx
    simp only [verOf] at hx
    omega
  have call : Tri I (update E D R cfg) (fun b s => b = false ∧ I s) (fun _ _ => False) := by
    unfold update
    refine Tri.bind c1 fun b1 => Tri.assume fun h1 => ?_
    refine Tri.bind c2 fun b2 => Tri.assume fun h2 => ?_
    refine Tri.bind hget fun t' => Tri.assume fun _ => ?_
    refine Tri.bind (c3 _) fun b3 => Tri.assume fun h3 => ?_
    refine Tri.bind hget fun t' => Tri.assume fun _ => ?_
    refine Tri.bind (c4 _) fun b4 => Tri.assume fun h4 => ?_
    exact Tri.ret fun s hs => ⟨by simp [h1, h2, h3, h4], hs⟩
  have := call s' ⟨ht, Grown.refl _ _⟩
  cases hu : update E D R cfg s' with
  | mk r s'' =>
    rw [hu] at this
    cases r with
    | error e => exact this.elim
    | ok b =>
      obtain ⟨rfl, h1, l, h2, h3⟩ := this
      exact ⟨s'', rfl, h1, l, h2, h3⟩

/-- The toy remote is static, and the first update of a new client changes something. -/
example : (∃ f, Static Toy.remoteRepo f) ∧
    (update Toy.env Toy.digest Toy.remoteRepo Toy.config Toy.client0).1 = .ok true ∧
    (update Toy.env Toy.digest Toy.remoteRepo Toy.config
      (update Toy.env Toy.digest Toy.remoteRepo Toy.config Toy.client0).2).1 = .ok false :=
  ⟨⟨fun p v _ _ => match Toy.remoteFiles.get? (p, v) with
      | some b => .ok (Toy.stream b) | none => .error .notFound, fun _ _ _ _ _ => rfl⟩,
    by decide +kernel, by decide +kernel⟩

end RustTuf.Props
