import Verif.Props.ClientHonest
import Verif.Props.RootEnd
import Verif.Props.Client
import Verif.Props.ClientRestart
import Verif.Lemmas.Cut

/-!
# C100: interrupted calls do no harm
-/

namespace RustTuf.Props
open Client Spec RustTuf Tuf

variable {W : Type}

section patchy
variable {E : Env} {D : Digest} {R : World W} {cfg : Config} {file : Files}

/-- What is fetched over an unreliable connection is the published file. -/
theorem fetch_patchy (hP : Patchy R file) {role : Role} {p : MetadataPath} {v : MetadataVersion}
    {m : Option Nat} {h : HashData} (hp : TopName p) (t : Tuf) :
    Tri (fun s : St W => s.tuf = t) (lift (fetchMetadata D R .remote role p v m h))
      (fun x s => file p v = some x ∧ s.tuf = t)
      (fun e s => (p = "root".toList → e = .notFound → file p v = none) ∧ s.tuf = t) := by
  refine (Tri.lift (P := fun _ => True) (Q := fun x _ => file p v = some x)
    (X := fun e _ => p = "root".toList → e = .notFound → file p v = none) ?_ t).conseq
    (fun _ h => ⟨h, trivial⟩) (fun _ _ h => ⟨h.2, h.1⟩) (fun _ _ h => ⟨h.2, h.1⟩)
  unfold fetchMetadata
  refine Tri.bind (Q := fun _ _ => True) (Tri.ofExcept (fun _ _ _ _ => trivial) (fun e s h _ => ?_))
    fun _ => ?_
  · rintro rfl rfl
    unfold checkRole at h
    split at h <;> cases h
  refine Tri.bind (Q := fun _ _ => True) (fun _ _ => trivial) fun _ => ?_
  refine Tri.bind (Q := fun evs (_ : Io W) => ∃ w, (R.remote.fetchMetadata p v m h w).1 = .ok evs)
    (fun io _ => ?_) fun evs => Tri.ex fun w => ?_
  · unfold Io.call
    cases hq : (R.provider .remote).fetchMetadata p v m h io.w with
    | mk r w' =>
      cases r with
      | ok evs => exact ⟨io.w, congrArg Prod.fst hq⟩
      | error e =>
        rintro rfl rfl
        exact hP.missing v m h io.w (congrArg Prod.fst hq)
  · refine Tri.bind (Q := fun x _ => file p v = some x) (Tri.ofExcept (fun x s hx hs => ?_)
      (fun e s he hs => ?_)) fun x => Tri.bind (Q := fun _ _ => file p v = some x) (fun _ h => h) fun _ =>
      Tri.ret fun _ h => h
    · exact hP.complete p v m h w evs x hp hs (readChecked_ok hx).2
    · rintro rfl rfl
      obtain ⟨bs, hd⟩ := readChecked_notFound he
      exact hP.cut v m h w evs bs hs hd

theorem store_any (role : Role) (p : MetadataPath) (v : MetadataVersion) (raw : Bytes) (P : Tuf → Prop) :
    Keeps (fun s : St W => P s.tuf) (lift (storeMetadata R role p v raw)) := by
  intro s hs
  unfold lift
  cases hq : storeMetadata R role p v raw s.io with
  | mk r io' => cases r <;> exact hs

/-- Documents decode to one thing only. -/
theorem authentic_unique {M : Type} {decode : Bytes → Except Err M} {raw : Bytes} {n n' : Nat}
    {ks ks' : List PublicKey} {a b : M} (h : Authentic E decode raw n ks a)
    (h' : Authentic E decode raw n' ks' b) : a = b := by
  obtain ⟨m1, q1, q2⟩ := h
  obtain ⟨m2, q3, q4⟩ := h'
  obtain ⟨_, sg, sd, u1, u2, _⟩ := q1
  obtain ⟨_, sg', sd', u1', u2', _⟩ := q3
  rw [u1] at u1'; cases u1'
  rw [u2] at u2'; cases u2'
  rw [q2] at q4; cases q4; rfl

variable {r : RootMetadata} {ts : TimestampMetadata} {sn : SnapshotMetadata} {ta : TargetsMetadata}

/-- A client on the way to the published metadata. -/
structure OnTheWay (E : Env) (cfg : Config) (file : Files) (r : RootMetadata) (ts : TimestampMetadata)
    (sn : SnapshotMetadata) (ta : TargetsMetadata) (t : Tuf) : Prop where
  roots : Roots E cfg file t.root r
  behind : t.root = r → Behind t r ts sn ta

theorem OnTheWay.fresh {r1 : RootMetadata} (h : Roots E cfg file r1 r) :
    OnTheWay E cfg file r ts sn ta (ofRoot r1) :=
  ⟨h, fun _ => ⟨fun x _ hx => (by cases hx), fun x hx => (by cases hx), fun x hx => (by cases hx)⟩⟩

theorem rootLoop_patchy (hP : Patchy R file) (fuel : Nat) : ∀ upd : Bool,
    Tri (fun s : St W => OnTheWay E cfg file r ts sn ta s.tuf)
      (rootLoop E D R cfg .remote true fuel upd)
      (fun _ s => OnTheWay E cfg file r ts sn ta s.tuf ∧ s.tuf.root = r)
      (fun _ s => OnTheWay E cfg file r ts sn ta s.tuf) := by
  induction fuel with
  | zero => exact fun _ => Tri.fail fun _ h => h
  | succ fuel ih =>
    intro upd
    refine Tri.fix fun s0 h0 => ?_
    have hle := h0.roots.le
    unfold rootLoop
    refine Tri.bind (getTuf_tuf s0.tuf fun _ hs => by rw [hs]) fun t => Tri.assume fun ht => ?_
    subst ht
    refine Tri.bind (Q := fun nx s => nx = s0.tuf.root.version + 1 ∧ s.tuf = s0.tuf)
      (Tri.ofExcept (fun nx s h hs => ⟨?_, by rw [hs]⟩) (fun e s h hs => by rw [hs]; exact h0))
      fun nx => Tri.assume fun hnx => ?_
    · unfold nextRootVersion u32Max at h; split at h
      · omega
      · cases h; rfl
    subst hnx
    refine Tri.bind (Tri.attempt (fetch_patchy (D := D) hP (role := .root)
      (p := MetadataPath.fromRole .root) (.inl rfl) s0.tuf) (fun s h => by rw [h.2]; exact h0))
      fun x => ?_
    cases x with
    | error e =>
      refine Tri.assume fun he => ?_
      have other : ∀ e', Tri (fun s : St W => s.tuf = s0.tuf) (M.fail e' : M (St W) Bool)
          (fun _ s => OnTheWay E cfg file r ts sn ta s.tuf ∧ s.tuf.root = r)
          (fun _ s => OnTheWay E cfg file r ts sn ta s.tuf) :=
        fun e' => Tri.fail fun s hs => by rw [hs]; exact h0
      cases e with
      | notFound =>
        refine Tri.ret fun s hs => ?_
        rw [hs]
        refine ⟨h0, ?_⟩
        have hn := he rfl rfl
        cases h0.roots with
        | last => rfl
        | next _ r1 _ raw hf => rw [show MetadataPath.fromRole .root = "root".toList from rfl, hf] at hn; cases hn
      | _ => exact other _
    | ok raw =>
      refine Tri.assume fun hf => ?_
      cases hr : h0.roots with
      | last _ _ hn => rw [show MetadataPath.fromRole .root = "root".toList from rfl, hn] at hf; cases hf
      | next _ r1 _ raw' hf' hw ha1 ha2 hv hrest =>
        rw [show MetadataPath.fromRole .root = "root".toList from rfl, hf'] at hf
        cases hf
        have hle1 := hrest.le
        have hup : updateRoot E s0.tuf raw = (.ok (), ofRoot r1) :=
          (updateRoot_ok_iff ..).2 ⟨r1, ⟨ha1, ha2, hv, by omega⟩, rfl⟩
        have hway : OnTheWay E cfg file r ts sn ta (ofRoot r1) := .fresh hrest
        refine Tri.bind (Q := fun _ s => OnTheWay E cfg file r ts sn ta s.tuf)
          (Tri.updateTuf fun s o t'' hs hst => ?_) fun o => ?_
        · rw [hs] at hst
          simp only [Tuf.step, hup] at hst
          cases hst
          exact hway
        refine Tri.bind (Q := fun _ (s : St W) => OnTheWay E cfg file r ts sn ta s.tuf)
          (Tri.when (fun _ => (store_any _ _ _ _ (OnTheWay E cfg file r ts sn ta)).bind fun _ =>
            store_any _ _ _ _ (OnTheWay E cfg file r ts sn ta)) (fun h => by cases h)) fun _ => ih true

/-- How the rest of a stage keeps an assertion about the trusted metadata. -/
theorem finish_patchy {o : Op} {role : Role} {p : MetadataPath} {raw : Bytes}
    {t : Tuf} {Q X : Tuf → Prop}
    (hQ : ∀ o' t', Tuf.step E t o = (o', t') → Q t') (hQX : ∀ t, Q t → X t) :
    Tri (fun s : St W => s.tuf = t) (do
        match ← updateTuf E o with
        | .changed =>
          M.when true do
            lift (storeMetadata R role p .none raw)
          return true
        | _ => return false)
      (fun _ s => Q s.tuf) (fun _ s => X s.tuf) := by
  refine Tri.bind (Q := fun _ s => Q s.tuf) (Tri.updateTuf fun s o' t' hs h => ?_) fun o' => ?_
  · rw [hs] at h
    cases o' with
    | failed e => exact hQX _ (hQ _ _ h)
    | changed => exact hQ _ _ h
    | unchanged => exact hQ _ _ h
  · cases o' with
    | changed =>
      refine Tri.bind (Tri.when (fun _ => Tri.conseq (store_any role p _ raw Q) (fun _ h => h)
        (fun _ _ h => h) (fun _ s h => hQX _ h)) (fun h => by cases h)) fun _ => Tri.ret fun s hs => hs
    | unchanged => exact Tri.ret fun s hs => hs
    | failed e => exact Tri.ret fun s hs => hs

theorem updateRoot_patchy (hP : Patchy R file) :
    Tri (fun s : St W => OnTheWay E cfg file r ts sn ta s.tuf)
      (updateRootWithRepos E D R cfg .remote true)
      (fun _ s => OnTheWay E cfg file r ts sn ta s.tuf ∧ s.tuf.root = r)
      (fun _ s => OnTheWay E cfg file r ts sn ta s.tuf) := by
  unfold updateRootWithRepos
  refine Tri.bind (rootLoop_patchy hP rootFuel false) fun b => ?_
  refine Tri.bind (Tri.getClock (Q := fun _ s => OnTheWay E cfg file r ts sn ta s.tuf ∧ s.tuf.root = r)
    fun s hs => hs) fun c => ?_
  refine Tri.bind (keeps_getTuf _ |>.conseq (fun _ h => h) (fun _ _ h => h) (fun _ _ h => h.1)) fun t => ?_
  exact Tri.ite (fun _ => Tri.fail fun _ h => h.1) (fun _ => Tri.ret fun _ h => h)

variable (hp : Published E D cfg file r ts sn ta)
include hp

theorem updateTimestamp_patchy (hP : Patchy R file) :
    Tri (fun s : St W => OnTheWay E cfg file r ts sn ta s.tuf ∧ s.tuf.root = r)
      (updateTimestampWithRepos E D R cfg .remote true)
      (fun _ s => OnTheWay E cfg file r ts sn ta s.tuf ∧ s.tuf.root = r)
      (fun _ s => OnTheWay E cfg file r ts sn ta s.tuf) := by
  refine Tri.fix fun s0 h0 => ?_
  obtain ⟨h0, hroot⟩ := h0
  have hb := h0.behind hroot
  obtain ⟨rawTs, f1, l1, a1⟩ := hp.timestamp
  unfold updateTimestampWithRepos
  refine Tri.bind ((fetch_patchy (D := D) hP (role := .timestamp) (p := MetadataPath.fromRole .timestamp)
    (.inr (.inl rfl)) s0.tuf).conseq (fun s hs => by rw [hs]) (fun _ _ h => h)
    (fun _ _ h => by rw [h.2]; exact h0)) fun raw => Tri.assume fun hf => ?_
  rw [show MetadataPath.fromRole .timestamp = "timestamp".toList from rfl, f1] at hf
  cases hf
  refine Tri.bind (Q := fun _ s => s.tuf = s0.tuf) (Tri.getClock fun s hs => hs) fun clk => ?_
  refine (finish_patchy (E := E) (R := R) (t := s0.tuf)
    (Q := fun t => OnTheWay E cfg file r ts sn ta t ∧ t.root = r)
    (X := fun t => OnTheWay E cfg file r ts sn ta t ∧ t.root = r) ?_ fun _ h => h).conseq
    (fun _ h => h) (fun _ _ h => h) (fun _ _ h => h.1)
  intro o' t' hst
  have hc := step_case E s0.tuf (.timestamp clk rawTs)
  rw [hst] at hc
  cases hc with
  | failed | same => exact ⟨h0, hroot⟩
  | timestampExpired =>
    exact ⟨⟨h0.roots, fun _ => ⟨hb.timestamp, fun x hx => (by cases hx), hb.targets⟩⟩, hroot⟩
  | timestamp _ _ new hr =>
    have := authentic_unique hr.signed a1
    subst this
    refine ⟨⟨h0.roots, fun _ => ⟨fun x _ hx => .inl ?_, fun x hx => ?_, hb.targets⟩⟩, hroot⟩
    · cases hx; rfl
    · simp only at hx
      split at hx
      · exact hb.snapshot x hx
      · cases hx

theorem updateSnapshot_patchy (hP : Patchy R file) (c : Bool) (hc : c = r.consistentSnapshot) :
    Tri (fun s : St W => OnTheWay E cfg file r ts sn ta s.tuf ∧ s.tuf.root = r)
      (updateSnapshotWithRepos E D R .remote true c)
      (fun _ s => OnTheWay E cfg file r ts sn ta s.tuf ∧ s.tuf.root = r)
      (fun _ s => OnTheWay E cfg file r ts sn ta s.tuf) := by
  refine Tri.fix fun s0 h0' => ?_
  obtain ⟨h0, hroot⟩ := h0'
  have hb := h0.behind hroot
  obtain ⟨rawSn, f2, d2, a2⟩ := hp.snapshot
  unfold updateSnapshotWithRepos
  refine Tri.bind (getTuf_tuf s0.tuf fun _ hs => by rw [hs]) fun t' => Tri.assume fun ht' => ?_
  subst ht'
  cases hts : s0.tuf.timestamp with
  | none => exact Tri.fail fun s hs => by rw [hs]; exact h0
  | some x =>
    dsimp only
    refine Tri.ite (fun _ => Tri.ret fun s hs => by rw [hs]; exact ⟨h0, hroot⟩) (fun _ => ?_)
    refine Tri.bind (Q := fun _ s => s = s0) (Tri.ofExcept (fun p s h hs => hs)
      (fun _ _ _ hs => by rw [hs]; exact h0)) fun p => ?_
    obtain ⟨a, v⟩ := p
    dsimp only
    refine Tri.bind ((fetch_patchy (D := D) hP (role := .snapshot) (p := MetadataPath.fromRole .snapshot)
      (.inr (.inr (.inl rfl))) s0.tuf).conseq (fun s hs => by rw [hs]) (fun _ _ h => h)
      (fun _ _ h => by rw [h.2]; exact h0)) fun raw => Tri.assume fun hf => ?_
    refine Tri.bind (Q := fun _ s => s.tuf = s0.tuf) (Tri.getClock fun s hs => hs) fun clk => ?_
    refine (finish_patchy (E := E) (R := R) (t := s0.tuf)
      (Q := fun t => OnTheWay E cfg file r ts sn ta t ∧ t.root = r)
      (X := fun t => OnTheWay E cfg file r ts sn ta t ∧ t.root = r) ?_ fun _ h => h).conseq
      (fun _ h => h) (fun _ _ h => h) (fun _ _ h => h.1)
    intro o' t' hst
    have hcase := step_case E s0.tuf (.snapshot clk raw)
    rw [hst] at hcase
    cases hcase with
    | failed | same => exact ⟨h0, hroot⟩
    | snapshot _ _ new _ hr hpost =>
      obtain ⟨ts', e1, _, _, e2⟩ := hr.announced
      rw [hts] at e1
      cases e1
      refine ⟨⟨by rw [hpost.root]; exact h0.roots, fun _ => ⟨fun y _ hy => ?_, fun y hy hv => ?_,
        fun y hy => ?_⟩⟩, by rw [hpost.root, hroot]⟩
      · rw [hpost.timestamp] at hy
        exact hb.timestamp y (by rw [hroot]) hy
      · rw [hpost.snapshot] at hy
        cases hy
        rw [← e2, hv, hc, show MetadataPath.fromRole .snapshot = "snapshot".toList from rfl,
          show versionFor r.consistentSnapshot sn.version = publishedAs r sn.version from rfl, f2] at hf
        cases hf
        exact authentic_unique hr.signed a2
      · by_cases hv : verOf (·.version) s0.tuf.targets = listed new targetsName
        · rw [hpost.targetsKept hv] at hy
          exact hb.targets y hy
        · rw [hpost.targetsDropped hv] at hy; cases hy

theorem updateTargets_patchy (hP : Patchy R file) (c : Bool) (hc : c = r.consistentSnapshot) :
    Tri (fun s : St W => OnTheWay E cfg file r ts sn ta s.tuf ∧ s.tuf.root = r)
      (updateTargetsWithRepos E D R .remote true c)
      (fun _ s => OnTheWay E cfg file r ts sn ta s.tuf ∧ s.tuf.root = r)
      (fun _ s => OnTheWay E cfg file r ts sn ta s.tuf) := by
  refine Tri.fix fun s0 h0' => ?_
  obtain ⟨h0, hroot⟩ := h0'
  have hb := h0.behind hroot
  obtain ⟨rawTa, m, g3, v3, f3, d3, a3⟩ := hp.targets
  unfold updateTargetsWithRepos
  refine Tri.bind (getTuf_tuf s0.tuf fun _ hs => by rw [hs]) fun t' => Tri.assume fun ht' => ?_
  subst ht'
  cases hsn : s0.tuf.snapshot with
  | none => exact Tri.fail fun s hs => by rw [hs]; exact h0
  | some x =>
    dsimp only
    cases hm : x.metas.get? (MetadataPath.fromRole .targets) with
    | none => exact Tri.fail fun s hs => by rw [hs]; exact h0
    | some dsc =>
      dsimp only
      refine Tri.ite (fun _ => Tri.ret fun s hs => by rw [hs]; exact ⟨h0, hroot⟩) (fun _ => ?_)
      refine Tri.bind (Q := fun _ s => s = s0) (Tri.ofExcept (fun p s h hs => hs)
        (fun _ _ _ hs => by rw [hs]; exact h0)) fun p => ?_
      obtain ⟨a, v⟩ := p
      dsimp only
      refine Tri.bind ((fetch_patchy (D := D) hP (role := .targets) (p := MetadataPath.fromRole .targets)
        (.inr (.inr (.inr rfl))) s0.tuf).conseq (fun s hs => by rw [hs]) (fun _ _ h => h)
        (fun _ _ h => by rw [h.2]; exact h0)) fun raw => Tri.assume fun hf => ?_
      refine Tri.bind (Q := fun _ s => s.tuf = s0.tuf) (Tri.getClock fun s hs => hs) fun clk => ?_
      refine (finish_patchy (E := E) (R := R) (t := s0.tuf)
        (Q := fun t => OnTheWay E cfg file r ts sn ta t ∧ t.root = r)
        (X := fun t => OnTheWay E cfg file r ts sn ta t ∧ t.root = r) ?_ fun _ h => h).conseq
        (fun _ h => h) (fun _ _ h => h) (fun _ _ h => h.1)
      intro o' t' hst
      have hcase := step_case E s0.tuf (.targets clk raw)
      rw [hst] at hcase
      cases hcase with
      | failed | same => exact ⟨h0, hroot⟩
      | targets _ _ new hr =>
        obtain ⟨sn', m', e1, _, e2, _, e3⟩ := hr.announced
        rw [hsn] at e1
        cases e1
        rw [show MetadataPath.fromRole .targets = targetsName from rfl, e2] at hm
        cases hm
        refine ⟨⟨h0.roots, fun _ => ⟨hb.timestamp, hb.snapshot, fun y hy hv => ?_⟩⟩, hroot⟩
        cases hy
        rw [← e3, hv, hc, show MetadataPath.fromRole .targets = "targets".toList from rfl,
          show versionFor r.consistentSnapshot ta.version = publishedAs r ta.version from rfl, f3] at hf
        cases hf
        exact authentic_unique hr.signed a3

theorem exec_patchy (hP : Patchy R file) (c : Call) :
    Keeps (fun s : St W => OnTheWay E cfg file r ts sn ta s.tuf) (exec E D R cfg c) := by
  by_cases hc : c = .update
  · subst hc
    have hup : Keeps (fun s : St W => OnTheWay E cfg file r ts sn ta s.tuf) (update E D R cfg) := by
      unfold update
      refine Tri.bind (updateRoot_patchy hP) fun b1 => ?_
      refine Tri.bind (updateTimestamp_patchy hp hP) fun b2 => ?_
      refine Tri.bind (Q := fun t s => t.root = r ∧ OnTheWay E cfg file r ts sn ta s.tuf ∧
        s.tuf.root = r) (fun s hs => ⟨hs.2, hs⟩) fun t => Tri.assume fun ht => ?_
      refine Tri.bind (updateSnapshot_patchy hp hP _ (by rw [ht])) fun b3 => ?_
      refine Tri.bind (Q := fun t s => t.root = r ∧ OnTheWay E cfg file r ts sn ta s.tuf ∧
        s.tuf.root = r) (fun s hs => ⟨hs.2, hs⟩) fun t => Tri.assume fun ht => ?_
      exact Tri.bind (updateTargets_patchy hp hP _ (by rw [ht])) fun b4 => Tri.ret fun _ h => h.1
    exact hup.bind fun _ => Keeps.ret _
  · refine exec_walk _ (Tri.getClock fun s hs => hs) ?_ ?_ c hc
    · intro α m s hs
      unfold lift
      cases hq : m s.io with
      | mk x io' => cases x <;> exact hs
    · intro w parent role raw
      refine Tri.updateTuf fun s o' t' hs hst => ?_
      have hcase := step_case E s.tuf (.delegation (R.clock w).1 parent role raw)
      rw [hst] at hcase
      have : OnTheWay E cfg file r ts sn ta t' := by
        cases hcase with
        | failed | same => exact hs
        | delegation => exact ⟨hs.roots, fun h => ⟨(hs.behind h).timestamp, (hs.behind h).snapshot,
            (hs.behind h).targets⟩⟩
      cases o' <;> exact this

end patchy

theorem patchy_drop {R : World W} {file : Files} (h : Patchy R file) : Patchy (dropAfter R) file where
  complete := by
    rintro p v m hh ⟨w, n⟩ evs bs ht hf hd
    cases n with
    | zero => cases hf
    | succ k => exact h.complete p v m hh w evs bs ht hf hd
  missing := by
    rintro v m hh ⟨w, n⟩ hf
    cases n with
    | zero => cases hf
    | succ k => exact h.missing v m hh w hf
  cut := by
    rintro v m hh ⟨w, n⟩ evs bs hf hd
    cases n with
    | zero => cases hf
    | succ k => exact h.cut v m hh w evs bs hf hd

/-- Honest repositories with a reliable connection are a special case. -/
theorem patchy_of_serves {R : World W} {file : Files} (h : Serves R file) : Patchy R file where
  complete := by
    intro p v m hh w evs bs ht hf hd
    cases hb : file p v with
    | none => rw [h.absent p v m hh w ht hb] at hf; cases hf
    | some b =>
      obtain ⟨evs', e1, e2⟩ := h.present p v m hh w b ht hb
      rw [e1] at hf; cases hf
      rw [e2] at hd; cases hd; rfl
  missing := by
    intro v m hh w hf
    cases hb : file "root".toList v with
    | none => rfl
    | some b =>
      obtain ⟨evs', e1, e2⟩ := h.present _ v m hh w b (.inl rfl) hb
      rw [e1] at hf; cases hf
  cut := by
    intro v m hh w evs bs hf hd
    cases hb : file "root".toList v with
    | none => rfl
    | some b =>
      obtain ⟨evs', e1, e2⟩ := h.present _ v m hh w b (.inl rfl) hb
      rw [e1] at hf; cases hf
      rw [e2] at hd; cases hd

/-- What an attempt leaves behind. -/
theorem attempt_tr (E : Env) (D : Digest) (cfg : Config) (s : St W) (a : Attempt W) :
    ∃ l, (a.run E D cfg s).io.log = s.io.log ++ l ∧ (a.run E D cfg s).tuf = after E s.tuf l := by
  unfold Attempt.run
  cases a.dropped with
  | none =>
    obtain ⟨l, h1, _, h2⟩ := execAll_tr (R := a.world) (E := E) (D := D) (cfg := cfg) (t0 := s.tuf)
      (L0 := s.io.log) [a.call] s ⟨[], by simp, Good.nil, rfl⟩
    exact ⟨l, h1, h2⟩
  | some n =>
    obtain ⟨l, h1, _, h2⟩ := execAll_tr (R := dropAfter a.world) (E := E) (D := D) (cfg := cfg)
      (t0 := s.tuf) (L0 := s.io.log) [a.call] ⟨s.tuf, ⟨(s.io.w, n), s.io.log⟩⟩
      ⟨[], by simp, Good.nil, rfl⟩
    exact ⟨l, h1, h2⟩

theorem attempts_patchy {E : Env} {D : Digest} {cfg : Config} {file : Files} {r : RootMetadata}
    {ts : TimestampMetadata} {sn : SnapshotMetadata} {ta : TargetsMetadata}
    (hp : Published E D cfg file r ts sn ta) (l : List (Attempt W)) : ∀ s : St W,
    (∀ a ∈ l, Patchy a.world file) → Reachable E s.tuf → OnTheWay E cfg file r ts sn ta s.tuf →
    Reachable E (attempts E D cfg s l).tuf ∧ OnTheWay E cfg file r ts sn ta (attempts E D cfg s l).tuf := by
  induction l with
  | nil => exact fun s _ h1 h2 => ⟨h1, h2⟩
  | cons a l ih =>
    intro s hl hr hw
    have hP := hl a (List.mem_cons_self ..)
    refine ih (a.run E D cfg s) (fun b hb => hl b (List.mem_cons_of_mem _ hb)) ?_ ?_
    · obtain ⟨l, _, e⟩ := attempt_tr E D cfg s a
      rw [e]
      obtain ⟨t0, ops, h1, h2⟩ := hr
      exact ⟨t0, ops ++ opsOf l, h1, by rw [after, h2]; simp [run, List.foldl_append]⟩
    · unfold Attempt.run
      cases a.dropped with
      | none => exact (exec_patchy hp hP a.call).run hw
      | some n =>
        exact (exec_patchy hp (patchy_drop hP) a.call).run
          (s := ⟨s.tuf, ⟨(s.io.w, n), s.io.log⟩⟩) hw

/-- **C100.** A client that asks an honest repository over unreliable connections, and whose calls may
be given up at any request, still gets there: after any such attempts, an update over a working
connection succeeds, and the client trusts exactly what is published. -/
theorem C100_interrupted_calls_can_be_repeated (E : Env) (hE : Decoders E) (D : Digest) (cfg : Config)
    (file : Files) (s : St W) (hr : Reachable E s.tuf) (r : RootMetadata) (ts : TimestampMetadata)
    (sn : SnapshotMetadata) (ta : TargetsMetadata) (hroots : Roots E cfg file s.tuf.root r)
    (hp : Published E D cfg file r ts sn ta) (hb : s.tuf.root = r → Behind s.tuf r ts sn ta)
    (l : List (Attempt W)) (hl : ∀ a ∈ l, Patchy a.world file)
    (R : World W) (hS : Serves R file) (hW : Writable R)
    (hclk : Before R r.expires ∧ Before R ts.expires ∧ Before R sn.expires ∧ Before R ta.expires) :
    ∃ b s', update E D R cfg (attempts E D cfg s l) = (.ok b, s') ∧ s'.tuf.root = r ∧
      s'.tuf.timestamp = some ts ∧ s'.tuf.snapshot = some sn ∧ s'.tuf.targets = some ta := by
  obtain ⟨h1, h2⟩ := attempts_patchy hp l s hl hr ⟨hroots, hb⟩
  exact honest_update E hE D R cfg file _ h1 r ts sn ta hS hW h2.roots hp h2.behind hclk

/-- **C100.** A call that is given up did an initial part of what the whole call does: its requests,
writes and updates are the first ones of the whole call, and the client trusts what these updates
amount to. If the call was not given up before its end, it did everything and answered the same. -/
theorem C100_dropped_call_is_an_initial_part (E : Env) (D : Digest) (cfg : Config) (R : World W) (c : Call)
    (s : St W) (n : Nat) :
    ∃ l l', (Attempt.run E D cfg s ⟨R, c, some n⟩).io.log = s.io.log ++ l ∧
      (exec E D R cfg c s).2.io.log = s.io.log ++ (l ++ l') ∧
      (Attempt.run E D cfg s ⟨R, c, some n⟩).tuf = after E s.tuf l ∧
      ((exec E D (dropAfter R) cfg c ⟨s.tuf, ⟨(s.io.w, n), s.io.log⟩⟩).1 ≠ .error .panic →
        Attempt.run E D cfg s ⟨R, c, some n⟩ = (exec E D R cfg c s).2 ∧
        (exec E D (dropAfter R) cfg c ⟨s.tuf, ⟨(s.io.w, n), s.io.log⟩⟩).1 = (exec E D R cfg c s).1) := by
  obtain ⟨l, e1, e2⟩ := attempt_tr E D cfg s ⟨R, c, some n⟩
  have hc : ((exec E D (dropAfter R) cfg c ⟨s.tuf, ⟨(s.io.w, n), s.io.log⟩⟩).1 = (exec E D R cfg c s).1 ∧
      Attempt.run E D cfg s ⟨R, c, some n⟩ = (exec E D R cfg c s).2) ∨
      ((exec E D (dropAfter R) cfg c ⟨s.tuf, ⟨(s.io.w, n), s.io.log⟩⟩).1 = .error .panic ∧
      (Attempt.run E D cfg s ⟨R, c, some n⟩).io.log <+: (exec E D R cfg c s).2.io.log) :=
    (Cut.exec R D E cfg c).cut ⟨s.tuf, ⟨(s.io.w, n), s.io.log⟩⟩
  rcases hc with ⟨h1, h2⟩ | ⟨h1, h2⟩
  · refine ⟨l, [], e1, ?_, e2, fun _ => ⟨h2, h1⟩⟩
    rw [← h2, e1, List.append_nil]
  · obtain ⟨l', h3⟩ := h2
    refine ⟨l, l', e1, ?_, e2, fun h => absurd h1 h⟩
    rw [← h3, e1, List.append_assoc]

/-- A connection over which the requests fail that are made at odd times. -/
def flaky (R : World W) (odd : W → Bool) : World W :=
  { R with
    remote :=
      { R.remote with
        fetchMetadata := fun p v m h w =>
          if odd w then (.error .opaqueErr, w) else R.remote.fetchMetadata p v m h w } }

theorem flaky_patchy {R : World W} {file : Files} (h : Patchy R file) (odd : W → Bool) :
    Patchy (flaky R odd) file where
  complete := by
    intro p v m hh w evs bs ht hf hd
    simp only [flaky] at hf
    split at hf
    · cases hf
    · exact h.complete p v m hh w evs bs ht hf hd
  missing := by
    intro v m hh w hf
    simp only [flaky] at hf
    split at hf
    · cases hf
    · exact h.missing v m hh w hf
  cut := by
    intro v m hh w evs bs hf hd
    simp only [flaky] at hf
    split at hf
    · cases hf
    · exact h.cut v m hh w evs bs hf hd

/-- Attempts of the toy client: the connection fails after root 2 is stored, then the call is dropped
while the timestamp is stored. -/
def toyAttempts : List (Attempt Toy.Disk) :=
  [⟨flaky Toy.remoteRepo fun w => !w.metas.isEmpty, .update, none⟩, ⟨Toy.remoteRepo, .update, some 2⟩]

/-- C100_interrupted_calls_can_be_repeated applies to them, and they are interrupted where the comment
says. The other hypotheses are those of C73 and are met by the toy repository, see there. -/
example : (∀ a ∈ toyAttempts, Patchy a.world fun p v => Toy.remoteFiles.get? (p, v)) ∧
    (attempts Toy.env Toy.digest Toy.config Toy.client0 (toyAttempts.take 1)).tuf.root.version = 2 ∧
    (attempts Toy.env Toy.digest Toy.config Toy.client0 (toyAttempts.take 1)).tuf.timestamp = none ∧
    (attempts Toy.env Toy.digest Toy.config Toy.client0 toyAttempts).tuf.timestamp ≠ none ∧
    (attempts Toy.env Toy.digest Toy.config Toy.client0 toyAttempts).tuf.snapshot = none := by
  have h : Patchy Toy.remoteRepo fun p v => Toy.remoteFiles.get? (p, v) :=
    patchy_of_serves (toy_serves _ _ _ _ fun _ _ => rfl)
  refine ⟨fun a ha => ?_, by decide +kernel, by decide +kernel, by decide +kernel, by decide +kernel⟩
  simp only [toyAttempts, List.mem_cons, List.not_mem_nil, or_false] at ha
  rcases ha with rfl | rfl
  · exact flaky_patchy h _
  · exact h

/-- A dropped call that ended early and one that did not. -/
example :
    (exec Toy.env Toy.digest (dropAfter Toy.remoteRepo) Toy.config .update
      ⟨Toy.boot, ⟨(Toy.Disk.empty, 5), []⟩⟩).1 = .error .panic ∧
    (exec Toy.env Toy.digest (dropAfter Toy.remoteRepo) Toy.config .update
      ⟨Toy.boot, ⟨(Toy.Disk.empty, 50), []⟩⟩).1 = .ok (.updated true) :=
  ⟨by decide +kernel, by decide +kernel⟩

/-- The toy client after a dropped update and two complete ones. -/
def lateStart : St Toy.Disk :=
  attempts Toy.env Toy.digest Toy.config Toy.client0
    [⟨Toy.remoteRepo, .update, some 5⟩, ⟨Toy.remoteRepo, .update, none⟩, ⟨Toy.remoteRepo, .update, none⟩]

/-- **Limit of C100.** A write that was missed is not made up for: here an update is given up while it
stores the timestamp. The client trusts the timestamp already, so later updates do not store it. After
two complete updates, which find nothing wrong, the local repository has the snapshot and the targets
metadata but no timestamp, and a restarted client trusts no timestamp. It has forgotten which
versions it knew. -/
theorem C100_missed_write_is_not_made_up :
    lateStart.tuf.timestamp = some (Toy.timestamp 1 500 1) ∧ lateStart.tuf.targets ≠ none ∧
    (exec Toy.env Toy.digest Toy.remoteRepo Toy.config .update lateStart).1 = .ok (.updated false) ∧
    lateStart.io.w.metas.get? ("snapshot".toList, .none) = some [20] ∧
    lateStart.io.w.metas.get? ("timestamp".toList, .none) = none ∧
    ∃ t' io', construct Toy.env Toy.digest Toy.remoteRepo Toy.config (.trustedRoot [1]) lateStart.io =
      (.ok t', io') ∧ t'.timestamp = none ∧ t'.snapshot = none :=
  ⟨by decide +kernel, by decide +kernel, by decide +kernel, by decide +kernel, by decide +kernel,
    Tuf.ofRoot (Toy.root 2 1000), _, Prod.ext (by decide +kernel) rfl, rfl, rfl⟩

end RustTuf.Props
