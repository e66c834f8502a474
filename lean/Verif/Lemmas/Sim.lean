import Verif.Model.Client

/-!
# Clients in two worlds
If two worlds give the same answers to all requests that a client makes, then the client does the
same in both.
-/

namespace RustTuf
open Client

/-- Two pieces of code of the outside world give the same answer and stay related. -/
def Same {W W' α : Type} (rel : W → W' → Prop) (x : α × W) (y : α × W') : Prop :=
  x.1 = y.1 ∧ rel x.2 y.2

/-- The worlds agree on the local files and targets in question, and on everything else. -/
structure Agree {W W' : Type} (rel : W → W' → Prop) (okName : MetadataPath → MetadataVersion → Prop)
    (okTarget : TargetPath → Prop) (R : World W) (R' : World W') : Prop where
  cache : ∀ p v m h w w', okName p v → rel w w' →
    Same rel (R.cache.fetchMetadata p v m h w) (R'.cache.fetchMetadata p v m h w')
  remote : ∀ p v m h w w', rel w w' →
    Same rel (R.remote.fetchMetadata p v m h w) (R'.remote.fetchMetadata p v m h w')
  target : ∀ p d w w', rel w w' → Same rel (R.remote.fetchTarget p d w) (R'.remote.fetchTarget p d w')
  store : ∀ p v b w w', okName p v → rel w w' →
    Same rel (R.storeMetadata p v b w) (R'.storeMetadata p v b w')
  storeTarget : ∀ evs p w w', okTarget p → rel w w' →
    Same rel (R.storeTarget evs p w) (R'.storeTarget evs p w')
  write : ∀ b w w', rel w w' → Same rel (R.write b w) (R'.write b w')
  flush : ∀ w w', rel w w' → Same rel (R.flush w) (R'.flush w')
  clock : ∀ w w', rel w w' → Same rel (R.clock w) (R'.clock w')

/-- A request that is about the local files and targets in question, or about none. -/
def Allowed (okName : MetadataPath → MetadataVersion → Prop) (okTarget : TargetPath → Prop) :
    LogEntry → Prop
  | .fetch .cache p v _ _ => okName p v
  | .store p v _ => okName p v
  | .storeTarget p => okTarget p
  | _ => True

/-- A request that is not about delegated roles or targets. -/
def Top : LogEntry → Prop
  | .fetch _ p _ _ _ => ∃ r : Role, p = MetadataPath.fromRole r
  | .store p _ _ => ∃ r : Role, p = MetadataPath.fromRole r
  | .storeTarget _ => False
  | _ => True

/-- Codes that do the same as long as only allowed requests are made. -/
structure Sim {σ σ' α : Type} (log : σ → List LogEntry) (rel : σ → σ' → Prop) (ok : LogEntry → Prop)
    (m : M σ α) (m' : M σ' α) : Prop where
  grows : ∀ s, log s <+: log (m s).2
  same : ∀ s s', rel s s' → (∀ e ∈ log (m s).2, ok e) → Same rel (m s) (m' s')

namespace Sim
variable {σ σ' α β : Type} {log : σ → List LogEntry} {rel : σ → σ' → Prop} {ok : LogEntry → Prop}

theorem bind {m : M σ α} {m' : M σ' α} {f : α → M σ β} {f' : α → M σ' β} (h : Sim log rel ok m m')
    (hf : ∀ a, Sim log rel ok (f a) (f' a)) : Sim log rel ok (m >>= f) (m' >>= f') := by
  have e : ∀ s, (m >>= f) s = match m s with
    | (.ok a, s') => f a s'
    | (.error e, s') => (.error e, s') := fun _ => rfl
  have e' : ∀ s, (m' >>= f') s = match m' s with
    | (.ok a, s') => f' a s'
    | (.error e, s') => (.error e, s') := fun _ => rfl
  constructor
  · intro s
    have h1 := h.grows s
    rw [e]
    cases hm : m s with
    | mk r s1 =>
      rw [hm] at h1
      cases r with
      | ok a => exact h1.trans ((hf a).grows s1)
      | error x => exact h1
  · intro s s' hr hok
    have h1 := h.same s s' hr
    rw [e] at hok ⊢
    rw [e']
    cases hm : m s with
    | mk r s1 =>
      rw [hm] at h1 hok
      cases hm' : m' s' with
      | mk r' s1' =>
        rw [hm'] at h1
        cases r with
        | error x =>
          obtain ⟨h2, h3⟩ := h1 hok
          cases h2
          exact ⟨rfl, h3⟩
        | ok a =>
          obtain ⟨h2, h3⟩ := h1 fun x hx => hok x (((hf a).grows s1).subset hx)
          cases h2
          exact (hf a).same s1 s1' h3 hok

theorem ofExcept (r : Except Err α) : Sim log rel ok (M.ofExcept r) (M.ofExcept r) :=
  ⟨fun _ => List.prefix_refl _, fun _ _ h _ => ⟨rfl, h⟩⟩

theorem ret (a : α) : Sim log rel ok (Pure.pure a : M σ α) (Pure.pure a) :=
  ⟨fun _ => List.prefix_refl _, fun _ _ h _ => ⟨rfl, h⟩⟩

theorem ret' (a : α) : Sim log rel ok (M.pure a : M σ α) (M.pure a) :=
  ⟨fun _ => List.prefix_refl _, fun _ _ h _ => ⟨rfl, h⟩⟩

theorem fail (e : Err) : Sim log rel ok (M.fail e : M σ α) (M.fail e) :=
  ⟨fun _ => List.prefix_refl _, fun _ _ h _ => ⟨rfl, h⟩⟩

theorem attempt {m : M σ α} {m' : M σ' α} (h : Sim log rel ok m m') :
    Sim log rel ok (M.attempt m) (M.attempt m') := by
  classical
  have e : ∀ {σ : Type} (m : M σ α) s, M.attempt m s =
      (if (m s).1 = .error .panic then .error .panic else .ok (m s).1, (m s).2) := by
    intro σ m s
    cases hm : m s with
    | mk r s' =>
      cases r with
      | ok a => rw [M.attempt_ok hm]; simp
      | error x =>
        by_cases hx : x = .panic
        · subst hx; rw [M.attempt_panic hm]; simp
        · rw [M.attempt_error hm hx]; simp [hx]
  constructor
  · intro s; rw [e]; exact h.grows s
  · intro s s' hr hok
    rw [e] at hok
    obtain ⟨h1, h2⟩ := h.same s s' hr hok
    rw [e, e]
    exact ⟨by rw [h1], h2⟩

theorem when {b : Bool} {m : M σ Unit} {m' : M σ' Unit} (h : Sim log rel ok m m') :
    Sim log rel ok (M.when b m) (M.when b m') := by
  unfold M.when
  cases b with
  | true => exact h
  | false => exact ret' _

theorem ite {c : Prop} [Decidable c] {m n : M σ α} {m' n' : M σ' α} (h : Sim log rel ok m m')
    (h' : Sim log rel ok n n') : Sim log rel ok (if c then m else n) (if c then m' else n') := by
  split
  · exact h
  · exact h'

end Sim

section world
variable {W W' : Type} {rel : W → W' → Prop} {okName : MetadataPath → MetadataVersion → Prop}
  {okTarget : TargetPath → Prop} {R : World W} {R' : World W'} {α : Type}
  {ok : LogEntry → Prop}

/-- Related outsides, and the same record. -/
def IoRel (rel : W → W' → Prop) (io : Io W) (io' : Io W') : Prop := io.log = io'.log ∧ rel io.w io'.w

/-- The same client in related outsides. -/
def StRel (rel : W → W' → Prop) (s : St W) (s' : St W') : Prop := s.tuf = s'.tuf ∧ IoRel rel s.io s'.io

variable (rel) (ok : LogEntry → Prop) in
/-- Codes of repositories that do the same. -/
abbrev IoSim (m : M (Io W) α) (m' : M (Io W') α) : Prop :=
  Sim Io.log (IoRel rel) ok m m'

variable (rel) (ok : LogEntry → Prop) in
/-- Codes of clients that do the same. -/
abbrev StSim (m : M (St W) α) (m' : M (St W') α) : Prop :=
  Sim (fun s => s.io.log) (StRel rel) ok m m'

theorem IoSim.note (e : LogEntry) : IoSim rel ok (Io.note e) (Io.note e) :=
  ⟨fun _ => List.prefix_append _ _, fun s s' h _ =>
    ⟨rfl, by show s.log ++ [e] = s'.log ++ [e]; rw [h.1], h.2⟩⟩

/-- A request that is recorded before it is made. -/
theorem IoSim.request (e : LogEntry) {f : W → Except Err α × W} {f' : W' → Except Err α × W'}
    (h : ok e → ∀ w w', rel w w' → Same rel (f w) (f' w')) :
    IoSim rel ok (do Io.note e; Io.call f) (do Io.note e; Io.call f') := by
  constructor
  · exact fun s => List.prefix_append _ _
  · intro s s' hr hok
    have := h (hok e (by show e ∈ s.log ++ [e]; simp)) s.w s'.w hr.2
    exact ⟨this.1, by show s.log ++ [e] = s'.log ++ [e]; rw [hr.1], this.2⟩

theorem StSim.lift {m : M (Io W) α} {m' : M (Io W') α} (h : IoSim rel ok m m') :
    StSim rel ok (lift m) (lift m') := by
  constructor
  · exact fun s => h.grows s.io
  · intro s s' hr hok
    obtain ⟨h1, h2⟩ := h.same s.io s'.io hr.2 hok
    exact ⟨h1, hr.1, h2⟩

theorem StSim.getTuf {f : Tuf → M (St W) α} {f' : Tuf → M (St W') α}
    (h : ∀ t, StSim rel ok (f t) (f' t)) :
    StSim rel ok (getTuf >>= f) (getTuf >>= f') :=
  Sim.bind ⟨fun _ => List.prefix_refl _, fun s s' hr _ => ⟨by show Except.ok s.tuf = .ok s'.tuf; rw [hr.1], hr⟩⟩ h

theorem StSim.updateTuf (E : Env) (op : Tuf.Op) :
    StSim rel ok (updateTuf E op) (updateTuf E op) := by
  constructor
  · intro s
    unfold Client.updateTuf
    cases Tuf.step E s.tuf op with
    | mk o t' => cases o <;> exact List.prefix_append _ _
  · intro s s' hr hok
    unfold Client.updateTuf
    rw [← hr.1]
    cases Tuf.step E s.tuf op with
    | mk o t' =>
      have : s.io.log ++ [.op op o] = s'.io.log ++ [.op op o] := by rw [hr.2.1]
      cases o <;> exact ⟨rfl, rfl, this, hr.2.2⟩

variable (D : Digest) (h : Agree rel okName okTarget R R')
include h

theorem Agree.getClock : StSim rel ok (getClock R) (getClock R') :=
  ⟨fun _ => List.prefix_refl _, fun s s' hr _ =>
    have := h.clock s.io.w s'.io.w hr.2.2
    ⟨by show Except.ok _ = .ok _; rw [this.1], hr.1, hr.2.1, this.2⟩⟩

theorem Agree.fetchMetadata (src : Source) (role : Role) (p : MetadataPath) (v : MetadataVersion)
    (m : Option Nat) (hash : HashData)
    (ha : ok (.fetch src p v m hash) → Allowed okName okTarget (.fetch src p v m hash)) :
    IoSim rel ok (fetchMetadata D R src role p v m hash)
      (fetchMetadata D R' src role p v m hash) := by
  have e : ∀ {V : Type} (Q : World V), RustTuf.fetchMetadata D Q src role p v m hash = (do
      M.ofExcept (checkRole role p)
      let evs ← (do
        Io.note (.fetch src p v m hash)
        Io.call ((Q.provider src).fetchMetadata p v m hash))
      let raw ← M.ofExcept (readChecked D (m.getD usizeMax) hash evs)
      Io.note (.got src p raw)
      return raw) := by
    intro V Q
    funext io
    unfold RustTuf.fetchMetadata
    show M.bind _ _ io = M.bind _ _ io
    unfold M.bind M.ofExcept
    cases checkRole role p <;> rfl
  rw [e, e]
  refine (Sim.ofExcept _).bind fun _ => (IoSim.request _ ?_).bind fun evs =>
    (Sim.ofExcept _).bind fun raw => (IoSim.note _).bind fun _ => Sim.ret _
  intro hok w w' hr
  cases src with
  | remote => exact h.remote _ _ _ _ _ _ hr
  | cache => exact h.cache _ _ _ _ _ _ (ha hok) hr

theorem Agree.storeMetadata (role : Role) (p : MetadataPath) (v : MetadataVersion) (raw : Bytes)
    (ha : ok (.store p v raw) → okName p v) :
    IoSim rel ok (storeMetadata R role p v raw) (storeMetadata R' role p v raw) := by
  unfold RustTuf.storeMetadata
  exact (Sim.ofExcept _).bind fun _ =>
    IoSim.request (.store p v raw) fun hok w w' hr => h.store _ _ _ _ _ (ha hok) hr

theorem Agree.fetchTargetStream (p : TargetPath) (d : TargetDescription) :
    IoSim rel ok (fetchTargetStream D R p d) (fetchTargetStream D R' p d) := by
  have e : ∀ {V : Type} (Q : World V), RustTuf.fetchTargetStream D Q p d = (do
      let (alg, value) ← M.ofExcept (hashPreference d.hashes)
      let evs ← (do
        Io.note (.fetchTarget p)
        Io.call (Q.remote.fetchTarget p d))
      let s ← M.ofExcept (SafeReader.new d.length (some (alg, value)))
      return s.polls D (evs ++ [.data []])) := by
    intro V Q
    funext io
    unfold RustTuf.fetchTargetStream
    show M.bind _ _ io = M.bind _ _ io
    unfold M.bind M.ofExcept
    cases hashPreference d.hashes <;> rfl
  rw [e, e]
  exact (Sim.ofExcept _).bind fun _ => (IoSim.request _ fun _ w w' hr => h.target _ _ _ _ hr).bind
    fun evs => (Sim.ofExcept _).bind fun s => Sim.ret _

theorem Agree.saveTarget (evs : List Ev) (p : TargetPath) (ha : ok (.storeTarget p) → okTarget p) :
    IoSim rel ok (RustTuf.storeTarget R evs p) (RustTuf.storeTarget R' evs p) := by
  unfold RustTuf.storeTarget
  exact IoSim.request (.storeTarget p) fun hok w w' hr => h.storeTarget _ _ _ _ (ha hok) hr

theorem Agree.flushed : IoSim rel ok (copyToWriter R []) (copyToWriter R' []) := by
  constructor
  · intro s
    show s.log <+: (match R.flush s.w with
      | (.ok (), w') => ((.ok (), { s with w := w' }) : Except Err Unit × Io W)
      | (.error k, w') => (.error k.toErr, { s with w := w' })).2.log
    cases R.flush s.w with
    | mk r w => cases r <;> exact List.prefix_refl _
  · intro s s' hr _
    show Same _ (match R.flush s.w with
      | (.ok (), w') => ((.ok (), { s with w := w' }) : Except Err Unit × Io W)
      | (.error k, w') => (.error k.toErr, { s with w := w' })) (match R'.flush s'.w with
      | (.ok (), w') => ((.ok (), { s' with w := w' }) : Except Err Unit × Io W')
      | (.error k, w') => (.error k.toErr, { s' with w := w' }))
    have := h.flush s.w s'.w hr.2
    cases hf : R.flush s.w with
    | mk r w =>
      cases hf' : R'.flush s'.w with
      | mk r' w' =>
        rw [hf, hf'] at this
        obtain ⟨h1, h2⟩ := this
        cases h1
        cases r <;> exact ⟨rfl, hr.1, h2⟩

theorem Agree.copyToWriter (evs : List Ev) :
    IoSim rel ok (copyToWriter R evs) (copyToWriter R' evs) := by
  induction evs with
  | nil => exact h.flushed
  | cons e evs ih =>
    cases e with
    | pending => exact ih
    | err k => exact Sim.fail _
    | data bs =>
      by_cases hb : bs = []
      · subst hb
        exact h.flushed
      · have e : ∀ {V : Type} (Q : World V), RustTuf.copyToWriter Q (.data bs :: evs) = fun s =>
            match Q.write bs s.w with
            | (.ok (), w') => RustTuf.copyToWriter Q evs { w := w', log := s.log ++ [.wrote bs] }
            | (.error k, w') => (.error k.toErr, { s with w := w' }) := by
          intro V Q
          funext s
          show (if bs = [] then _ else _) = _
          rw [if_neg hb]
          cases Q.write bs s.w with
          | mk r w => cases r <;> rfl
        rw [e, e]
        constructor
        · intro s
          cases R.write bs s.w with
          | mk r w =>
            cases r with
            | error k => exact List.prefix_refl _
            | ok _ =>
              exact (List.prefix_append s.log [.wrote bs]).trans
                (ih.grows { w := w, log := s.log ++ [.wrote bs] })
        · intro s s' hr hok
          have := h.write bs s.w s'.w hr.2
          cases hf : R.write bs s.w with
          | mk r w =>
            cases hf' : R'.write bs s'.w with
            | mk r' w' =>
              rw [hf, hf'] at this
              rw [hf] at hok
              obtain ⟨h1, h2⟩ := this
              cases h1
              cases r with
              | error k => exact ⟨rfl, hr.1, h2⟩
              | ok _ =>
                refine ih.same _ _ ⟨?_, h2⟩ hok
                show s.log ++ _ = s'.log ++ _
                rw [hr.1]

/-! ### Client functions -/

variable (E : Env) (cfg : Config)

section top
variable (ha : ∀ e, Top e → ok e → Allowed okName okTarget e)
include ha

theorem Agree.rootLoop (src : Source) (persist : Bool) (fuel : Nat) : ∀ upd,
    StSim rel ok (rootLoop E D R cfg src persist fuel upd)
      (rootLoop E D R' cfg src persist fuel upd) := by
  induction fuel with
  | zero => exact fun _ => Sim.fail _
  | succ fuel ih =>
    intro upd
    unfold Client.rootLoop
    refine StSim.getTuf fun t => (Sim.ofExcept _).bind fun next => ?_
    refine (Sim.attempt (StSim.lift (h.fetchMetadata D _ _ _ _ _ _ (ha _ ⟨_, rfl⟩)))).bind fun r => ?_
    cases r with
    | error e => cases e <;> first | exact Sim.ret _ | exact Sim.fail _
    | ok raw =>
      refine (StSim.updateTuf E _).bind fun _ => ?_
      refine (Sim.when ?_).bind fun _ => ih true
      exact (StSim.lift (h.storeMetadata _ _ _ _ (ha (.store _ _ _) ⟨_, rfl⟩))).bind fun _ => StSim.lift (h.storeMetadata _ _ _ _ (ha (.store _ _ _) ⟨_, rfl⟩))

theorem Agree.updateRoot (src : Source) (persist : Bool) :
    StSim rel ok (updateRootWithRepos E D R cfg src persist)
      (updateRootWithRepos E D R' cfg src persist) := by
  unfold updateRootWithRepos
  refine (h.rootLoop D E cfg ha src persist _ _).bind fun b => ?_
  refine h.getClock.bind fun c => StSim.getTuf fun t => ?_
  exact Sim.ite (Sim.fail _) (Sim.ret _)

theorem Agree.finish (persist : Bool) (o : Tuf.Op) (role r : Role) (raw : Bytes) :
    StSim rel ok (do match ← updateTuf E o with
          | .changed =>
            M.when persist (lift (RustTuf.storeMetadata R role (MetadataPath.fromRole r) .none raw))
            return true
          | _ => return false) (do match ← updateTuf E o with
          | .changed =>
            M.when persist (lift (RustTuf.storeMetadata R' role (MetadataPath.fromRole r) .none raw))
            return true
          | _ => return false) := by
  refine (StSim.updateTuf E o).bind fun out => ?_
  cases out with
  | changed => exact (Sim.when (StSim.lift (h.storeMetadata _ _ _ _ (ha (.store _ _ _) ⟨_, rfl⟩)))).bind fun _ => Sim.ret _
  | unchanged => exact Sim.ret _
  | failed e => exact Sim.ret _

theorem Agree.updateTimestamp (src : Source) (persist : Bool) :
    StSim rel ok (updateTimestampWithRepos E D R cfg src persist)
      (updateTimestampWithRepos E D R' cfg src persist) := by
  unfold updateTimestampWithRepos
  refine (StSim.lift (h.fetchMetadata D _ _ _ _ _ _ (ha _ ⟨_, rfl⟩))).bind fun raw => h.getClock.bind fun c => ?_
  exact h.finish E ha persist _ _ _ _

theorem Agree.updateSnapshot (src : Source) (persist consistent : Bool) :
    StSim rel ok (updateSnapshotWithRepos E D R src persist consistent)
      (updateSnapshotWithRepos E D R' src persist consistent) := by
  unfold updateSnapshotWithRepos
  refine StSim.getTuf fun t => ?_
  cases t.timestamp with
  | none => exact Sim.fail _
  | some ts =>
    refine Sim.ite (Sim.ret _) ((Sim.ofExcept _).bind fun p => ?_)
    obtain ⟨a, v⟩ := p
    refine (StSim.lift (h.fetchMetadata D _ _ _ _ _ _ (ha _ ⟨_, rfl⟩))).bind fun raw => h.getClock.bind fun c => ?_
    exact h.finish E ha persist _ _ _ _

theorem Agree.updateTargets (src : Source) (persist consistent : Bool) :
    StSim rel ok (updateTargetsWithRepos E D R src persist consistent)
      (updateTargetsWithRepos E D R' src persist consistent) := by
  unfold updateTargetsWithRepos
  refine StSim.getTuf fun t => ?_
  cases t.snapshot with
  | none => exact Sim.fail _
  | some sn =>
    dsimp only
    cases sn.metas.get? (MetadataPath.fromRole .targets) with
    | none => exact Sim.fail _
    | some m =>
      refine Sim.ite (Sim.ret _) ((Sim.ofExcept _).bind fun p => ?_)
      obtain ⟨a, v⟩ := p
      refine (StSim.lift (h.fetchMetadata D _ _ _ _ _ _ (ha _ ⟨_, rfl⟩))).bind fun raw => h.getClock.bind fun c => ?_
      exact h.finish E ha persist _ _ _ _

theorem Agree.update : StSim rel ok (update E D R cfg) (update E D R' cfg) := by
  unfold Client.update
  refine (h.updateRoot D E cfg ha _ _).bind fun _ => ?_
  refine (h.updateTimestamp D E cfg ha _ _).bind fun _ => StSim.getTuf fun _ => ?_
  refine (h.updateSnapshot D E ha _ _ _).bind fun _ => StSim.getTuf fun _ => ?_
  exact (h.updateTargets D E ha _ _ _).bind fun _ => Sim.ret _

theorem Agree.loadLocal : StSim rel ok (loadLocal E D R cfg) (loadLocal E D R' cfg) := by
  unfold Client.loadLocal
  refine (h.updateRoot D E cfg ha _ _).bind fun _ => ?_
  refine (h.updateTimestamp D E cfg ha _ _).bind fun _ => ?_
  refine (h.updateSnapshot D E ha _ _ _).bind fun _ => ?_
  exact (h.updateTargets D E ha _ _ _).bind fun _ => Sim.ret _

theorem Agree.new (t : Tuf) :
    IoSim rel ok (Client.new E D R cfg t) (Client.new E D R' cfg t) := by
  have hl := h.loadLocal D E cfg ha
  constructor
  · intro io
    have := hl.grows ⟨t, io⟩
    unfold Client.new
    cases hm : Client.loadLocal E D R cfg ⟨t, io⟩ with
    | mk r s =>
      rw [hm] at this
      cases r with
      | ok _ => exact this
      | error e => cases e <;> exact this
  · intro io io' hr hok
    have := hl.same ⟨t, io⟩ ⟨t, io'⟩ ⟨rfl, hr⟩
    unfold Client.new at hok ⊢
    cases hm : Client.loadLocal E D R cfg ⟨t, io⟩ with
    | mk r s =>
      cases hm' : Client.loadLocal E D R' cfg ⟨t, io'⟩ with
      | mk r' s' =>
        rw [hm, hm'] at this
        rw [hm] at hok
        have key : ∀ e ∈ s.io.log, ok e := by
          cases r with
          | ok _ => exact hok
          | error e => cases e <;> exact hok
        obtain ⟨h1, h2, h3⟩ := this key
        cases h1
        have h2 : s.tuf = s'.tuf := h2
        cases r with
        | ok _ => exact ⟨by show Except.ok s.tuf = .ok s'.tuf; rw [h2], h3⟩
        | error e =>
          cases e <;> first
            | exact ⟨rfl, h3⟩
            | exact ⟨by show Except.ok s.tuf = .ok s'.tuf; rw [h2], h3⟩

theorem Agree.construct (start : Start) :
    IoSim rel ok (construct E D R cfg start) (construct E D R' cfg start) := by
  cases start with
  | trustedRoot raw => exact (Sim.ofExcept _).bind fun t => h.new D E cfg ha t
  | trustedLocal =>
    exact (h.fetchMetadata D _ _ _ _ _ _ (ha _ ⟨_, rfl⟩)).bind fun raw => (Sim.ofExcept _).bind fun t => h.new D E cfg ha t
  | trustedRootKeys v n keys =>
    show IoSim _ _ (withTrustedRootKeys E D R cfg v n keys) (withTrustedRootKeys E D R' cfg v n keys)
    unfold withTrustedRootKeys
    refine Sim.bind ?_ fun x => ?_
    · unfold fetchLocalOrRemote
      refine (Sim.attempt (h.fetchMetadata D _ _ _ _ _ _ (ha _ ⟨_, rfl⟩))).bind fun r => ?_
      cases r with
      | ok raw => exact Sim.ret _
      | error e =>
        cases e <;> first
          | exact Sim.fail _
          | exact (h.fetchMetadata D _ _ _ _ _ _ (ha _ ⟨_, rfl⟩)).bind fun raw => Sim.ret _
    · obtain ⟨fetched, raw⟩ := x
      exact (Sim.ofExcept _).bind fun t => (Sim.when (h.storeMetadata _ _ _ _ (ha (.store _ _ _) ⟨_, rfl⟩))).bind fun _ =>
        h.new D E cfg ha t

end top

variable (ha : ∀ e, ok e → Allowed okName okTarget e)
include ha

theorem Agree.lookupLoop (rec : Bool → TargetsMetadata → MetadataPath → M (St W) Found)
    (rec' : Bool → TargetsMetadata → MetadataPath → M (St W') Found)
    (hrec : ∀ b m r, StSim rel ok (rec b m r) (rec' b m r)) (target : VirtualTargetPath)
    (sn : SnapshotMetadata) (dflt : Bool) (parent : MetadataPath) (ds : List Delegation) :
    StSim rel ok (Client.lookupLoop E D R rec dflt target sn parent ds)
      (Client.lookupLoop E D R' rec' dflt target sn parent ds) := by
  induction ds with
  | nil => exact Sim.ret _
  | cons d ds ih =>
    unfold Client.lookupLoop
    refine Sim.ite (Sim.ite (Sim.ret _) ih) ?_
    cases sn.metas.get? d.role with
    | none => exact Sim.ite ih (Sim.ret _)
    | some m =>
      dsimp only
      cases hashPreference m.hashes with
      | error e => exact Sim.ret _
      | ok p =>
        obtain ⟨a, v⟩ := p
        dsimp only
        refine StSim.getTuf fun t => ?_
        refine (Sim.attempt (StSim.lift (h.fetchMetadata D .cache _ _ _ _ _ (ha _)))).bind fun r => ?_
        refine Sim.bind (α := Except Err Bytes) ?_ fun fetched => ?_
        · cases r with
          | ok raw => exact Sim.ret' _
          | error e => exact Sim.attempt (StSim.lift (h.fetchMetadata D .remote _ _ _ _ _ (ha _)))
        · cases fetched with
          | error e => exact Sim.ite ih (Sim.ret _)
          | ok raw =>
            refine h.getClock.bind fun clk => ?_
            refine (Sim.attempt (StSim.updateTuf E _)).bind fun out => ?_
            cases out with
            | error e => exact Sim.ite ih (Sim.ret _)
            | ok o =>
              refine (Sim.attempt (StSim.lift (h.storeMetadata _ _ _ _ (ha (.store _ _ _))))).bind fun _ => ?_
              refine StSim.getTuf fun t => ?_
              cases t.delegations.get? d.role with
              | none => exact Sim.fail _
              | some md =>
                dsimp only
                refine (hrec _ _ _).bind fun x => ?_
                obtain ⟨term, res⟩ := x
                cases res with
                | error e => exact Sim.ite (Sim.ret _) ih
                | ok _ => exact ih

theorem Agree.lookupIn (target : VirtualTargetPath) (sn : SnapshotMetadata) (rem : Nat) : ∀ b m r,
    StSim rel ok (Client.lookupIn E D R target sn rem b m r)
      (Client.lookupIn E D R' target sn rem b m r) := by
  induction rem with
  | zero => exact fun _ _ _ => Sim.ret _
  | succ rem ih =>
    intro b m r
    unfold Client.lookupIn
    cases m.targets.get? target with
    | some d => exact Sim.ret _
    | none =>
      cases m.delegations with
      | none => exact Sim.ret _
      | some ds => exact h.lookupLoop D E ha _ _ ih _ _ _ _ _

theorem Agree.fetchTargetDescription (target : TargetPath) :
    StSim rel ok (fetchTargetDescription E D R cfg target)
      (fetchTargetDescription E D R' cfg target) := by
  unfold Client.fetchTargetDescription
  refine (Sim.ofExcept _).bind fun virt => StSim.getTuf fun t => ?_
  cases t.snapshot with
  | none => exact Sim.fail _
  | some sn =>
    cases t.targets with
    | none => exact Sim.fail _
    | some ta => exact (h.lookupIn D E ha virt sn _ _ _ _).bind fun x => Sim.ofExcept _

theorem Agree.fetchTargetReader (target : TargetPath) :
    StSim rel ok (fetchTargetReader E D R cfg target)
      (fetchTargetReader E D R' cfg target) := by
  unfold Client.fetchTargetReader
  refine (h.fetchTargetDescription D E cfg ha target).bind fun d => StSim.getTuf fun t => ?_
  refine Sim.ite ?_ (StSim.lift (h.fetchTargetStream D _ _))
  exact (Sim.ofExcept _).bind fun p => (Sim.ofExcept _).bind fun path =>
    StSim.lift (h.fetchTargetStream D _ _)

theorem Agree.exec (c : Call) :
    StSim rel ok (exec E D R cfg c) (exec E D R' cfg c) := by
  cases c with
  | update => exact (h.update D E cfg fun e _ => ha e).bind fun _ => Sim.ret _
  | fetchTarget p =>
    exact Sim.bind ((h.fetchTargetReader D E cfg ha p).bind fun _ => StSim.lift (h.saveTarget _ _ (ha (.storeTarget _))))
      fun _ => Sim.ret _
  | fetchTargetToWriter p =>
    exact Sim.bind ((h.fetchTargetReader D E cfg ha p).bind fun _ => StSim.lift (h.copyToWriter _))
      fun _ => Sim.ret _
  | fetchTargetDescription p =>
    exact (h.fetchTargetDescription D E cfg ha p).bind fun _ => Sim.ret _

end world

end RustTuf
