import Verif.Lemmas.Hoare
import Verif.Spec.Patchy

/-!
# A call that is dropped does an initial part of what the whole call does
-/

namespace RustTuf
open Client Spec

/-- The first code does what the second does, or it panics after an initial part of it. -/
structure Cut {σ σ' α : Type} (log : σ → List LogEntry) (un : σ' → σ) (m' : M σ' α) (m : M σ α) :
    Prop where
  grows : ∀ s, log s <+: log (m s).2
  cut : ∀ s', ((m' s').1 = (m (un s')).1 ∧ un (m' s').2 = (m (un s')).2) ∨
    ((m' s').1 = .error .panic ∧ log (un (m' s').2) <+: log (m (un s')).2)

namespace Cut
variable {σ σ' α β : Type} {log : σ → List LogEntry} {un : σ' → σ}

theorem bind {m' : M σ' α} {m : M σ α} {f' : α → M σ' β} {f : α → M σ β} (h : Cut log un m' m)
    (hf : ∀ a, Cut log un (f' a) (f a)) : Cut log un (m' >>= f') (m >>= f) := by
  have e : ∀ s, (m >>= f) s = match m s with
    | (.ok a, s') => f a s'
    | (.error e, s') => (.error e, s') := fun _ => rfl
  have e' : ∀ s, (m' >>= f') s = match m' s with
    | (.ok a, s') => f' a s'
    | (.error e, s') => (.error e, s') := fun _ => rfl
  have grow : ∀ s, log (m s).2 <+: log ((m >>= f) s).2 := by
    intro s
    rw [e]
    cases hm : m s with
    | mk r s1 =>
      cases r with
      | ok a => exact (hf a).grows s1
      | error x => exact List.prefix_refl _
  refine ⟨fun s => (h.grows s).trans (grow s), fun s' => ?_⟩
  have h1 := h.cut s'
  have h2 := grow (un s')
  rcases h1 with ⟨h3, h4⟩ | ⟨h3, h4⟩
  · rw [e, e']
    cases hm : m (un s') with
    | mk r s1 =>
      cases hm' : m' s' with
      | mk r' s1' =>
        rw [hm, hm'] at h3 h4
        cases h3
        cases h4
        cases r with
        | ok a => exact (hf a).cut s1'
        | error x => exact .inl ⟨rfl, rfl⟩
  · right
    rw [e']
    cases hm' : m' s' with
    | mk r' s1' =>
      rw [hm'] at h3 h4
      cases h3
      exact ⟨rfl, h4.trans h2⟩

theorem ofExcept (r : Except Err α) : Cut log un (M.ofExcept r) (M.ofExcept r) :=
  ⟨fun _ => List.prefix_refl _, fun _ => .inl ⟨rfl, rfl⟩⟩

theorem ret (a : α) : Cut log un (Pure.pure a : M σ' α) (Pure.pure a) :=
  ⟨fun _ => List.prefix_refl _, fun _ => .inl ⟨rfl, rfl⟩⟩

theorem ret' (a : α) : Cut log un (M.pure a : M σ' α) (M.pure a) :=
  ⟨fun _ => List.prefix_refl _, fun _ => .inl ⟨rfl, rfl⟩⟩

theorem fail (e : Err) : Cut log un (M.fail e : M σ' α) (M.fail e) :=
  ⟨fun _ => List.prefix_refl _, fun _ => .inl ⟨rfl, rfl⟩⟩

theorem attempt {m' : M σ' α} {m : M σ α} (h : Cut log un m' m) :
    Cut log un (M.attempt m') (M.attempt m) := by
  classical
  have e : ∀ {σ : Type} (m : M σ α) s, M.attempt m s =
      (if (m s).1 = .error .panic then .error .panic else .ok (m s).1, (m s).2) := by
    intro σ m s
    cases hm : m s with
    | mk r s' =>
      cases r with
      | ok a => rw [M.attempt_ok hm]; simp
      | error x =>
        by_cases hx : x = .panic
        · subst hx; rw [M.attempt_panic hm]; simp
        · rw [M.attempt_error hm hx]; simp [hx]
  constructor
  · intro s; rw [e]; exact h.grows s
  · intro s'
    rw [e, e]
    rcases h.cut s' with ⟨h1, h2⟩ | ⟨h1, h2⟩
    · exact .inl ⟨by rw [h1], h2⟩
    · exact .inr ⟨by rw [h1]; simp, h2⟩

theorem when {b : Bool} {m' : M σ' Unit} {m : M σ Unit} (h : Cut log un m' m) :
    Cut log un (M.when b m') (M.when b m) := by
  unfold M.when
  cases b with
  | true => exact h
  | false => exact ret' _

theorem ite {c : Prop} [Decidable c] {m' n' : M σ' α} {m n : M σ α} (h : Cut log un m' m)
    (h' : Cut log un n' n) : Cut log un (if c then m' else n') (if c then m else n) := by
  split
  · exact h
  · exact h'

end Cut

section world
variable {W : Type} {α : Type}

/-- The state of the outside world without the counter. -/
def uncountedIo (io : Io (W × Nat)) : Io W := ⟨io.w.1, io.log⟩

/-- `Cut` for codes of repositories. -/
abbrev IoCut (m' : M (Io (W × Nat)) α) (m : M (Io W) α) : Prop := Cut Io.log uncountedIo m' m

/-- `Cut` for codes of clients. -/
abbrev StCut (m' : M (St (W × Nat)) α) (m : M (St W) α) : Prop :=
  Cut (fun s : St W => s.io.log) uncounted m' m

theorem IoCut.note (e : LogEntry) : IoCut (W := W) (Io.note e) (Io.note e) :=
  ⟨fun _ => List.prefix_append _ _, fun _ => .inl ⟨rfl, rfl⟩⟩

theorem IoCut.call {f' : W × Nat → Except Err α × (W × Nat)} {f : W → Except Err α × W}
    (h : ∀ w, ((f' w).1 = (f w.1).1 ∧ (f' w).2.1 = (f w.1).2) ∨ (f' w).1 = .error .panic) :
    IoCut (Io.call f') (Io.call f) := by
  refine ⟨fun _ => List.prefix_refl _, fun s => ?_⟩
  rcases h s.w with ⟨h1, h2⟩ | h1
  · left
    refine ⟨h1, ?_⟩
    show (⟨(f' s.w).2.1, s.log⟩ : Io W) = ⟨(f s.w.1).2, s.log⟩
    rw [h2]
  · exact .inr ⟨h1, List.prefix_refl _⟩

theorem StCut.lift {m' : M (Io (W × Nat)) α} {m : M (Io W) α} (h : IoCut m' m) :
    StCut (lift m') (lift m) := by
  constructor
  · exact fun s => h.grows s.io
  · intro s
    rcases h.cut s.io with ⟨h1, h2⟩ | ⟨h1, h2⟩
    · refine .inl ⟨h1, ?_⟩
      show (⟨s.tuf, uncountedIo (m' s.io).2⟩ : St W) = ⟨s.tuf, (m (uncountedIo s.io)).2⟩
      rw [h2]
    · exact .inr ⟨h1, h2⟩

theorem StCut.getTuf {f' : Tuf → M (St (W × Nat)) α} {f : Tuf → M (St W) α}
    (h : ∀ t, StCut (f' t) (f t)) : StCut (getTuf >>= f') (getTuf >>= f) :=
  Cut.bind ⟨fun _ => List.prefix_refl _, fun _ => .inl ⟨rfl, rfl⟩⟩ h

theorem StCut.updateTuf (E : Env) (op : Tuf.Op) :
    StCut (W := W) (updateTuf E op) (updateTuf E op) := by
  constructor
  · intro s
    unfold Client.updateTuf
    cases Tuf.step E s.tuf op with
    | mk o t' => cases o <;> exact List.prefix_append _ _
  · intro s
    left
    have e : ∀ {V : Type} (s : St V), Client.updateTuf E op s =
        (match (Tuf.step E s.tuf op).1 with
          | .failed e => .error e
          | o => .ok o,
          ⟨(Tuf.step E s.tuf op).2, { s.io with log := s.io.log ++ [.op op (Tuf.step E s.tuf op).1] }⟩) := by
      intro V s
      unfold Client.updateTuf
      cases Tuf.step E s.tuf op with
      | mk o t' => cases o <;> rfl
    rw [e, e]
    exact ⟨rfl, rfl⟩

variable (R : World W) (D : Digest)

theorem Cut.getClock : StCut (getClock (dropAfter R)) (getClock R) :=
  ⟨fun _ => List.prefix_refl _, fun _ => .inl ⟨rfl, rfl⟩⟩

/-- Requests are dropped or answered as usual. -/
theorem IoCut.request {f : W → Except Err α × W} {f' : W × Nat → Except Err α × (W × Nat)}
    (h : ∀ w, f' w = match w.2 with
      | 0 => (.error .panic, w)
      | k + 1 => match f w.1 with | (r, w') => (r, (w', k))) : IoCut (Io.call f') (Io.call f) := by
  refine IoCut.call fun w => ?_
  rw [h]
  obtain ⟨w, n⟩ := w
  cases n with
  | zero => exact .inr rfl
  | succ k => exact .inl ⟨rfl, rfl⟩

theorem Cut.fetchMetadata (src : Source) (role : Role) (p : MetadataPath) (v : MetadataVersion)
    (m : Option Nat) (hash : HashData) :
    IoCut (fetchMetadata D (dropAfter R) src role p v m hash)
      (fetchMetadata D R src role p v m hash) := by
  unfold RustTuf.fetchMetadata
  refine (Cut.ofExcept _).bind fun _ => (IoCut.note _).bind fun _ => Cut.bind ?_ fun evs =>
    (Cut.ofExcept _).bind fun raw => (IoCut.note _).bind fun _ => Cut.ret _
  cases src <;> exact IoCut.request fun w => rfl

theorem Cut.storeMetadata (role : Role) (p : MetadataPath) (v : MetadataVersion) (raw : Bytes) :
    IoCut (storeMetadata (dropAfter R) role p v raw) (storeMetadata R role p v raw) := by
  unfold RustTuf.storeMetadata
  exact (Cut.ofExcept _).bind fun _ => (IoCut.note _).bind fun _ => IoCut.request fun w => rfl

theorem Cut.fetchTargetStream (p : TargetPath) (d : TargetDescription) :
    IoCut (fetchTargetStream D (dropAfter R) p d) (fetchTargetStream D R p d) := by
  unfold RustTuf.fetchTargetStream
  refine (Cut.ofExcept _).bind fun x => ?_
  exact (IoCut.note _).bind fun _ => (IoCut.request fun w => rfl).bind fun evs =>
    (Cut.ofExcept _).bind fun s => Cut.ret _

theorem Cut.saveTarget (evs : List Ev) (p : TargetPath) :
    IoCut (RustTuf.storeTarget (dropAfter R) evs p) (RustTuf.storeTarget R evs p) := by
  unfold RustTuf.storeTarget
  exact (IoCut.note _).bind fun _ => IoCut.request fun w => rfl

theorem Cut.flushed : IoCut (copyToWriter (dropAfter R) []) (copyToWriter R []) := by
  constructor
  · intro s
    show s.log <+: (match R.flush s.w with
      | (.ok (), w') => ((.ok (), { s with w := w' }) : Except Err Unit × Io W)
      | (.error k, w') => (.error k.toErr, { s with w := w' })).2.log
    cases R.flush s.w with
    | mk r w => cases r <;> exact List.prefix_refl _
  · intro s
    left
    have e : ∀ {V : Type} (Q : World V) (s : Io V), RustTuf.copyToWriter Q [] s =
        match Q.flush s.w with
        | (.ok (), w') => (.ok (), { s with w := w' })
        | (.error k, w') => (.error k.toErr, { s with w := w' }) := fun _ _ => rfl
    rw [e, e]
    have : (dropAfter R).flush s.w = ((R.flush s.w.1).1, ((R.flush s.w.1).2, s.w.2)) := rfl
    rw [this]
    show _ = (match R.flush s.w.1 with
      | (.ok (), w') => ((.ok (), ⟨w', s.log⟩) : Except Err Unit × Io W)
      | (.error k, w') => (.error k.toErr, ⟨w', s.log⟩)).1 ∧ _ = (match R.flush s.w.1 with
      | (.ok (), w') => ((.ok (), ⟨w', s.log⟩) : Except Err Unit × Io W)
      | (.error k, w') => (.error k.toErr, ⟨w', s.log⟩)).2
    cases R.flush s.w.1 with
    | mk r w => cases r <;> exact ⟨rfl, rfl⟩

theorem Cut.copyToWriter (evs : List Ev) :
    IoCut (copyToWriter (dropAfter R) evs) (copyToWriter R evs) := by
  induction evs with
  | nil => exact Cut.flushed R
  | cons e evs ih =>
    cases e with
    | pending => exact ih
    | err k => exact Cut.fail _
    | data bs =>
      by_cases hb : bs = []
      · subst hb
        exact Cut.flushed R
      · have e : ∀ {V : Type} (Q : World V), RustTuf.copyToWriter Q (.data bs :: evs) = fun s =>
            match Q.write bs s.w with
            | (.ok (), w') => RustTuf.copyToWriter Q evs { w := w', log := s.log ++ [.wrote bs] }
            | (.error k, w') => (.error k.toErr, { s with w := w' }) := by
          intro V Q
          funext s
          show (if bs = [] then _ else _) = _
          rw [if_neg hb]
          cases Q.write bs s.w with
          | mk r w => cases r <;> rfl
        rw [e, e]
        constructor
        · intro s
          cases R.write bs s.w with
          | mk r w =>
            cases r with
            | error k => exact List.prefix_refl _
            | ok _ =>
              exact (List.prefix_append s.log [.wrote bs]).trans
                (ih.grows { w := w, log := s.log ++ [.wrote bs] })
        · intro s
          have : (dropAfter R).write bs s.w = ((R.write bs s.w.1).1, ((R.write bs s.w.1).2, s.w.2)) := rfl
          simp only [this, uncountedIo]
          cases hf : R.write bs s.w.1 with
          | mk r w =>
            cases r with
            | error k => exact .inl ⟨rfl, rfl⟩
            | ok _ => exact ih.cut ⟨(w, s.w.2), s.log ++ [.wrote bs]⟩

/-! ### Client functions -/

variable (E : Env) (cfg : Config)

theorem Cut.rootLoop (src : Source) (persist : Bool) (fuel : Nat) : ∀ upd,
    StCut (rootLoop E D (dropAfter R) cfg src persist fuel upd)
      (rootLoop E D R cfg src persist fuel upd) := by
  induction fuel with
  | zero => exact fun _ => Cut.fail _
  | succ fuel ih =>
    intro upd
    unfold Client.rootLoop
    refine StCut.getTuf fun t => (Cut.ofExcept _).bind fun next => ?_
    refine (Cut.attempt (StCut.lift (Cut.fetchMetadata R D _ _ _ _ _ _))).bind fun r => ?_
    cases r with
    | error e => cases e <;> first | exact Cut.ret _ | exact Cut.fail _
    | ok raw =>
      refine (StCut.updateTuf E _).bind fun _ => ?_
      refine (Cut.when ?_).bind fun _ => ih true
      exact (StCut.lift (Cut.storeMetadata R _ _ _ _)).bind fun _ => StCut.lift (Cut.storeMetadata R _ _ _ _)

theorem Cut.updateRoot (src : Source) (persist : Bool) :
    StCut (updateRootWithRepos E D (dropAfter R) cfg src persist)
      (updateRootWithRepos E D R cfg src persist) := by
  unfold updateRootWithRepos
  refine (Cut.rootLoop R D E cfg src persist _ _).bind fun b => ?_
  refine (Cut.getClock R).bind fun c => StCut.getTuf fun t => ?_
  exact Cut.ite (Cut.fail _) (Cut.ret _)

theorem Cut.finish (persist : Bool) (o : Tuf.Op) (role r : Role) (raw : Bytes) :
    StCut (do match ← updateTuf E o with
          | .changed =>
            M.when persist (lift (RustTuf.storeMetadata (dropAfter R) role (MetadataPath.fromRole r) .none raw))
            return true
          | _ => return false) (do match ← updateTuf E o with
          | .changed =>
            M.when persist (lift (RustTuf.storeMetadata R role (MetadataPath.fromRole r) .none raw))
            return true
          | _ => return false) := by
  refine (StCut.updateTuf E o).bind fun out => ?_
  cases out with
  | changed => exact (Cut.when (StCut.lift (Cut.storeMetadata R _ _ _ _))).bind fun _ => Cut.ret _
  | unchanged => exact Cut.ret _
  | failed e => exact Cut.ret _

theorem Cut.updateTimestamp (src : Source) (persist : Bool) :
    StCut (updateTimestampWithRepos E D (dropAfter R) cfg src persist)
      (updateTimestampWithRepos E D R cfg src persist) := by
  unfold updateTimestampWithRepos
  refine (StCut.lift (Cut.fetchMetadata R D _ _ _ _ _ _)).bind fun raw => (Cut.getClock R).bind fun c => ?_
  exact Cut.finish R E persist _ _ _ _

theorem Cut.updateSnapshot (src : Source) (persist consistent : Bool) :
    StCut (updateSnapshotWithRepos E D (dropAfter R) src persist consistent)
      (updateSnapshotWithRepos E D R src persist consistent) := by
  unfold updateSnapshotWithRepos
  refine StCut.getTuf fun t => ?_
  cases t.timestamp with
  | none => exact Cut.fail _
  | some ts =>
    refine Cut.ite (Cut.ret _) ((Cut.ofExcept _).bind fun p => ?_)
    obtain ⟨a, v⟩ := p
    refine (StCut.lift (Cut.fetchMetadata R D _ _ _ _ _ _)).bind fun raw => (Cut.getClock R).bind fun c => ?_
    exact Cut.finish R E persist _ _ _ _

theorem Cut.updateTargets (src : Source) (persist consistent : Bool) :
    StCut (updateTargetsWithRepos E D (dropAfter R) src persist consistent)
      (updateTargetsWithRepos E D R src persist consistent) := by
  unfold updateTargetsWithRepos
  refine StCut.getTuf fun t => ?_
  cases t.snapshot with
  | none => exact Cut.fail _
  | some sn =>
    dsimp only
    cases sn.metas.get? (MetadataPath.fromRole .targets) with
    | none => exact Cut.fail _
    | some m =>
      refine Cut.ite (Cut.ret _) ((Cut.ofExcept _).bind fun p => ?_)
      obtain ⟨a, v⟩ := p
      refine (StCut.lift (Cut.fetchMetadata R D _ _ _ _ _ _)).bind fun raw => (Cut.getClock R).bind fun c => ?_
      exact Cut.finish R E persist _ _ _ _

theorem Cut.update : StCut (update E D (dropAfter R) cfg) (update E D R cfg) := by
  unfold Client.update
  refine (Cut.updateRoot R D E cfg _ _).bind fun _ => ?_
  refine (Cut.updateTimestamp R D E cfg _ _).bind fun _ => StCut.getTuf fun _ => ?_
  refine (Cut.updateSnapshot R D E _ _ _).bind fun _ => StCut.getTuf fun _ => ?_
  exact (Cut.updateTargets R D E _ _ _).bind fun _ => Cut.ret _

theorem Cut.loadLocal : StCut (loadLocal E D (dropAfter R) cfg) (loadLocal E D R cfg) := by
  unfold Client.loadLocal
  refine (Cut.updateRoot R D E cfg _ _).bind fun _ => ?_
  refine (Cut.updateTimestamp R D E cfg _ _).bind fun _ => ?_
  refine (Cut.updateSnapshot R D E _ _ _).bind fun _ => ?_
  exact (Cut.updateTargets R D E _ _ _).bind fun _ => Cut.ret _

theorem Cut.lookupLoop (rec : Bool → TargetsMetadata → MetadataPath → M (St (W × Nat)) Found)
    (rec' : Bool → TargetsMetadata → MetadataPath → M (St W) Found)
    (hrec : ∀ b m r, StCut (rec b m r) (rec' b m r)) (target : VirtualTargetPath)
    (sn : SnapshotMetadata) (dflt : Bool) (parent : MetadataPath) (ds : List Delegation) :
    StCut (Client.lookupLoop E D (dropAfter R) rec dflt target sn parent ds)
      (Client.lookupLoop E D R rec' dflt target sn parent ds) := by
  induction ds with
  | nil => exact Cut.ret _
  | cons d ds ih =>
    unfold Client.lookupLoop
    refine Cut.ite (Cut.ite (Cut.ret _) ih) ?_
    cases sn.metas.get? d.role with
    | none => exact Cut.ite ih (Cut.ret _)
    | some m =>
      dsimp only
      cases hashPreference m.hashes with
      | error e => exact Cut.ret _
      | ok p =>
        obtain ⟨a, v⟩ := p
        dsimp only
        refine StCut.getTuf fun t => ?_
        refine (Cut.attempt (StCut.lift (Cut.fetchMetadata R D .cache _ _ _ _ _))).bind fun r => ?_
        refine Cut.bind (α := Except Err Bytes) ?_ fun fetched => ?_
        · cases r with
          | ok raw => exact Cut.ret' _
          | error e => exact Cut.attempt (StCut.lift (Cut.fetchMetadata R D .remote _ _ _ _ _))
        · cases fetched with
          | error e => exact Cut.ite ih (Cut.ret _)
          | ok raw =>
            refine (Cut.getClock R).bind fun clk => ?_
            refine (Cut.attempt (StCut.updateTuf E _)).bind fun out => ?_
            cases out with
            | error e => exact Cut.ite ih (Cut.ret _)
            | ok o =>
              refine (Cut.attempt (StCut.lift (Cut.storeMetadata R _ _ _ _))).bind fun _ => ?_
              refine StCut.getTuf fun t => ?_
              cases t.delegations.get? d.role with
              | none => exact Cut.fail _
              | some md =>
                dsimp only
                refine (hrec _ _ _).bind fun x => ?_
                obtain ⟨term, res⟩ := x
                cases res with
                | error e => exact Cut.ite (Cut.ret _) ih
                | ok _ => exact ih

theorem Cut.lookupIn (target : VirtualTargetPath) (sn : SnapshotMetadata) (rem : Nat) : ∀ b m r,
    StCut (Client.lookupIn E D (dropAfter R) target sn rem b m r)
      (Client.lookupIn E D R target sn rem b m r) := by
  induction rem with
  | zero => exact fun _ _ _ => Cut.ret _
  | succ rem ih =>
    intro b m r
    unfold Client.lookupIn
    cases m.targets.get? target with
    | some d => exact Cut.ret _
    | none =>
      cases m.delegations with
      | none => exact Cut.ret _
      | some ds => exact Cut.lookupLoop R D E _ _ ih _ _ _ _ _

theorem Cut.fetchTargetDescription (target : TargetPath) :
    StCut (fetchTargetDescription E D (dropAfter R) cfg target)
      (fetchTargetDescription E D R cfg target) := by
  unfold Client.fetchTargetDescription
  refine (Cut.ofExcept _).bind fun virt => StCut.getTuf fun t => ?_
  cases t.snapshot with
  | none => exact Cut.fail _
  | some sn =>
    cases t.targets with
    | none => exact Cut.fail _
    | some ta => exact (Cut.lookupIn R D E virt sn _ _ _ _).bind fun x => Cut.ofExcept _

theorem Cut.fetchTargetReader (target : TargetPath) :
    StCut (fetchTargetReader E D (dropAfter R) cfg target)
      (fetchTargetReader E D R cfg target) := by
  unfold Client.fetchTargetReader
  refine (Cut.fetchTargetDescription R D E cfg target).bind fun d => StCut.getTuf fun t => ?_
  refine Cut.ite ?_ (StCut.lift (Cut.fetchTargetStream R D _ _))
  exact (Cut.ofExcept _).bind fun p => (Cut.ofExcept _).bind fun path =>
    StCut.lift (Cut.fetchTargetStream R D _ _)

theorem Cut.exec (c : Call) :
    StCut (exec E D (dropAfter R) cfg c) (exec E D R cfg c) := by
  cases c with
  | update => exact (Cut.update R D E cfg).bind fun _ => Cut.ret _
  | fetchTarget p =>
    exact Cut.bind ((Cut.fetchTargetReader R D E cfg p).bind fun _ => StCut.lift (Cut.saveTarget R _ _))
      fun _ => Cut.ret _
  | fetchTargetToWriter p =>
    exact Cut.bind ((Cut.fetchTargetReader R D E cfg p).bind fun _ => StCut.lift (Cut.copyToWriter R _))
      fun _ => Cut.ret _
  | fetchTargetDescription p =>
    exact (Cut.fetchTargetDescription R D E cfg p).bind fun _ => Cut.ret _

end world

end RustTuf
