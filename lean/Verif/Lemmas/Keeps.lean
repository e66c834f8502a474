import Verif.Lemmas.Hoare

/-!
# Invariants of client code
`Keeps I m`: code `m` preserves `I`, whether it succeeds or fails. An assertion that is preserved by
the primitive actions is preserved by the client functions.
-/

namespace RustTuf
open Client

/-- `m` preserves `I`. -/
def Keeps {σ α : Type} (I : σ → Prop) (m : M σ α) : Prop := Tri I m (fun _ => I) (fun _ => I)

namespace Keeps
variable {σ α β : Type} {I : σ → Prop}

theorem bind {m : M σ α} {f : α → M σ β} (h : Keeps I m) (hf : ∀ a, Keeps I (f a)) :
    Keeps I (m >>= f) := Tri.bind h hf

theorem ret (a : α) : Keeps I (Pure.pure a : M σ α) := Tri.ret fun _ h => h
theorem ret' (a : α) : Keeps I (M.pure a : M σ α) := Tri.ret' fun _ h => h
theorem fail (e : Err) : Keeps I (M.fail e : M σ α) := Tri.fail fun _ h => h
theorem ofExcept (r : Except Err α) : Keeps I (M.ofExcept r : M σ α) :=
  Tri.ofExcept (fun _ _ _ h => h) (fun _ _ _ h => h)
theorem attempt {m : M σ α} (h : Keeps I m) : Keeps I (M.attempt m) :=
  (Tri.attempt h).post fun r s hs => by cases r <;> exact hs
theorem when {b : Bool} {m : M σ Unit} (h : b = true → Keeps I m) : Keeps I (M.when b m) :=
  Tri.when h (fun _ _ hs => hs)
theorem ite {c : Prop} [Decidable c] {m n : M σ α} (h : c → Keeps I m) (h' : ¬ c → Keeps I n) :
    Keeps I (if c then m else n) := Tri.ite h h'

/-- The state after running `m` satisfies `I`. -/
theorem run {m : M σ α} (h : Keeps I m) {s : σ} (hs : I s) : I (m s).2 := by
  have := h s hs
  cases hm : m s with
  | mk r s' => rw [hm] at this; cases r <;> exact this

end Keeps

variable {W : Type}

theorem keeps_getTuf (I : St W → Prop) : Keeps I getTuf := fun _ hs => hs

/-- `I` is preserved by requests to `srcs`, by writes of metadata (if `stores`), by clock readings
and by the update calls in `ops`. -/
structure Prims (E : Env) (D : Digest) (R : World W) (I : St W → Prop) (srcs : Source → Prop)
    (stores : Prop) (ops : Tuf.Op → Prop) : Prop where
  fetch : ∀ src, srcs src → ∀ role p v mx h, Keeps I (lift (fetchMetadata D R src role p v mx h))
  store : stores → ∀ role p v raw, Keeps I (lift (storeMetadata R role p v raw))
  clock : Keeps I (getClock R)
  op : ∀ o, ops o → Keeps I (updateTuf E o)

/-- The update calls of `update`. -/
def TopOp (o : Tuf.Op) : Prop := ∀ clk parent role raw, o ≠ .delegation clk parent role raw

/-- The update calls of target lookups. -/
def DelegOp (o : Tuf.Op) : Prop := ∃ clk parent role raw, o = .delegation clk parent role raw

namespace Prims
variable {E : Env} {D : Digest} {R : World W} {I : St W → Prop} {cfg : Config}
  {srcs : Source → Prop} {stores : Prop}

section top
variable (h : Prims E D R I srcs stores TopOp) (src : Source) (hsrc : srcs src) (persist : Bool)
  (hp : persist = true → stores)
include h hsrc hp

theorem rootLoop (fuel : Nat) : ∀ upd, Keeps I (rootLoop E D R cfg src persist fuel upd) := by
  induction fuel with
  | zero => exact fun _ => Keeps.fail _
  | succ fuel ih =>
    intro upd
    unfold Client.rootLoop
    refine (keeps_getTuf I).bind fun t => (Keeps.ofExcept _).bind fun next => ?_
    refine (Keeps.attempt (h.fetch src hsrc _ _ _ _ _)).bind fun r => ?_
    cases r with
    | error e => cases e <;> first | exact Keeps.ret _ | exact Keeps.fail _
    | ok raw =>
      refine (h.op _ (by simp [TopOp])).bind fun _ => ?_
      refine (Keeps.when fun hb => ?_).bind fun _ => ih true
      exact (h.store (hp hb) _ _ _ _).bind fun _ => h.store (hp hb) _ _ _ _

theorem updateRoot : Keeps I (updateRootWithRepos E D R cfg src persist) := by
  unfold updateRootWithRepos
  refine (h.rootLoop src hsrc persist hp _ _).bind fun b => ?_
  refine h.clock.bind fun c => (keeps_getTuf I).bind fun t => ?_
  exact Keeps.ite (fun _ => Keeps.fail _) (fun _ => Keeps.ret _)

omit hsrc in
theorem finish (o : Tuf.Op) (ho : TopOp o) (role : Role) (p : MetadataPath) (raw : Bytes) :
    Keeps I (do match ← updateTuf E o with
          | .changed =>
            M.when persist (lift (storeMetadata R role p .none raw))
            return true
          | _ => return false) := by
  refine (h.op o ho).bind fun out => ?_
  cases out with
  | changed => exact (Keeps.when fun hb => h.store (hp hb) _ _ _ _).bind fun _ => Keeps.ret _
  | unchanged => exact Keeps.ret _
  | failed e => exact Keeps.ret _

theorem updateTimestamp : Keeps I (updateTimestampWithRepos E D R cfg src persist) := by
  unfold updateTimestampWithRepos
  refine (h.fetch src hsrc _ _ _ _ _).bind fun raw => h.clock.bind fun c => ?_
  exact h.finish persist hp _ (by simp [TopOp]) _ _ _

theorem updateSnapshot (consistent : Bool) :
    Keeps I (updateSnapshotWithRepos E D R src persist consistent) := by
  unfold updateSnapshotWithRepos
  refine (keeps_getTuf I).bind fun t => ?_
  cases t.timestamp with
  | none => exact Keeps.fail _
  | some ts =>
    refine Keeps.ite (fun _ => Keeps.ret _) fun _ => (Keeps.ofExcept _).bind fun p => ?_
    obtain ⟨a, v⟩ := p
    refine (h.fetch src hsrc _ _ _ _ _).bind fun raw => h.clock.bind fun c => ?_
    exact h.finish persist hp _ (by simp [TopOp]) _ _ _

theorem updateTargets (consistent : Bool) :
    Keeps I (updateTargetsWithRepos E D R src persist consistent) := by
  unfold updateTargetsWithRepos
  refine (keeps_getTuf I).bind fun t => ?_
  cases t.snapshot with
  | none => exact Keeps.fail _
  | some sn =>
    dsimp only
    cases sn.metas.get? (MetadataPath.fromRole .targets) with
    | none => exact Keeps.fail _
    | some m =>
      refine Keeps.ite (fun _ => Keeps.ret _) fun _ => (Keeps.ofExcept _).bind fun p => ?_
      obtain ⟨a, v⟩ := p
      refine (h.fetch src hsrc _ _ _ _ _).bind fun raw => h.clock.bind fun c => ?_
      exact h.finish persist hp _ (by simp [TopOp]) _ _ _

end top

theorem update (h : Prims E D R I srcs stores TopOp) (hsrc : srcs .remote) (hst : stores) :
    Keeps I (update E D R cfg) := by
  unfold Client.update
  refine (h.updateRoot _ hsrc _ fun _ => hst).bind fun _ => ?_
  refine (h.updateTimestamp _ hsrc _ fun _ => hst).bind fun _ => (keeps_getTuf I).bind fun _ => ?_
  refine (h.updateSnapshot _ hsrc _ (fun _ => hst) _).bind fun _ => (keeps_getTuf I).bind fun _ => ?_
  exact (h.updateTargets _ hsrc _ (fun _ => hst) _).bind fun _ => Keeps.ret _

theorem loadLocal (h : Prims E D R I srcs stores TopOp) (hsrc : srcs .cache) :
    Keeps I (loadLocal E D R cfg) := by
  unfold Client.loadLocal
  refine (h.updateRoot _ hsrc _ (by simp)).bind fun _ => ?_
  refine (h.updateTimestamp _ hsrc _ (by simp)).bind fun _ => ?_
  refine (h.updateSnapshot _ hsrc _ (by simp) _).bind fun _ => ?_
  exact (h.updateTargets _ hsrc _ (by simp) _).bind fun _ => Keeps.ret _

end Prims

/-- What target lookups do: an update call for role `p` leads from `I` to `J p`, and the write that may
follow leads back to `I`. -/
structure Walk (E : Env) (D : Digest) (R : World W) (I : St W → Prop)
    (J : MetadataPath → Bytes → St W → Prop) : Prop where
  fetch : ∀ src role p v mx h, Keeps I (lift (fetchMetadata D R src role p v mx h))
  clock : Keeps I (getClock R)
  op : ∀ clk parent p raw,
    Tri I (updateTuf E (.delegation clk parent p raw)) (fun _ => J p raw) (fun _ => I)
  store : ∀ p raw, Tri (J p raw) (lift (storeMetadata R .targets p .none raw)) (fun _ => I) (fun _ => I)

namespace Walk
variable {E : Env} {D : Digest} {R : World W} {I : St W → Prop}
  {J : MetadataPath → Bytes → St W → Prop} {cfg : Config}

theorem lookupLoop (h : Walk E D R I J)
    (rec : Bool → TargetsMetadata → MetadataPath → M (St W) Found)
    (hrec : ∀ b m r, Keeps I (rec b m r)) (target : VirtualTargetPath) (sn : SnapshotMetadata)
    (dflt : Bool) (parent : MetadataPath) (ds : List Delegation) :
    Keeps I (Client.lookupLoop E D R rec dflt target sn parent ds) := by
  induction ds with
  | nil => exact Keeps.ret _
  | cons d ds ih =>
    unfold Client.lookupLoop
    refine Keeps.ite (fun _ => Keeps.ite (fun _ => Keeps.ret _) (fun _ => ih)) fun _ => ?_
    cases sn.metas.get? d.role with
    | none => exact Keeps.ite (fun _ => ih) (fun _ => Keeps.ret _)
    | some m =>
      dsimp only
      cases hashPreference m.hashes with
      | error e => exact Keeps.ret _
      | ok p =>
        obtain ⟨a, v⟩ := p
        dsimp only
        refine (keeps_getTuf I).bind fun t => ?_
        refine (Keeps.attempt (h.fetch .cache _ _ _ _ _)).bind fun r => ?_
        have tail : ∀ fetched : Except Err Bytes, Keeps I (match fetched with
          | .error e =>
            if !d.terminating then Client.lookupLoop E D R rec dflt target sn parent ds
            else return (true, .error e)
          | .ok raw => do
            let clk ← getClock R
            match ← M.attempt (updateTuf E (.delegation clk parent d.role raw)) with
            | .ok _ =>
              let _ ← M.attempt (lift (storeMetadata R .targets d.role .none raw))
              let t ← getTuf
              match t.delegations.get? d.role with
              | none => M.fail .panic
              | some m =>
                let (term, res) ← rec d.terminating m d.role
                match res with
                | .error e =>
                  if term then return (true, .error e)
                  else Client.lookupLoop E D R rec dflt target sn parent ds
                | .ok _ => Client.lookupLoop E D R rec dflt target sn parent ds
            | .error e =>
              if !d.terminating then Client.lookupLoop E D R rec dflt target sn parent ds
              else return (true, .error e)) := by
          intro fetched
          cases fetched with
          | error e => exact Keeps.ite (fun _ => ih) (fun _ => Keeps.ret _)
          | ok raw =>
            refine h.clock.bind fun clk => ?_
            refine Tri.bind (Tri.attempt (h.op _ _ _ _)) fun out => ?_
            cases out with
            | error e => exact Keeps.ite (fun _ => ih) (fun _ => Keeps.ret _)
            | ok o =>
              refine Tri.bind (Q := fun _ => I)
                ((Tri.attempt (h.store _ _)).post fun r s hs => by cases r <;> exact hs) fun _ => ?_
              refine (keeps_getTuf I).bind fun t => ?_
              cases t.delegations.get? d.role with
              | none => exact Keeps.fail _
              | some md =>
                dsimp only
                refine (hrec _ _ _).bind fun x => ?_
                obtain ⟨term, res⟩ := x
                cases res with
                | error e => exact Keeps.ite (fun _ => Keeps.ret _) (fun _ => ih)
                | ok _ => exact ih
        cases r with
        | ok raw => exact (Keeps.ret' _).bind fun f => tail f
        | error e => exact (Keeps.attempt (h.fetch .remote _ _ _ _ _)).bind fun f => tail f

theorem lookupIn (h : Walk E D R I J) (target : VirtualTargetPath)
    (sn : SnapshotMetadata) (rem : Nat) :
    ∀ b m r, Keeps I (Client.lookupIn E D R target sn rem b m r) := by
  induction rem with
  | zero => intro b m r; exact Keeps.ret _
  | succ rem ih =>
    intro b m r
    unfold Client.lookupIn
    split
    · exact Keeps.ret _
    · split
      · exact Keeps.ret _
      · exact h.lookupLoop _ ih _ _ _ _ _

theorem fetchTargetDescription (h : Walk E D R I J)
    (target : TargetPath) : Keeps I (fetchTargetDescription E D R cfg target) := by
  unfold Client.fetchTargetDescription
  refine (Keeps.ofExcept _).bind fun virt => (keeps_getTuf I).bind fun t => ?_
  cases t.snapshot with
  | none => exact Keeps.fail _
  | some sn =>
    cases t.targets with
    | none => exact Keeps.fail _
    | some ta =>
      dsimp only
      exact (h.lookupIn virt sn _ _ _ _).bind fun x => Keeps.ofExcept _

theorem fetchTargetReader (h : Walk E D R I J)
    (hg : ∀ p d, Keeps I (lift (fetchTargetStream D R p d))) (target : TargetPath) :
    Keeps I (fetchTargetReader E D R cfg target) := by
  unfold Client.fetchTargetReader
  refine (h.fetchTargetDescription target).bind fun d => (keeps_getTuf I).bind fun t => ?_
  refine Keeps.ite (fun _ => ?_) (fun _ => hg _ _)
  exact (Keeps.ofExcept _).bind fun p => (Keeps.ofExcept _).bind fun path => hg _ _

end Walk

namespace Prims
variable {E : Env} {D : Digest} {R : World W} {I : St W → Prop} {cfg : Config}

theorem walk (h : Prims E D R I (fun _ => True) True DelegOp) : Walk E D R I (fun _ _ => I) where
  fetch src := h.fetch src trivial
  clock := h.clock
  op clk parent p raw := h.op _ ⟨clk, parent, p, raw, rfl⟩
  store _ _ := h.store trivial _ _ _ _

theorem fetchTargetDescription (h : Prims E D R I (fun _ => True) True DelegOp)
    (target : TargetPath) : Keeps I (fetchTargetDescription E D R cfg target) :=
  h.walk.fetchTargetDescription target

theorem fetchTargetReader (h : Prims E D R I (fun _ => True) True DelegOp)
    (hg : ∀ p d, Keeps I (lift (fetchTargetStream D R p d))) (target : TargetPath) :
    Keeps I (fetchTargetReader E D R cfg target) :=
  h.walk.fetchTargetReader hg target

end Prims
end RustTuf
