import Verif.Lemmas.Keeps

/-!
# Invariants that depend on the clock
`Timed`: an assertion about the trusted metadata is preserved by all update calls with clocks that the world
can show. It is preserved by the client functions.
-/

namespace RustTuf
open Client

variable {W : Type}

/-- The clock of a call, if it has one, satisfies `C`. -/
def OpClock (C : Clock → Prop) : Tuf.Op → Prop
  | .root _ => True
  | .timestamp clk _ => C clk
  | .snapshot clk _ => C clk
  | .targets clk _ => C clk
  | .delegation clk _ _ _ => C clk

structure Timed (E : Env) (R : World W) (C : Clock → Prop) (P : Tuf → Prop) : Prop where
  clock : ∀ w, C (R.clock w).1
  op : ∀ t o, OpClock C o → P t → P (Tuf.step E t o).2

namespace Timed
variable {E : Env} {D : Digest} {R : World W} {C : Clock → Prop} {P : Tuf → Prop} {cfg : Config}

theorem lifted {α : Type} (m : M (Io W) α) : Keeps (fun s : St W => P s.tuf) (lift m) := by
  intro s hs
  unfold lift
  cases m s.io with
  | mk r io' => cases r <;> exact hs

section
variable (h : Timed E R C P)
include h

theorem clockBind {α : Type} {f : Clock → M (St W) α} (hf : ∀ c, C c → Keeps (fun s : St W => P s.tuf) (f c)) :
    Keeps (fun s : St W => P s.tuf) (getClock R >>= f) := by
  refine Tri.bind (Q := fun c (s : St W) => C c ∧ P s.tuf) (X := fun _ s => P s.tuf) (fun s hs => ⟨h.clock _, hs⟩) fun c => ?_
  intro s hs
  exact hf c hs.1 s hs.2

theorem opKeeps (o : Tuf.Op) (ho : OpClock C o) : Keeps (fun s : St W => P s.tuf) (updateTuf E o) := by
  intro s hs
  have := h.op s.tuf o ho hs
  unfold updateTuf
  cases e : Tuf.step E s.tuf o with
  | mk out t' =>
    rw [e] at this
    cases out <;> exact this

theorem rootLoop (src : Source) (persist : Bool) (fuel : Nat) :
    ∀ upd, Keeps (fun s : St W => P s.tuf) (rootLoop E D R cfg src persist fuel upd) := by
  induction fuel with
  | zero => exact fun _ => Keeps.fail _
  | succ fuel ih =>
    intro upd
    unfold Client.rootLoop
    refine (keeps_getTuf _).bind fun t => (Keeps.ofExcept _).bind fun next => ?_
    refine (Keeps.attempt (lifted _)).bind fun r => ?_
    cases r with
    | error e => cases e <;> first | exact Keeps.ret _ | exact Keeps.fail _
    | ok raw =>
      refine (h.opKeeps _ (by exact trivial)).bind fun _ => ?_
      refine (Keeps.when fun hb => ?_).bind fun _ => ih true
      exact (lifted _).bind fun _ => lifted _

theorem updateRoot (src : Source) (persist : Bool) :
    Keeps (fun s : St W => P s.tuf) (updateRootWithRepos E D R cfg src persist) := by
  unfold updateRootWithRepos
  refine (h.rootLoop src persist _ _).bind fun b => ?_
  refine h.clockBind fun c _ => (keeps_getTuf _).bind fun t => ?_
  exact Keeps.ite (fun _ => Keeps.fail _) (fun _ => Keeps.ret _)

theorem finish (persist : Bool) (o : Tuf.Op) (ho : OpClock C o) (role : Role) (p : MetadataPath) (raw : Bytes) :
    Keeps (fun s : St W => P s.tuf) (do match ← updateTuf E o with
          | .changed =>
            M.when persist (lift (storeMetadata R role p .none raw))
            return true
          | _ => return false) := by
  refine (h.opKeeps o ho).bind fun out => ?_
  cases out with
  | changed => exact (Keeps.when fun hb => lifted _).bind fun _ => Keeps.ret _
  | unchanged => exact Keeps.ret _
  | failed e => exact Keeps.ret _

theorem updateTimestamp (src : Source) (persist : Bool) :
    Keeps (fun s : St W => P s.tuf) (updateTimestampWithRepos E D R cfg src persist) := by
  unfold updateTimestampWithRepos
  refine (lifted _).bind fun raw => h.clockBind fun c hc => ?_
  exact h.finish persist _ (by exact hc) _ _ _

theorem updateSnapshot (src : Source) (persist : Bool) (consistent : Bool) :
    Keeps (fun s : St W => P s.tuf) (updateSnapshotWithRepos E D R src persist consistent) := by
  unfold updateSnapshotWithRepos
  refine (keeps_getTuf _).bind fun t => ?_
  cases t.timestamp with
  | none => exact Keeps.fail _
  | some ts =>
    refine Keeps.ite (fun _ => Keeps.ret _) fun _ => (Keeps.ofExcept _).bind fun p => ?_
    obtain ⟨a, v⟩ := p
    refine (lifted _).bind fun raw => h.clockBind fun c hc => ?_
    exact h.finish persist _ (by exact hc) _ _ _

theorem updateTargets (src : Source) (persist : Bool) (consistent : Bool) :
    Keeps (fun s : St W => P s.tuf) (updateTargetsWithRepos E D R src persist consistent) := by
  unfold updateTargetsWithRepos
  refine (keeps_getTuf _).bind fun t => ?_
  cases t.snapshot with
  | none => exact Keeps.fail _
  | some sn =>
    dsimp only
    cases sn.metas.get? (MetadataPath.fromRole .targets) with
    | none => exact Keeps.fail _
    | some m =>
      refine Keeps.ite (fun _ => Keeps.ret _) fun _ => (Keeps.ofExcept _).bind fun p => ?_
      obtain ⟨a, v⟩ := p
      refine (lifted _).bind fun raw => h.clockBind fun c hc => ?_
      exact h.finish persist _ (by exact hc) _ _ _

theorem update : Keeps (fun s : St W => P s.tuf) (update E D R cfg) := by
  unfold Client.update
  refine (h.updateRoot _ _).bind fun _ => ?_
  refine (h.updateTimestamp _ _).bind fun _ => (keeps_getTuf _).bind fun _ => ?_
  refine (h.updateSnapshot _ _ _).bind fun _ => (keeps_getTuf _).bind fun _ => ?_
  exact (h.updateTargets _ _ _).bind fun _ => Keeps.ret _

theorem loadLocal : Keeps (fun s : St W => P s.tuf) (loadLocal E D R cfg) := by
  unfold Client.loadLocal
  refine (h.updateRoot _ _).bind fun _ => ?_
  refine (h.updateTimestamp _ _).bind fun _ => ?_
  refine (h.updateSnapshot _ _ _).bind fun _ => ?_
  exact (h.updateTargets _ _ _).bind fun _ => Keeps.ret _

theorem lookupLoop (rec : Bool → TargetsMetadata → MetadataPath → M (St W) Found)
    (hrec : ∀ b m r, Keeps (fun s : St W => P s.tuf) (rec b m r)) (target : VirtualTargetPath)
    (sn : SnapshotMetadata) (dflt : Bool) (parent : MetadataPath) (ds : List Delegation) :
    Keeps (fun s : St W => P s.tuf) (Client.lookupLoop E D R rec dflt target sn parent ds) := by
  induction ds with
  | nil => exact Keeps.ret _
  | cons d ds ih =>
    unfold Client.lookupLoop
    refine Keeps.ite (fun _ => Keeps.ite (fun _ => Keeps.ret _) (fun _ => ih)) fun _ => ?_
    cases sn.metas.get? d.role with
    | none => exact Keeps.ite (fun _ => ih) (fun _ => Keeps.ret _)
    | some m =>
      dsimp only
      cases hashPreference m.hashes with
      | error e => exact Keeps.ret _
      | ok p =>
        obtain ⟨a, v⟩ := p
        dsimp only
        refine (keeps_getTuf _).bind fun t => ?_
        refine (Keeps.attempt (lifted _)).bind fun r => ?_
        have tail : ∀ fetched : Except Err Bytes, Keeps (fun s : St W => P s.tuf) (match fetched with
          | .error e =>
            if !d.terminating then Client.lookupLoop E D R rec dflt target sn parent ds
            else return (true, .error e)
          | .ok raw => do
            let clk ← getClock R
            match ← M.attempt (updateTuf E (.delegation clk parent d.role raw)) with
            | .ok _ =>
              let _ ← M.attempt (lift (storeMetadata R .targets d.role .none raw))
              let t ← getTuf
              match t.delegations.get? d.role with
              | none => M.fail .panic
              | some m =>
                let (term, res) ← rec d.terminating m d.role
                match res with
                | .error e =>
                  if term then return (true, .error e)
                  else Client.lookupLoop E D R rec dflt target sn parent ds
                | .ok _ => Client.lookupLoop E D R rec dflt target sn parent ds
            | .error e =>
              if !d.terminating then Client.lookupLoop E D R rec dflt target sn parent ds
              else return (true, .error e)) := by
          intro fetched
          cases fetched with
          | error e => exact Keeps.ite (fun _ => ih) (fun _ => Keeps.ret _)
          | ok raw =>
            refine h.clockBind fun clk hc => ?_
            refine (Keeps.attempt (h.opKeeps _ (by exact hc))).bind fun out => ?_
            cases out with
            | error e => exact Keeps.ite (fun _ => ih) (fun _ => Keeps.ret _)
            | ok o =>
              refine (Keeps.attempt (lifted _)).bind fun _ => ?_
              refine (keeps_getTuf _).bind fun t => ?_
              cases t.delegations.get? d.role with
              | none => exact Keeps.fail _
              | some md =>
                dsimp only
                refine (hrec _ _ _).bind fun x => ?_
                obtain ⟨term, res⟩ := x
                cases res with
                | error e => exact Keeps.ite (fun _ => Keeps.ret _) (fun _ => ih)
                | ok _ => exact ih
        cases r with
        | ok raw => exact (Keeps.ret' _).bind fun f => tail f
        | error e => exact (Keeps.attempt (lifted _)).bind fun f => tail f

theorem lookupIn (target : VirtualTargetPath) (sn : SnapshotMetadata) (rem : Nat) :
    ∀ b m r, Keeps (fun s : St W => P s.tuf) (Client.lookupIn E D R target sn rem b m r) := by
  induction rem with
  | zero => intro b m r; exact Keeps.ret _
  | succ rem ih =>
    intro b m r
    unfold Client.lookupIn
    split
    · exact Keeps.ret _
    · split
      · exact Keeps.ret _
      · exact h.lookupLoop _ ih _ _ _ _ _

theorem fetchTargetDescription (target : TargetPath) :
    Keeps (fun s : St W => P s.tuf) (fetchTargetDescription E D R cfg target) := by
  unfold Client.fetchTargetDescription
  refine (Keeps.ofExcept _).bind fun virt => (keeps_getTuf _).bind fun t => ?_
  cases t.snapshot with
  | none => exact Keeps.fail _
  | some sn =>
    cases t.targets with
    | none => exact Keeps.fail _
    | some ta =>
      dsimp only
      exact (h.lookupIn virt sn _ _ _ _).bind fun x => Keeps.ofExcept _

theorem fetchTargetReader (target : TargetPath) :
    Keeps (fun s : St W => P s.tuf) (fetchTargetReader E D R cfg target) := by
  unfold Client.fetchTargetReader
  refine (h.fetchTargetDescription target).bind fun d => (keeps_getTuf _).bind fun t => ?_
  refine Keeps.ite (fun _ => ?_) (fun _ => lifted _)
  exact (Keeps.ofExcept _).bind fun p => (Keeps.ofExcept _).bind fun path => lifted _

theorem exec (c : Call) : Keeps (fun s : St W => P s.tuf) (exec E D R cfg c) := by
  cases c with
  | update => exact h.update.bind fun _ => Keeps.ret _
  | fetchTarget p =>
    exact Keeps.bind (Keeps.bind (h.fetchTargetReader p) fun _ => lifted _) fun _ => Keeps.ret _
  | fetchTargetToWriter p =>
    exact Keeps.bind (Keeps.bind (h.fetchTargetReader p) fun _ => lifted _) fun _ => Keeps.ret _
  | fetchTargetDescription p => exact (h.fetchTargetDescription p).bind fun _ => Keeps.ret _

theorem execAll (calls : List Call) : ∀ s : St W, P s.tuf → P (execAll E D R cfg s calls).tuf := by
  induction calls with
  | nil => exact fun _ hs => hs
  | cons c cs ih => exact fun s hs => ih _ ((h.exec c).run hs)

theorem new (t0 t : Tuf) (io io' : Io W) (h0 : P t0) (hn : Client.new E D R cfg t0 io = (.ok t, io')) : P t := by
  unfold Client.new at hn
  have := (h.loadLocal (D := D) (cfg := cfg)).run (s := ⟨t0, io⟩) h0
  cases e : Client.loadLocal E D R cfg ⟨t0, io⟩ with
  | mk r s =>
    rw [e] at hn this
    cases r with
    | ok u => cases hn; exact this
    | error err =>
      cases err <;> first | (cases hn; exact this) | cases hn

end
end Timed
end RustTuf
