import Verif.Spec.Settings
import Verif.Spec.Storage
import Verif.Props.Clocks
import Verif.Model.HttpRepository

/-! C124: every setting of a client affects only what it is for. -/

namespace RustTuf.Props
open Spec Client Tuf

namespace Settings
variable {W : Type} {α β : Type}

/-! ### Comparing two runs -/

/-- The same result from states that are the same but for limits. -/
def Sim (m m' : M (St W) α) : Prop :=
  ∀ s s', SameButLimits s s' → (m s).1 = (m' s').1 ∧ SameButLimits (m s).2 (m' s').2

/-- The same result, unless the first run fails with the error for documents that are too long. -/
def Sees (m m' : M (St W) α) : Prop :=
  ∀ s s', SameButLimits s s' →
    (m s).1 = .error .opaqueErr ∨ ((m s).1 = (m' s').1 ∧ SameButLimits (m s).2 (m' s').2)

theorem Sim.sees {m m' : M (St W) α} (h : Sim m m') : Sees m m' := fun s s' hs => .inr (h s s' hs)

theorem sim_ret (a : α) : Sim (W := W) (pure a) (pure a) := fun _ _ hs => ⟨rfl, hs⟩

theorem sim_fail (e : Err) : Sim (W := W) (α := α) (M.fail e) (M.fail e) := fun _ _ hs => ⟨rfl, hs⟩

theorem sim_ofExcept (r : Except Err α) : Sim (W := W) (M.ofExcept r) (M.ofExcept r) := fun _ _ hs => ⟨rfl, hs⟩

theorem sim_getTuf : Sim (W := W) getTuf getTuf := fun _ _ hs => ⟨congrArg Except.ok hs.tuf, hs⟩

theorem Sim.bind {m m' : M (St W) α} {f f' : α → M (St W) β} (h : Sim m m') (hf : ∀ a, Sim (f a) (f' a)) :
    Sim (m >>= f) (m' >>= f') := by
  intro s s' hs
  obtain ⟨h1, h2⟩ := h s s' hs
  show (M.bind m f s).1 = (M.bind m' f' s').1 ∧ SameButLimits (M.bind m f s).2 (M.bind m' f' s').2
  unfold M.bind
  rcases hm : m s with ⟨r, x⟩
  rcases hm' : m' s' with ⟨r', x'⟩
  rw [hm, hm'] at h1 h2
  dsimp only at h1 h2
  subst h1
  cases r with
  | error e => exact ⟨rfl, h2⟩
  | ok a => exact hf a x x' h2

theorem Sees.bind {m m' : M (St W) α} {f f' : α → M (St W) β} (h : Sees m m') (hf : ∀ a, Sees (f a) (f' a)) :
    Sees (m >>= f) (m' >>= f') := by
  intro s s' hs
  have h0 := h s s' hs
  show (M.bind m f s).1 = .error .opaqueErr ∨
    ((M.bind m f s).1 = (M.bind m' f' s').1 ∧ SameButLimits (M.bind m f s).2 (M.bind m' f' s').2)
  unfold M.bind
  rcases hm : m s with ⟨r, x⟩
  rcases hm' : m' s' with ⟨r', x'⟩
  rw [hm, hm'] at h0
  dsimp only at h0
  rcases h0 with h0 | ⟨h1, h2⟩
  · subst h0
    exact .inl rfl
  subst h1
  cases r with
  | error e => exact .inr ⟨rfl, h2⟩
  | ok a => exact hf a x x' h2

theorem Sim.attempt {m m' : M (St W) α} (h : Sim m m') : Sim (M.attempt m) (M.attempt m') := by
  intro s s' hs
  obtain ⟨h1, h2⟩ := h s s' hs
  unfold M.attempt
  rcases hm : m s with ⟨r, x⟩
  rcases hm' : m' s' with ⟨r', x'⟩
  rw [hm, hm'] at h1 h2
  dsimp only at h1 h2
  subst h1
  cases r with
  | error e => cases e <;> exact ⟨rfl, h2⟩
  | ok a => exact ⟨rfl, h2⟩

theorem Sim.when {m m' : M (St W) Unit} (b : Bool) (h : Sim m m') : Sim (M.when b m) (M.when b m') := by
  cases b
  · exact sim_ret _
  · exact h

/-! ### Use of the repositories -/

/-- The same for code that uses only the repositories. -/
def Quiet (m : M (Io W) α) : Prop :=
  ∀ s s' : Io W, s.w = s'.w → s.log.map withoutLimit = s'.log.map withoutLimit →
    (m s).1 = (m s').1 ∧ (m s).2.w = (m s').2.w ∧
      (m s).2.log.map withoutLimit = (m s').2.log.map withoutLimit

theorem quiet_ret (a : α) : Quiet (W := W) (pure a) := fun _ _ hw hl => ⟨rfl, hw, hl⟩

theorem quiet_fail (e : Err) : Quiet (W := W) (α := α) (M.fail e) := fun _ _ hw hl => ⟨rfl, hw, hl⟩

theorem quiet_ofExcept (r : Except Err α) : Quiet (W := W) (M.ofExcept r) := fun _ _ hw hl => ⟨rfl, hw, hl⟩

theorem quiet_note (e : LogEntry) : Quiet (W := W) (Io.note e) := by
  intro s s' hw hl
  refine ⟨rfl, hw, ?_⟩
  show (s.log ++ [e]).map withoutLimit = (s'.log ++ [e]).map withoutLimit
  simp only [List.map_append, hl]

theorem quiet_call (f : W → Except Err α × W) : Quiet (Io.call f) := by
  intro s s' hw hl
  show (f s.w).1 = (f s'.w).1 ∧ (f s.w).2 = (f s'.w).2 ∧ _
  rw [hw]
  exact ⟨rfl, rfl, hl⟩

theorem Quiet.bind {m : M (Io W) α} {f : α → M (Io W) β} (h : Quiet m) (hf : ∀ a, Quiet (f a)) :
    Quiet (m >>= f) := by
  intro s s' hw hl
  obtain ⟨h1, h2, h3⟩ := h s s' hw hl
  show (M.bind m f s).1 = (M.bind m f s').1 ∧ (M.bind m f s).2.w = (M.bind m f s').2.w ∧
    (M.bind m f s).2.log.map withoutLimit = (M.bind m f s').2.log.map withoutLimit
  unfold M.bind
  rcases hm : m s with ⟨r, x⟩
  rcases hm' : m s' with ⟨r', x'⟩
  rw [hm, hm'] at h1 h2 h3
  dsimp only at h1 h2 h3
  subst h1
  cases r with
  | error e => exact ⟨rfl, h2, h3⟩
  | ok a => exact hf a x x' h2 h3

theorem Quiet.sim {m : M (Io W) α} (h : Quiet m) : Sim (lift m) (lift m) := by
  intro s s' hs
  obtain ⟨h1, h2, h3⟩ := h s.io s'.io hs.w hs.log
  exact ⟨h1, hs.tuf, h2, h3⟩

variable {R : World W}

theorem sim_fetch (D : Digest) (R : World W) (src : Source) (role : Role) (p : MetadataPath)
    (v : MetadataVersion) (n : Option Nat) (hd : HashData) :
    Sim (lift (fetchMetadata D R src role p v n hd)) (lift (fetchMetadata D R src role p v n hd)) :=
  Quiet.sim ((quiet_ofExcept _).bind fun _ => (quiet_note _).bind fun _ => (quiet_call _).bind fun _ =>
    (quiet_ofExcept _).bind fun _ => (quiet_note _).bind fun _ => quiet_ret _)

theorem sim_store (R : World W) (role : Role) (p : MetadataPath) (v : MetadataVersion) (raw : Bytes) :
    Sim (lift (storeMetadata R role p v raw)) (lift (storeMetadata R role p v raw)) :=
  Quiet.sim ((quiet_ofExcept _).bind fun _ => (quiet_note _).bind fun _ => quiet_call _)

theorem sim_clock (R : World W) : Sim (getClock R) (getClock R) := by
  intro s s' hs
  unfold getClock
  rw [hs.w]
  exact ⟨rfl, hs.tuf, rfl, hs.log⟩

theorem sim_op (E : Env) (op : Op) : Sim (W := W) (updateTuf E op) (updateTuf E op) := by
  intro s s' hs
  unfold updateTuf
  rw [hs.tuf]
  rcases step E s'.tuf op with ⟨o, t'⟩
  have hl : (s.io.log ++ [LogEntry.op op o]).map withoutLimit = (s'.io.log ++ [LogEntry.op op o]).map withoutLimit := by
    simp only [List.map_append, hs.log]
  cases o <;> exact ⟨rfl, rfl, hs.w, hl⟩

/-! ### Reading with a higher limit -/

theorem raised_le {m m' : Option Nat} (h : Raised m m') : m.getD usizeMax ≤ m'.getD usizeMax := by
  cases m <;> cases m'
  · exact Nat.le_refl _
  · exact h.elim
  · exact h
  · exact h

theorem readToEnd_raised (D : Digest) {n n' : Nat} (h : n ≤ n') (evs : List Ev) : ∀ (k : Nat) (acc : Bytes),
    SafeReader.readToEnd D ⟨n, none, k⟩ evs acc = .error .invalidData ∨
      SafeReader.readToEnd D ⟨n, none, k⟩ evs acc = SafeReader.readToEnd D ⟨n', none, k⟩ evs acc := by
  induction evs with
  | nil => exact fun k acc => .inr rfl
  | cons ev evs ih =>
    intro k acc
    cases ev with
    | pending => exact ih k acc
    | err e => exact .inr rfl
    | data bs =>
      cases bs with
      | nil => exact .inr rfl
      | cons b bs =>
        by_cases h1 : k + (b :: bs).length ≤ u64Max ∧ k + (b :: bs).length ≤ n
        · have h2 : k + (b :: bs).length ≤ u64Max ∧ k + (b :: bs).length ≤ n' := ⟨h1.1, Nat.le_trans h1.2 h⟩
          simp only [SafeReader.readToEnd, SafeReader.poll, if_pos h1, if_pos h2]
          exact ih _ _
        · left
          simp only [SafeReader.readToEnd, SafeReader.poll, if_neg h1]

theorem readChecked_raised (D : Digest) {n n' : Nat} (h : n ≤ n') (evs : List Ev) :
    readChecked D n none evs = .error .opaqueErr ∨ readChecked D n none evs = readChecked D n' none evs := by
  unfold readChecked SafeReader.new
  rcases readToEnd_raised D h evs 0 [] with e | e
  · left
    simp only [e]
    rfl
  · right
    simp only [e]

/-- Two programs that use only the repositories: the same, unless the first one fails with the error for
documents that are too long. -/
def SeesIo (m m' : M (Io W) α) : Prop :=
  ∀ s s' : Io W, s.w = s'.w → s.log.map withoutLimit = s'.log.map withoutLimit →
    (m s).1 = .error .opaqueErr ∨ ((m s).1 = (m' s').1 ∧ (m s).2.w = (m' s').2.w ∧
      (m s).2.log.map withoutLimit = (m' s').2.log.map withoutLimit)

theorem Quiet.seesIo {m : M (Io W) α} (h : Quiet m) : SeesIo m m := fun s s' hw hl => .inr (h s s' hw hl)

theorem SeesIo.bind {m m' : M (Io W) α} {f f' : α → M (Io W) β} (h : SeesIo m m') (hf : ∀ a, SeesIo (f a) (f' a)) :
    SeesIo (m >>= f) (m' >>= f') := by
  intro s s' hw hl
  have h0 := h s s' hw hl
  show (M.bind m f s).1 = .error .opaqueErr ∨ ((M.bind m f s).1 = (M.bind m' f' s').1 ∧
    (M.bind m f s).2.w = (M.bind m' f' s').2.w ∧
    (M.bind m f s).2.log.map withoutLimit = (M.bind m' f' s').2.log.map withoutLimit)
  unfold M.bind
  rcases hm : m s with ⟨r, x⟩
  rcases hm' : m' s' with ⟨r', x'⟩
  rw [hm, hm'] at h0
  dsimp only at h0
  rcases h0 with h0 | ⟨h1, h2, h3⟩
  · subst h0
    exact .inl rfl
  subst h1
  cases r with
  | error e => exact .inr ⟨rfl, h2, h3⟩
  | ok a => exact hf a x x' h2 h3

theorem fetch_raised (hR : LimitBlind R) (D : Digest) (role : Role) (p : MetadataPath)
    (v : MetadataVersion) {n n' : Option Nat} (h : Raised n n') :
    Sees (lift (fetchMetadata D R .remote role p v n none)) (lift (fetchMetadata D R .remote role p v n' none)) := by
  have key : SeesIo (fetchMetadata D R .remote role p v n none) (fetchMetadata D R .remote role p v n' none) := by
    unfold fetchMetadata
    refine (quiet_ofExcept _).seesIo.bind fun _ => SeesIo.bind ?_ fun _ => SeesIo.bind ?_ fun evs =>
      SeesIo.bind ?_ fun raw => (quiet_note _).seesIo.bind fun _ => (quiet_ret _).seesIo
    · intro s s' hw hl
      refine .inr ⟨rfl, hw, ?_⟩
      show (s.log ++ [LogEntry.fetch .remote p v n none]).map withoutLimit =
        (s'.log ++ [LogEntry.fetch .remote p v n' none]).map withoutLimit
      simp only [List.map_append, hl]
      rfl
    · show SeesIo (Io.call (R.remote.fetchMetadata p v n none)) (Io.call (R.remote.fetchMetadata p v n' none))
      rw [hR p v n n' none]
      exact (quiet_call _).seesIo
    · intro s s' hw hl
      rcases readChecked_raised D (raised_le h) evs with e | e
      · exact .inl e
      · exact .inr ⟨e, hw, hl⟩
  intro s s' hs
  rcases key s.io s'.io hs.w hs.log with e | ⟨h1, h2, h3⟩
  · exact .inl e
  · exact .inr ⟨h1, hs.tuf, h2, h3⟩

/-! ### Updates with higher limits -/

variable (E : Env) (D : Digest) {cfg cfg' : Config}

theorem rootLoop_raised (hR : LimitBlind R) (h : RaisedLimits cfg cfg') (fuel : Nat) : ∀ upd : Bool,
    Sees (rootLoop E D R cfg .remote true fuel upd) (rootLoop E D R cfg' .remote true fuel upd) := by
  induction fuel with
  | zero => intro upd; exact (sim_fail _).sees
  | succ fuel ih =>
    intro upd
    unfold rootLoop
    rw [← h.checks]
    refine sim_getTuf.sees.bind fun t => (sim_ofExcept _).sees.bind fun next => ?_
    intro s s' hs
    have h0 := fetch_raised hR D .root (MetadataPath.fromRole .root) (.number next) h.root s s' hs
    show (M.bind _ _ s).1 = _ ∨ ((M.bind _ _ s).1 = (M.bind _ _ s').1 ∧
      SameButLimits (M.bind _ _ s).2 (M.bind _ _ s').2)
    unfold M.bind M.attempt
    rcases hm : lift (fetchMetadata D R .remote .root (MetadataPath.fromRole .root) (.number next)
      cfg.maxRootLength none) s with ⟨r, x⟩
    rcases hm' : lift (fetchMetadata D R .remote .root (MetadataPath.fromRole .root) (.number next)
      cfg'.maxRootLength none) s' with ⟨r', x'⟩
    rw [hm, hm'] at h0
    dsimp only at h0
    rcases h0 with h0 | ⟨h1, h2⟩
    · subst h0
      exact .inl rfl
    subst h1
    cases r with
    | error e => cases e <;> exact .inr ⟨rfl, h2⟩
    | ok raw =>
      exact ((sim_op E _).sees.bind fun _ => (Sim.when _ ((sim_store R _ _ _ _).bind fun _ =>
        sim_store R _ _ _ _)).sees.bind fun _ => ih true) x x' h2

theorem updateRoot_raised (hR : LimitBlind R) (h : RaisedLimits cfg cfg') :
    Sees (updateRootWithRepos E D R cfg .remote true) (updateRootWithRepos E D R cfg' .remote true) := by
  unfold updateRootWithRepos
  refine (rootLoop_raised E D hR h _ _).bind fun upd => (sim_clock R).sees.bind fun clk =>
    sim_getTuf.sees.bind fun t => ?_
  split
  · exact (sim_fail _).sees
  · exact (sim_ret _).sees

theorem updateTimestamp_raised (hR : LimitBlind R) (h : RaisedLimits cfg cfg') :
    Sees (updateTimestampWithRepos E D R cfg .remote true)
      (updateTimestampWithRepos E D R cfg' .remote true) := by
  unfold updateTimestampWithRepos
  refine (fetch_raised hR D _ _ _ h.timestamp).bind fun raw => (sim_clock R).sees.bind fun clk =>
    (sim_op E _).sees.bind fun o => Sim.sees ?_
  split
  · exact (Sim.when _ (sim_store R _ _ _ _)).bind fun _ => sim_ret _
  · exact sim_ret _

theorem updateSnapshot_sim (R : World W) (src : Source) (persist consistent : Bool) :
    Sim (updateSnapshotWithRepos E D R src persist consistent)
      (updateSnapshotWithRepos E D R src persist consistent) := by
  unfold updateSnapshotWithRepos
  refine sim_getTuf.bind fun t => ?_
  split
  · exact sim_fail _
  split
  · exact sim_ret _
  refine (sim_ofExcept _).bind fun av => (sim_fetch D R _ _ _ _ _ _).bind fun raw => (sim_clock R).bind fun clk =>
    (sim_op E _).bind fun o => ?_
  split
  · exact (Sim.when _ (sim_store R _ _ _ _)).bind fun _ => sim_ret _
  · exact sim_ret _

theorem updateTargets_sim (R : World W) (src : Source) (persist consistent : Bool) :
    Sim (updateTargetsWithRepos E D R src persist consistent)
      (updateTargetsWithRepos E D R src persist consistent) := by
  unfold updateTargetsWithRepos
  refine sim_getTuf.bind fun t => ?_
  split
  · exact sim_fail _
  split
  · exact sim_fail _
  split
  · exact sim_ret _
  refine (sim_ofExcept _).bind fun av => (sim_fetch D R _ _ _ _ _ _).bind fun raw => (sim_clock R).bind fun clk =>
    (sim_op E _).bind fun o => ?_
  split
  · exact (Sim.when _ (sim_store R _ _ _ _)).bind fun _ => sim_ret _
  · exact sim_ret _

theorem update_raised (hR : LimitBlind R) (h : RaisedLimits cfg cfg') :
    Sees (exec E D R cfg .update) (exec E D R cfg' .update) := by
  unfold exec update
  exact ((updateRoot_raised E D hR h).bind fun _ => (updateTimestamp_raised E D hR h).bind fun _ =>
    sim_getTuf.sees.bind fun _ => (updateSnapshot_sim E D R _ _ _).sees.bind fun _ =>
    sim_getTuf.sees.bind fun _ => (updateTargets_sim E D R _ _ _).sees.bind fun _ => (sim_ret _).sees).bind
    fun _ => (sim_ret _).sees

/-! ### The other calls -/

theorem lookupLoop_sim (R : World W) {rec : Bool → TargetsMetadata → MetadataPath → M (St W) Found}
    (hrec : ∀ b m p, Sim (rec b m p) (rec b m p)) (dflt : Bool) (target : VirtualTargetPath)
    (sn : SnapshotMetadata) (parent : MetadataPath) (ds : List Delegation) :
    Sim (Client.lookupLoop E D R rec dflt target sn parent ds)
      (Client.lookupLoop E D R rec dflt target sn parent ds) := by
  induction ds with
  | nil => exact sim_ret _
  | cons d ds ih =>
    unfold Client.lookupLoop
    split
    · split
      · exact sim_ret _
      · exact ih
    split
    · split
      · exact ih
      · exact sim_ret _
    split
    · exact sim_ret _
    refine sim_getTuf.bind fun t => (sim_fetch D R _ _ _ _ _ _).attempt.bind fun cached => Sim.bind ?_ fun fetched => ?_
    · split
      · exact sim_ret _
      · exact (sim_fetch D R _ _ _ _ _ _).attempt
    split
    · split
      · exact ih
      · exact sim_ret _
    refine (sim_clock R).bind fun clk => (sim_op E _).attempt.bind fun o => ?_
    split
    · refine (sim_store R _ _ _ _).attempt.bind fun _ => sim_getTuf.bind fun t => ?_
      split
      · exact sim_fail _
      refine (hrec _ _ _).bind fun r => ?_
      obtain ⟨term, res⟩ := r
      dsimp only
      cases res with
      | error e =>
        dsimp only
        split
        · exact sim_ret _
        · exact ih
      | ok d => exact ih
    · split
      · exact ih
      · exact sim_ret _

theorem lookupIn_sim (R : World W) (target : VirtualTargetPath) (sn : SnapshotMetadata) (k : Nat) :
    ∀ b m p, Sim (lookupIn E D R target sn k b m p) (lookupIn E D R target sn k b m p) := by
  induction k with
  | zero => exact fun b m p => sim_ret _
  | succ k ih =>
    intro b m p
    unfold lookupIn
    split
    · exact sim_ret _
    split
    · exact sim_ret _
    · exact lookupLoop_sim E D R ih _ _ _ _ _

theorem description_sim (R : World W) (cfg : Config) (p : TargetPath) :
    Sim (fetchTargetDescription E D R cfg p) (fetchTargetDescription E D R cfg p) := by
  unfold fetchTargetDescription
  refine (sim_ofExcept _).bind fun virt => sim_getTuf.bind fun t => ?_
  split
  · exact sim_fail _
  split
  · exact sim_fail _
  · exact (lookupIn_sim E D R _ _ _ _ _ _).bind fun _ => sim_ofExcept _

theorem quiet_stream (R : World W) (p : TargetPath) (d : TargetDescription) :
    Quiet (fetchTargetStream D R p d) :=
  (quiet_ofExcept _).bind fun _ => (quiet_note _).bind fun _ => (quiet_call _).bind fun _ =>
    (quiet_ofExcept _).bind fun _ => quiet_ret _

theorem reader_sim (R : World W) (cfg : Config) (p : TargetPath) :
    Sim (fetchTargetReader E D R cfg p) (fetchTargetReader E D R cfg p) := by
  unfold fetchTargetReader
  refine (description_sim E D R cfg p).bind fun d => sim_getTuf.bind fun t => ?_
  split
  · exact (sim_ofExcept _).bind fun _ => (sim_ofExcept _).bind fun _ => (quiet_stream D R _ _).sim
  · exact (quiet_stream D R _ _).sim

theorem quiet_copy (R : World W) (evs : List Ev) : Quiet (copyToWriter R evs) := by
  have fl : Quiet (W := W) (fun s =>
    match R.flush s.w with
    | (.ok (), w') => (.ok (), { s with w := w' })
    | (.error k, w') => (.error k.toErr, { s with w := w' })) := by
    intro s s' hw hl
    dsimp only
    rw [hw]
    rcases R.flush s'.w with ⟨r, w'⟩
    cases r <;> exact ⟨rfl, rfl, hl⟩
  induction evs with
  | nil => exact fl
  | cons ev evs ih =>
    cases ev with
    | pending => exact ih
    | err k => exact quiet_fail _
    | data bs =>
      intro s s' hw hl
      unfold copyToWriter
      split
      · exact fl s s' hw hl
      · rw [hw]
        rcases R.write bs s'.w with ⟨r, w'⟩
        cases r with
        | error k => exact ⟨rfl, rfl, hl⟩
        | ok u =>
          refine ih _ _ rfl ?_
          simp only [List.map_append, hl]

/-- What a call does depends on the state only, not on the record of what was done. -/
theorem call_sim (R : World W) (cfg : Config) (c : Call) (hc : askedFor c ≠ none) :
    Sim (exec E D R cfg c) (exec E D R cfg c) := by
  cases c with
  | update => exact absurd rfl hc
  | fetchTarget p =>
    exact ((reader_sim E D R cfg p).bind fun evs =>
      Quiet.sim ((quiet_note _).bind fun _ => quiet_call _)).bind fun _ => sim_ret _
  | fetchTargetToWriter p =>
    exact ((reader_sim E D R cfg p).bind fun evs => (quiet_copy R evs).sim).bind fun _ => sim_ret _
  | fetchTargetDescription p => exact (description_sim E D R cfg p).bind fun _ => sim_ret _

end Settings

open Settings

section
variable {W : Type} (E : Env) (D : Digest) (R : World W) (cfg cfg' : Config)

/-! ### The theorems -/

/-- Construction and updates do not depend on the path translator or the limit on the delegation depth. -/
theorem C124_names_and_depth_do_not_matter_for_updates (hr : cfg.maxRootLength = cfg'.maxRootLength)
    (ht : cfg.maxTimestampLength = cfg'.maxTimestampLength) (hc : cfg.overflowChecks = cfg'.overflowChecks) :
    (∀ start, construct E D R cfg start = construct E D R cfg' start) ∧
      exec E D R cfg .update = exec E D R cfg' .update := by
  have loop : ∀ src persist fuel upd, rootLoop E D R cfg src persist fuel upd =
      rootLoop E D R cfg' src persist fuel upd := by
    intro src persist fuel
    induction fuel with
    | zero => intro upd; rfl
    | succ fuel ih =>
      intro upd
      unfold rootLoop
      rw [hr, hc]
      simp only [ih]
  have root : ∀ src persist, updateRootWithRepos E D R cfg src persist =
      updateRootWithRepos E D R cfg' src persist := by
    intro src persist
    unfold updateRootWithRepos
    rw [loop]
  have ts : ∀ src persist, updateTimestampWithRepos E D R cfg src persist =
      updateTimestampWithRepos E D R cfg' src persist := by
    intro src persist
    unfold updateTimestampWithRepos
    rw [ht]
  have hnew : ∀ t, Client.new E D R cfg t = Client.new E D R cfg' t := by
    intro t
    funext io
    unfold Client.new loadLocal
    rw [root, ts]
  constructor
  · intro start
    cases start with
    | trustedRoot raw =>
      show withTrustedRoot E D R cfg raw = withTrustedRoot E D R cfg' raw
      unfold withTrustedRoot
      simp only [hnew]
    | trustedLocal =>
      show withTrustedLocal E D R cfg = withTrustedLocal E D R cfg'
      unfold withTrustedLocal
      simp only [hnew, hr]
    | trustedRootKeys v n keys =>
      show withTrustedRootKeys E D R cfg v n keys = withTrustedRootKeys E D R cfg' v n keys
      unfold withTrustedRootKeys
      simp only [hnew, hr]
  · unfold exec update
    rw [root, ts]

/-- A call for a target depends on the path translator only through what it makes of the path of this target,
and not on the limits for metadata. -/
theorem C124_targets_depend_on_their_own_name (c : Call) (p : TargetPath) (hc : askedFor c = some p)
    (hp : cfg.realToVirtual p = cfg'.realToVirtual p) (hd : cfg.maxDelegationDepth = cfg'.maxDelegationDepth) :
    exec E D R cfg c = exec E D R cfg' c := by
  have hdesc : fetchTargetDescription E D R cfg p = fetchTargetDescription E D R cfg' p := by
    unfold fetchTargetDescription
    rw [hp, hd]
  have hread : fetchTargetReader E D R cfg p = fetchTargetReader E D R cfg' p := by
    unfold fetchTargetReader
    rw [hdesc]
  cases c with
  | update => cases hc
  | fetchTarget q => cases hc; simp only [exec, Client.fetchTarget, hread]
  | fetchTargetToWriter q => cases hc; simp only [exec, fetchTargetToWriter, hread]
  | fetchTargetDescription q => cases hc; simp only [exec, hdesc]

/-- For targets that the trusted top-level targets metadata list, the limit on the delegation depth does not
matter either. -/
theorem C124_depth_does_not_matter_for_listed_targets (c : Call) (p : TargetPath) (hc : askedFor c = some p)
    (hp : cfg.realToVirtual p = cfg'.realToVirtual p) (s : St W) (d : TargetDescription)
    (hd : TopEntry cfg s.tuf p d) : exec E D R cfg c s = exec E D R cfg' c s := by
  have hd' : TopEntry cfg' s.tuf p d := by
    obtain ⟨virt, ta, h1, h2, h3⟩ := hd
    exact ⟨virt, ta, hp ▸ h1, h2, h3⟩
  have hdesc : fetchTargetDescription E D R cfg p s = fetchTargetDescription E D R cfg' p s := by
    by_cases hsn : s.tuf.snapshot = none
    · rw [missing_description E D cfg hsn, missing_description E D cfg' hsn, hp]
    · rw [topEntry_description E D cfg hd hsn, topEntry_description E D cfg' hd' hsn]
  have hread : fetchTargetReader E D R cfg p s = fetchTargetReader E D R cfg' p s := by
    show M.bind _ _ s = M.bind _ _ s
    unfold M.bind
    rw [hdesc]
  cases c with
  | update => cases hc
  | fetchTarget q =>
    cases hc
    show M.bind (M.bind _ _) _ s = M.bind (M.bind _ _) _ s
    unfold M.bind
    rw [hread]
  | fetchTargetToWriter q =>
    cases hc
    show M.bind (M.bind _ _) _ s = M.bind (M.bind _ _) _ s
    unfold M.bind
    rw [hread]
  | fetchTargetDescription q =>
    cases hc
    show M.bind _ _ s = M.bind _ _ s
    unfold M.bind
    rw [hdesc]

/-- If the path translator refuses a path, so does the call, with the same error. It asks no repository and
leaves everything as it was. -/
theorem C124_refused_names (c : Call) (p : TargetPath) (hc : askedFor c = some p) (e : Err)
    (he : cfg.realToVirtual p = .error e) (s : St W) : exec E D R cfg c s = (.error e, s) := by
  have hdesc : fetchTargetDescription E D R cfg p s = (.error e, s) := by
    show M.bind _ _ s = _
    simp only [M.bind, M.ofExcept, he]
  have hread : fetchTargetReader E D R cfg p s = (.error e, s) := by
    show M.bind _ _ s = _
    simp only [M.bind, hdesc]
  cases c with
  | update => cases hc
  | fetchTarget q =>
    cases hc
    show M.bind (M.bind _ _) _ s = _
    simp only [M.bind, hread]
  | fetchTargetToWriter q =>
    cases hc
    show M.bind (M.bind _ _) _ s = _
    simp only [M.bind, hread]
  | fetchTargetDescription q =>
    cases hc
    show M.bind _ _ s = _
    simp only [M.bind, hdesc]

variable {R cfg cfg'}

/-- Raising the limits for metadata shows in an update only if it fails with the lower ones, with the error
for documents that are too long. Otherwise the reply is the same, and so is everything trusted, stored and
asked for. -/
theorem C124_raised_limits (hR : LimitBlind R) (h : RaisedLimits cfg cfg') (s : St W) :
    (exec E D R cfg .update s).1 = .error .opaqueErr ∨
      ((exec E D R cfg .update s).1 = (exec E D R cfg' .update s).1 ∧
        SameButLimits (exec E D R cfg .update s).2 (exec E D R cfg' .update s).2) :=
  update_raised E D hR h s s ⟨rfl, rfl, rfl⟩

theorem call_raised (hR : LimitBlind R) (h : RaisedLimits cfg cfg') (c : Call) (x x' : St W)
    (hx : SameButLimits x x') (hc : c = .update → (exec E D R cfg .update x).1 ≠ .error .opaqueErr) :
    (exec E D R cfg c x).1 = (exec E D R cfg' c x').1 ∧
      SameButLimits (exec E D R cfg c x).2 (exec E D R cfg' c x').2 := by
  by_cases hq : c = .update
  · have h1 := update_raised E D hR h x x' hx
    rw [hq]
    exact h1.resolve_left (hc hq)
  · obtain ⟨p, hp⟩ : ∃ p, askedFor c = some p := by
      cases c with
      | update => exact absurd rfl hq
      | fetchTarget p => exact ⟨p, rfl⟩
      | fetchTargetToWriter p => exact ⟨p, rfl⟩
      | fetchTargetDescription p => exact ⟨p, rfl⟩
    rw [← C124_targets_depend_on_their_own_name E D R cfg cfg' c p hp (congrFun h.translator p) h.depth]
    exact call_sim E D R cfg c (by rw [hp]; exact Option.some_ne_none _) x x' hx

theorem execAll_snoc (R : World W) (cfg : Config) (s : St W) (pre : List Call) (c : Call) :
    execAll E D R cfg s (pre ++ [c]) = (exec E D R cfg c (execAll E D R cfg s pre)).2 := by
  unfold execAll
  rw [List.foldl_append, List.foldl_cons, List.foldl_nil]

theorem prefix_raised (hR : LimitBlind R) (h : RaisedLimits cfg cfg') (s : St W) (calls : List Call)
    (ok : ∀ pre post, calls = pre ++ .update :: post →
      (exec E D R cfg .update (execAll E D R cfg s pre)).1 ≠ .error .opaqueErr) (pre : List Call) :
    ∀ post, calls = pre ++ post → SameButLimits (execAll E D R cfg s pre) (execAll E D R cfg' s pre) := by
  induction pre using List.reverseRecOn with
  | nil =>
    intro _ _
    show SameButLimits s s
    exact ⟨rfl, rfl, rfl⟩
  | append_singleton pre c ih =>
    intro post e
    have e' : calls = pre ++ c :: post := by rw [e, List.append_assoc]; rfl
    have h1 := call_raised E D hR h c _ _ (ih _ e') fun hc => ok pre post (by rw [e', hc])
    rw [execAll_snoc, execAll_snoc]
    exact h1.2

/-- The same for sequences of calls of all kinds. -/
theorem C124_raised_limits_in_sessions (hR : LimitBlind R) (h : RaisedLimits cfg cfg') (s : St W)
    (calls : List Call)
    (ok : ∀ pre post, calls = pre ++ .update :: post →
      (exec E D R cfg .update (execAll E D R cfg s pre)).1 ≠ .error .opaqueErr) :
    SameButLimits (execAll E D R cfg s calls) (execAll E D R cfg' s calls) ∧
      ∀ pre c post, calls = pre ++ c :: post →
        (exec E D R cfg c (execAll E D R cfg s pre)).1 = (exec E D R cfg' c (execAll E D R cfg' s pre)).1 :=
  ⟨prefix_raised E D hR h s calls ok calls [] (List.append_nil _).symm, fun pre c post e =>
    (call_raised E D hR h c _ _ (prefix_raised E D hR h s calls ok pre _ e) fun hc =>
      ok pre post (by rw [e, hc])).1⟩

end

/-- A repository behind HTTP pays no attention to limits, whatever the network does. -/
theorem C124_http_ignores_limits {O L : Type} (X : Outside O) (h : HttpRepository) (net : Network O)
    (hX : X.remote = h.provider net) (S : Storage L) : LimitBlind (X.world S) := by
  intro p v m m' hd
  funext w
  show (match X.remote.fetchMetadata p v m hd w.1 with | (r, o) => (r, (o, w.2))) =
    (match X.remote.fetchMetadata p v m' hd w.1 with | (r, o) => (r, (o, w.2)))
  rw [hX]
  rfl

/-! ### Examples -/

theorem toy_blind (files : List ((MetadataPath × MetadataVersion) × Bytes)) (ts : List (TargetPath × Bytes))
    (now : Time) : LimitBlind (Toy.repos files ts now) := fun _ _ _ _ _ => rfl

/-- The configuration of the examples with other limits. -/
def limitedTo (root timestamp : Option Nat) : Config :=
  { Toy.config with maxRootLength := root, maxTimestampLength := timestamp }

/-- Both alternatives occur. The documents here have one byte each. -/
example : RaisedLimits (limitedTo (some 1) (some 0)) (limitedTo (some 1) (some 1)) ∧
    RaisedLimits (limitedTo (some 1) (some 1)) (limitedTo none (some 2)) ∧
    LimitBlind Toy.remoteRepo ∧
    (exec Toy.env Toy.digest Toy.remoteRepo (limitedTo (some 1) (some 0)) .update Toy.client0).1 =
      .error .opaqueErr ∧
    (exec Toy.env Toy.digest Toy.remoteRepo (limitedTo (some 1) (some 1)) .update Toy.client0).1 =
      .ok (.updated true) ∧
    (exec Toy.env Toy.digest Toy.remoteRepo (limitedTo none (some 2)) .update Toy.client0).1 =
      .ok (.updated true) :=
  ⟨⟨Nat.le_refl 1, Nat.zero_le 1, rfl, rfl, rfl⟩, ⟨(by decide : 1 ≤ usizeMax), (by decide : 1 ≤ 2), rfl, rfl, rfl⟩,
    toy_blind _ _ _, by decide +kernel, by decide +kernel, by decide +kernel⟩

/-- A session in which no update fails that way. -/
example : ∀ pre post, [Call.update, .fetchTarget "x".toList] = pre ++ .update :: post →
    (exec Toy.env Toy.digest Toy.remoteRepo (limitedTo (some 1) (some 1)) .update
      (execAll Toy.env Toy.digest Toy.remoteRepo (limitedTo (some 1) (some 1)) Toy.client0 pre)).1 ≠
        .error .opaqueErr := by
  intro pre post e
  cases pre with
  | nil =>
    have h1 : (exec Toy.env Toy.digest Toy.remoteRepo (limitedTo (some 1) (some 1)) .update Toy.client0).1 =
      .ok (.updated true) := by decide +kernel
    intro h2
    rw [show execAll Toy.env Toy.digest Toy.remoteRepo (limitedTo (some 1) (some 1)) Toy.client0 [] =
      Toy.client0 from rfl, h1] at h2
    cases h2
  | cons c pre =>
    exfalso
    cases pre with
    | nil => cases e
    | cons c pre =>
      simp only [List.cons_append, List.cons.injEq] at e
      exact absurd e.2.2.symm (by cases pre <;> simp)

/-- A translator that leaves out a directory and refuses everything elsewhere. -/
def belowD (p : TargetPath) : Except Err VirtualTargetPath :=
  if "d/".toList.isPrefixOf p then VirtualTargetPath.new (p.drop 2) else .error .illegalArgument

/-- Different translators that agree on a path, one that refuses it, and the calls. -/
example :
    (Toy.config.realToVirtual "x".toList =
      (Config.mk none none 8 (fun _ => .ok "x".toList) true).realToVirtual "x".toList) ∧
    (exec Toy.env Toy.digest Toy.remoteRepo { Toy.config with realToVirtual := belowD }
      (.fetchTargetDescription "d/x".toList)
      (exec Toy.env Toy.digest Toy.remoteRepo Toy.config .update Toy.client0).2).1 =
        .ok (.description (Toy.target 1)) ∧
    askedFor (.fetchTarget "x".toList) = some "x".toList ∧
    belowD "x".toList = .error .illegalArgument :=
  ⟨by decide +kernel, by decide +kernel, rfl, by decide +kernel⟩

/-- A listed target. -/
example : TopEntry Toy.config (exec Toy.env Toy.digest Toy.remoteRepo Toy.config .update Toy.client0).2.tuf
    "x".toList (Toy.target 1) :=
  ⟨"x".toList, Toy.topTargets, by decide +kernel, by decide +kernel, by decide +kernel⟩

/-- The start of a client is not covered: what is too long to load from the local repository is skipped
without an error. With a lower limit the same client starts without the timestamp it has stored. -/
theorem C124_start_is_not_covered :
    ∃ (E : Env) (D : Digest) (R : World Toy.Disk) (cfg cfg' : Config) (io io1 io1' : Io Toy.Disk) (t t' : Tuf),
      RaisedLimits cfg cfg' ∧ LimitBlind R ∧
      construct E D R cfg (.trustedRoot [1]) io = (.ok t, io1) ∧
      construct E D R cfg' (.trustedRoot [1]) io = (.ok t', io1') ∧
      t.timestamp = none ∧ t'.timestamp.map (·.version) = some 2 :=
  ⟨staleWorld.env, Toy.digest, staleRepo 11 400, limitedTo (some 1) (some 0), limitedTo (some 1) (some 1), stale1.io,
    _, _, Toy.boot, stale1.tuf, ⟨Nat.le_refl 1, Nat.zero_le 1, rfl, rfl, rfl⟩, toy_blind _ _ _,
    Prod.ext (by decide +kernel) rfl, Prod.ext (by decide +kernel) rfl, by decide +kernel, by decide +kernel⟩

end RustTuf.Props
