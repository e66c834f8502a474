import Verif.Spec.Clocks
import Verif.Props.Client
import Verif.Props.ClientTargets
import Verif.Props.Rollback

/-! C119: what a client does depends on the time only through expiry. -/

namespace RustTuf.Props
open Spec Client Tuf

/-- The call fails because something has expired. -/
def ExpiredResult {α : Type} (r : Except Err α) : Prop := ∃ role, r = .error (.expired role)

theorem rootUnexpired_behind {clk clk' : Clock} (h : NotAhead clk clk') (t : Tuf) :
    t.rootUnexpired clk' = .error (.expired .root) ∨ t.rootUnexpired clk = t.rootUnexpired clk' := by
  unfold rootUnexpired
  by_cases h1 : t.root.expires ≤ clk' .root
  · exact .inl (if_pos h1)
  · right
    rw [if_neg h1, if_neg fun h2 => h1 (Int.le_trans h2 (h _))]

theorem snapshotUnexpired_behind {clk clk' : Clock} (h : NotAhead clk clk') (t : Tuf) :
    t.snapshotUnexpired clk' = .error (.expired .snapshot) ∨
      t.snapshotUnexpired clk = t.snapshotUnexpired clk' := by
  unfold snapshotUnexpired
  cases t.snapshot with
  | none => exact .inr rfl
  | some s =>
    dsimp only
    by_cases h1 : s.expires ≤ clk' .snapshot
    · exact .inl (if_pos h1)
    · right
      rw [if_neg h1, if_neg fun h2 => h1 (Int.le_trans h2 (h _))]

theorem targetsUnexpired_behind {clk clk' : Clock} (h : NotAhead clk clk') (t : Tuf) :
    t.targetsUnexpired clk' = .error (.expired .targets) ∨
      t.targetsUnexpired clk = t.targetsUnexpired clk' := by
  unfold targetsUnexpired
  cases t.targets with
  | none => exact .inr rfl
  | some s =>
    dsimp only
    by_cases h1 : s.expires ≤ clk' .targets
    · exact .inl (if_pos h1)
    · right
      rw [if_neg h1, if_neg fun h2 => h1 (Int.le_trans h2 (h _))]

theorem timestampUnexpired_behind {clk clk' : Clock} (h : NotAhead clk clk') (t : Tuf) :
    t.timestampUnexpired clk' = .error (.expired .timestamp) ∨
      t.timestampUnexpired clk = t.timestampUnexpired clk' := by
  unfold timestampUnexpired
  cases t.timestamp with
  | none => exact .inr rfl
  | some s =>
    dsimp only
    by_cases h1 : s.expires ≤ clk' .timestamp
    · exact .inl (if_pos h1)
    · right
      rw [if_neg h1, if_neg fun h2 => h1 (Int.le_trans h2 (h _))]

theorem new_behind {clk clk' : Clock} (h : NotAhead clk clk') {α : Type} (n : Time) (role : Role) (t : Tuf)
    (x : Except Err α × Tuf) :
    ExpiredResult (if n ≤ clk' .new then ((.error (.expired role) : Except Err α), t) else x).1 ∨
      (if n ≤ clk .new then ((.error (.expired role) : Except Err α), t) else x) =
        (if n ≤ clk' .new then ((.error (.expired role) : Except Err α), t) else x) := by
  by_cases h1 : n ≤ clk' .new
  · exact .inl ⟨role, by rw [if_pos h1]⟩
  · right
    rw [if_neg h1, if_neg fun h2 => h1 (Int.le_trans h2 (h _))]

theorem updateTimestamp_behind {clk clk' : Clock} (h : NotAhead clk clk') (E : Env) (t : Tuf) (raw : Bytes) :
    ExpiredResult (updateTimestamp E clk' t raw).1 ∨
      updateTimestamp E clk t raw = updateTimestamp E clk' t raw := by
  unfold updateTimestamp
  split
  · exact .inr rfl
  · split
    · exact .inr rfl
    · split
      · exact .inr rfl
      · exact new_behind h _ _ _ _

theorem updateSnapshot_behind {clk clk' : Clock} (h : NotAhead clk clk') (E : Env) (t : Tuf) (raw : Bytes) :
    ExpiredResult (updateSnapshot E clk' t raw).1 ∨
      updateSnapshot E clk t raw = updateSnapshot E clk' t raw := by
  unfold updateSnapshot
  rcases rootUnexpired_behind h t with e | e
  · rw [e]; exact .inl ⟨_, rfl⟩
  rw [e]
  split
  · exact .inr rfl
  rcases timestampUnexpired_behind h t with e | e
  · rw [e]; exact .inl ⟨_, rfl⟩
  rw [e]
  exact .inr rfl

theorem updateTargets_behind {clk clk' : Clock} (h : NotAhead clk clk') (E : Env) (t : Tuf) (raw : Bytes) :
    ExpiredResult (updateTargets E clk' t raw).1 ∨
      updateTargets E clk t raw = updateTargets E clk' t raw := by
  unfold updateTargets
  rcases rootUnexpired_behind h t with e | e
  · rw [e]; exact .inl ⟨_, rfl⟩
  rw [e]
  split
  · exact .inr rfl
  rcases snapshotUnexpired_behind h t with e | e
  · rw [e]; exact .inl ⟨_, rfl⟩
  rw [e]
  split
  · exact .inr rfl
  split
  · exact .inr rfl
  split
  · exact .inr rfl
  split
  · exact .inr rfl
  split
  · exact .inr rfl
  split
  · exact .inr rfl
  exact new_behind h _ _ _ _

theorem updateDelegation_behind {clk clk' : Clock} (h : NotAhead clk clk') (E : Env) (t : Tuf)
    (parent role : MetadataPath) (raw : Bytes) :
    ExpiredResult (updateDelegation E clk' t parent role raw).1 ∨
      updateDelegation E clk t parent role raw = updateDelegation E clk' t parent role raw := by
  unfold updateDelegation
  rcases rootUnexpired_behind h t with e | e
  · rw [e]; exact .inl ⟨_, rfl⟩
  rw [e]
  split
  · exact .inr rfl
  rcases snapshotUnexpired_behind h t with e | e
  · rw [e]; exact .inl ⟨_, rfl⟩
  rw [e]
  split
  · exact .inr rfl
  rcases targetsUnexpired_behind h t with e | e
  · rw [e]; exact .inl ⟨_, rfl⟩
  rw [e]
  split
  · exact .inr rfl
  split
  · exact .inr rfl
  split
  · exact .inr rfl
  split
  · exact .inr rfl
  split
  · exact .inr rfl
  split
  · exact .inr rfl
  split
  · exact .inr rfl
  split
  · exact .inr rfl
  exact new_behind h _ _ _ _

/-- An update call gives the same with a clock that is behind as with a right one, and trusts the same
afterwards, unless with the right clock it fails because something has expired. -/
theorem C119_calls_of_tuf {clk clk' : Clock} (h : NotAhead clk clk') (E : Env) (t : Tuf) (op : Op) :
    (∃ role, (step E t (withClock clk' op)).1 = .failed (.expired role)) ∨
      step E t (withClock clk op) = step E t (withClock clk' op) := by
  cases op with
  | root raw => exact .inr rfl
  | timestamp c raw =>
    rcases updateTimestamp_behind h E t raw with ⟨role, e⟩ | e
    · rcases hx : updateTimestamp E clk' t raw with ⟨r, t'⟩
      rw [hx] at e; dsimp only at e; subst e
      exact .inl ⟨role, by simp only [withClock, step, hx]⟩
    · exact .inr (by simp only [withClock, step, e])
  | snapshot c raw =>
    rcases updateSnapshot_behind h E t raw with ⟨role, e⟩ | e
    · rcases hx : updateSnapshot E clk' t raw with ⟨r, t'⟩
      rw [hx] at e; dsimp only at e; subst e
      exact .inl ⟨role, by simp only [withClock, step, hx]⟩
    · exact .inr (by simp only [withClock, step, e])
  | targets c raw =>
    rcases updateTargets_behind h E t raw with ⟨role, e⟩ | e
    · rcases hx : updateTargets E clk' t raw with ⟨r, t'⟩
      rw [hx] at e; dsimp only at e; subst e
      exact .inl ⟨role, by simp only [withClock, step, hx]⟩
    · exact .inr (by simp only [withClock, step, e])
  | delegation c parent role raw =>
    rcases updateDelegation_behind h E t parent role raw with ⟨role', e⟩ | e
    · rcases hx : updateDelegation E clk' t parent role raw with ⟨r, t'⟩
      rw [hx] at e; dsimp only at e; subst e
      exact .inl ⟨role', by simp only [withClock, step, hx]⟩
    · exact .inr (by simp only [withClock, step, e])

/-! ### The client -/

section Client
variable {W : Type} {α β : Type}

/-- The same trusted metadata and the same state of the outside world. -/
structure Level (s s' : St W) : Prop where
  tuf : s.tuf = s'.tuf
  w : s.io.w = s'.io.w

/-- The same result from states that are level. -/
def Equal (m m' : M (St W) α) : Prop :=
  ∀ s s', Level s s' → (m s).1 = (m' s').1 ∧ Level (m s).2 (m' s').2

/-- The same result, unless the first fails because something has expired. -/
def Follows (m m' : M (St W) α) : Prop :=
  ∀ s s', Level s s' → ExpiredResult (m s).1 ∨ ((m s).1 = (m' s').1 ∧ Level (m s).2 (m' s').2)

theorem Equal.follows {m m' : M (St W) α} (h : Equal m m') : Follows m m' := fun s s' hs => .inr (h s s' hs)

theorem equal_ret (a : α) : Equal (W := W) (pure a) (pure a) := fun _ _ hs => ⟨rfl, hs⟩

theorem equal_fail (e : Err) : Equal (W := W) (α := α) (M.fail e) (M.fail e) := fun _ _ hs => ⟨rfl, hs⟩

theorem equal_ofExcept (r : Except Err α) : Equal (W := W) (M.ofExcept r) (M.ofExcept r) :=
  fun _ _ hs => ⟨rfl, hs⟩

theorem equal_getTuf : Equal (W := W) getTuf getTuf :=
  fun _ _ hs => ⟨congrArg Except.ok hs.tuf, hs⟩

theorem Equal.bind {m m' : M (St W) α} {f f' : α → M (St W) β} (h : Equal m m')
    (hf : ∀ a, Equal (f a) (f' a)) : Equal (m >>= f) (m' >>= f') := by
  intro s s' hs
  obtain ⟨h1, h2⟩ := h s s' hs
  show (M.bind m f s).1 = (M.bind m' f' s').1 ∧ Level (M.bind m f s).2 (M.bind m' f' s').2
  unfold M.bind
  rcases hm : m s with ⟨r, x⟩
  rcases hm' : m' s' with ⟨r', x'⟩
  rw [hm, hm'] at h1 h2
  dsimp only at h1 h2
  subst h1
  cases r with
  | error e => exact ⟨rfl, h2⟩
  | ok a => exact hf a x x' h2

theorem Follows.bind {m m' : M (St W) α} {f f' : α → M (St W) β} (h : Follows m m')
    (hf : ∀ a, Follows (f a) (f' a)) : Follows (m >>= f) (m' >>= f') := by
  intro s s' hs
  have h0 := h s s' hs
  show ExpiredResult (M.bind m f s).1 ∨
    ((M.bind m f s).1 = (M.bind m' f' s').1 ∧ Level (M.bind m f s).2 (M.bind m' f' s').2)
  unfold M.bind
  rcases hm : m s with ⟨r, x⟩
  rcases hm' : m' s' with ⟨r', x'⟩
  rw [hm, hm'] at h0
  dsimp only at h0
  rcases h0 with ⟨role, h0⟩ | ⟨h1, h2⟩
  · subst h0
    exact .inl ⟨role, rfl⟩
  subst h1
  cases r with
  | error e => exact .inr ⟨rfl, h2⟩
  | ok a => exact hf a x x' h2

theorem Equal.attempt {m m' : M (St W) α} (h : Equal m m') : Equal (M.attempt m) (M.attempt m') := by
  intro s s' hs
  obtain ⟨h1, h2⟩ := h s s' hs
  unfold M.attempt
  rcases hm : m s with ⟨r, x⟩
  rcases hm' : m' s' with ⟨r', x'⟩
  rw [hm, hm'] at h1 h2
  dsimp only at h1 h2
  subst h1
  cases r with
  | error e => cases e <;> exact ⟨rfl, h2⟩
  | ok a => exact ⟨rfl, h2⟩

theorem Equal.when {m m' : M (St W) Unit} (b : Bool) (h : Equal m m') : Equal (M.when b m) (M.when b m') := by
  cases b
  · exact equal_ret _
  · exact h

/-- The same for code that uses only a repository. -/
def Unlogged (m : M (Io W) α) : Prop := ∀ s s', s.w = s'.w → (m s).1 = (m s').1 ∧ (m s).2.w = (m s').2.w

theorem unlogged_ret (a : α) : Unlogged (W := W) (pure a) := fun _ _ hs => ⟨rfl, hs⟩

theorem unlogged_ofExcept (r : Except Err α) : Unlogged (W := W) (M.ofExcept r) := fun _ _ hs => ⟨rfl, hs⟩

theorem unlogged_note (e : LogEntry) : Unlogged (W := W) (Io.note e) := fun _ _ hs => ⟨rfl, hs⟩

theorem unlogged_call (f : W → Except Err α × W) : Unlogged (Io.call f) := by
  intro s s' hs
  show (f s.w).1 = (f s'.w).1 ∧ (f s.w).2 = (f s'.w).2
  rw [hs]
  exact ⟨rfl, rfl⟩

theorem Unlogged.bind {m : M (Io W) α} {f : α → M (Io W) β} (h : Unlogged m) (hf : ∀ a, Unlogged (f a)) :
    Unlogged (m >>= f) := by
  intro s s' hs
  obtain ⟨h1, h2⟩ := h s s' hs
  show (M.bind m f s).1 = (M.bind m f s').1 ∧ (M.bind m f s).2.w = (M.bind m f s').2.w
  unfold M.bind
  rcases hm : m s with ⟨r, x⟩
  rcases hm' : m s' with ⟨r', x'⟩
  rw [hm, hm'] at h1 h2
  dsimp only at h1 h2
  subst h1
  cases r with
  | error e => exact ⟨rfl, h2⟩
  | ok a => exact hf a x x' h2

theorem Unlogged.equal {m : M (Io W) α} (h : Unlogged m) : Equal (lift m) (lift m) := by
  intro s s' hs
  obtain ⟨h1, h2⟩ := h s.io s'.io hs.w
  exact ⟨h1, hs.tuf, h2⟩

theorem unlogged_fetch (D : Digest) (R : World W) (src : Source) (role : Role) (p : MetadataPath)
    (v : MetadataVersion) (n : Option Nat) (hd : HashData) : Unlogged (fetchMetadata D R src role p v n hd) :=
  (unlogged_ofExcept _).bind fun _ => (unlogged_note _).bind fun _ => (unlogged_call _).bind fun _ =>
    (unlogged_ofExcept _).bind fun _ => (unlogged_note _).bind fun _ => unlogged_ret _

theorem unlogged_store (R : World W) (role : Role) (p : MetadataPath) (v : MetadataVersion) (raw : Bytes) :
    Unlogged (storeMetadata R role p v raw) :=
  (unlogged_ofExcept _).bind fun _ => (unlogged_note _).bind fun _ => unlogged_call _

theorem sameFetch {R R' : World W} (h : OtherClock R R') (D : Digest) (src : Source) (role : Role)
    (p : MetadataPath) (v : MetadataVersion) (n : Option Nat) (hd : HashData) :
    fetchMetadata D R' src role p v n hd = fetchMetadata D R src role p v n hd := by
  have : R'.provider src = R.provider src := by
    cases src
    · exact h.remote.symm
    · exact h.cache.symm
  unfold fetchMetadata
  rw [this]

theorem sameStore {R R' : World W} (h : OtherClock R R') (role : Role)
    (p : MetadataPath) (v : MetadataVersion) (raw : Bytes) :
    storeMetadata R' role p v raw = storeMetadata R role p v raw := by
  unfold storeMetadata
  rw [h.storeMetadata]

variable {R R' : World W}

theorem equal_fetch (h : OtherClock R R') (D : Digest) (src : Source) (role : Role)
    (p : MetadataPath) (v : MetadataVersion) (n : Option Nat) (hd : HashData) :
    Equal (lift (fetchMetadata D R src role p v n hd)) (lift (fetchMetadata D R' src role p v n hd)) := by
  rw [sameFetch h]
  exact (unlogged_fetch _ _ _ _ _ _ _ _).equal

theorem equal_store (h : OtherClock R R') (role : Role) (p : MetadataPath) (v : MetadataVersion)
    (raw : Bytes) : Equal (lift (storeMetadata R role p v raw)) (lift (storeMetadata R' role p v raw)) := by
  rw [sameStore h]
  exact (unlogged_store _ _ _ _ _).equal

theorem equal_op (E : Env) (op : Op) : Equal (W := W) (updateTuf E op) (updateTuf E op) := by
  intro s s' hs
  unfold updateTuf
  rw [hs.tuf]
  rcases step E s'.tuf op with ⟨o, t'⟩
  cases o <;> exact ⟨rfl, rfl, hs.w⟩

/-- Read the clock and use what it shows. -/
theorem follows_clock (h : SlowClock R' R) {f f' : Clock → M (St W) β}
    (hf : ∀ clk clk', NotAhead clk' clk → Follows (f clk) (f' clk')) :
    Follows (getClock R >>= f) (getClock R' >>= f') := by
  intro s s' hs
  have e : (R.clock s.io.w).2 = (R'.clock s'.io.w).2 := by rw [hs.w, h.next]
  have b : NotAhead (R'.clock s'.io.w).1 (R.clock s.io.w).1 := hs.w ▸ h.behind _
  exact hf _ _ b { s with io := { s.io with w := (R.clock s.io.w).2 } }
    { s' with io := { s'.io with w := (R'.clock s'.io.w).2 } } ⟨hs.tuf, e⟩

theorem follows_op {clk clk' : Clock} (hb : NotAhead clk' clk) (E : Env) (op : Op) :
    Follows (W := W) (updateTuf E (withClock clk op)) (updateTuf E (withClock clk' op)) := by
  intro s s' hs
  have hc := C119_calls_of_tuf hb E s.tuf op
  unfold updateTuf
  rw [← hs.tuf]
  rcases hc with ⟨role, hc⟩ | hc
  · left
    rcases hx : step E s.tuf (withClock clk op) with ⟨o, t'⟩
    rw [hx] at hc
    dsimp only at hc
    subst hc
    exact ⟨role, rfl⟩
  · right
    rw [hc]
    rcases step E s.tuf (withClock clk op) with ⟨o, t'⟩
    cases o <;> exact ⟨rfl, rfl, hs.w⟩

variable (E : Env) (D : Digest) (cfg : Config)

theorem rootLoop_equal (h : OtherClock R R') (src : Source) (persist : Bool) (fuel : Nat) : ∀ upd : Bool,
    Equal (rootLoop E D R cfg src persist fuel upd) (rootLoop E D R' cfg src persist fuel upd) := by
  induction fuel with
  | zero => intro upd; exact equal_fail _
  | succ fuel ih =>
    intro upd
    unfold rootLoop
    refine equal_getTuf.bind fun t => (equal_ofExcept _).bind fun next =>
      (equal_fetch h _ _ _ _ _ _ _).attempt.bind fun r => ?_
    split
    · exact equal_ret _
    · exact equal_fail _
    · exact (equal_op E _).bind fun _ => (Equal.when _ ((equal_store h _ _ _ _).bind fun _ =>
        equal_store h _ _ _ _)).bind fun _ => ih true

theorem updateRoot_follows (h : SlowClock R' R) (h' : OtherClock R R') (src : Source) (persist : Bool) :
    Follows (updateRootWithRepos E D R cfg src persist) (updateRootWithRepos E D R' cfg src persist) := by
  unfold updateRootWithRepos
  refine (rootLoop_equal E D cfg h' src persist _ _).follows.bind fun upd => follows_clock h fun clk clk' hb =>
    equal_getTuf.follows.bind fun t => ?_
  intro s s' hs
  by_cases h1 : t.root.expires ≤ clk .root
  · rw [if_pos h1]
    exact .inl ⟨_, rfl⟩
  · rw [if_neg h1, if_neg fun h2 => h1 (Int.le_trans h2 (hb _))]
    exact (equal_ret _).follows s s' hs

theorem updateTimestamp_follows (h : SlowClock R' R) (h' : OtherClock R R') (src : Source) (persist : Bool) :
    Follows (updateTimestampWithRepos E D R cfg src persist)
      (updateTimestampWithRepos E D R' cfg src persist) := by
  unfold updateTimestampWithRepos
  refine (equal_fetch h' _ _ _ _ _ _ _).follows.bind fun raw => follows_clock h fun clk clk' hb =>
    (follows_op hb E (.timestamp clk raw)).bind fun o => Equal.follows ?_
  split
  · exact (Equal.when _ (equal_store h' _ _ _ _)).bind fun _ => equal_ret _
  · exact equal_ret _

theorem updateSnapshot_follows (h : SlowClock R' R) (h' : OtherClock R R') (src : Source)
    (persist consistent : Bool) :
    Follows (updateSnapshotWithRepos E D R src persist consistent)
      (updateSnapshotWithRepos E D R' src persist consistent) := by
  unfold updateSnapshotWithRepos
  refine equal_getTuf.follows.bind fun t => ?_
  split
  · exact (equal_fail _).follows
  split
  · exact (equal_ret _).follows
  refine (equal_ofExcept _).follows.bind fun av => (equal_fetch h' _ _ _ _ _ _ _).follows.bind fun raw =>
    follows_clock h fun clk clk' hb =>
    (follows_op hb E (.snapshot clk raw)).bind fun o => Equal.follows ?_
  split
  · exact (Equal.when _ (equal_store h' _ _ _ _)).bind fun _ => equal_ret _
  · exact equal_ret _

theorem updateTargets_follows (h : SlowClock R' R) (h' : OtherClock R R') (src : Source)
    (persist consistent : Bool) :
    Follows (updateTargetsWithRepos E D R src persist consistent)
      (updateTargetsWithRepos E D R' src persist consistent) := by
  unfold updateTargetsWithRepos
  refine equal_getTuf.follows.bind fun t => ?_
  split
  · exact (equal_fail _).follows
  split
  · exact (equal_fail _).follows
  split
  · exact (equal_ret _).follows
  refine (equal_ofExcept _).follows.bind fun av => (equal_fetch h' _ _ _ _ _ _ _).follows.bind fun raw =>
    follows_clock h fun clk clk' hb =>
    (follows_op hb E (.targets clk raw)).bind fun o => Equal.follows ?_
  split
  · exact (Equal.when _ (equal_store h' _ _ _ _)).bind fun _ => equal_ret _
  · exact equal_ret _

theorem otherClock_symm (h : OtherClock R R') : OtherClock R' R :=
  ⟨h.remote.symm, h.cache.symm, h.storeMetadata.symm, h.storeTarget.symm, h.write.symm, h.flush.symm,
    fun w => (h.next w).symm⟩

theorem update_follows (h : SlowClock R' R) : Follows (exec E D R cfg .update) (exec E D R' cfg .update) := by
  have h' := otherClock_symm h.toOtherClock
  unfold exec update
  exact ((updateRoot_follows E D cfg h h' _ _).bind fun _ =>
    (updateTimestamp_follows E D cfg h h' _ _).bind fun _ => equal_getTuf.follows.bind fun _ =>
    (updateSnapshot_follows E D h h' _ _ _).bind fun _ => equal_getTuf.follows.bind fun _ =>
    (updateTargets_follows E D h h' _ _ _).bind fun _ => (equal_ret _).follows).bind fun _ =>
    (equal_ret _).follows

/-- `update` in a world whose clock is behind replies the same as in one where it is right, trusts the same
afterwards and leaves the same behind, unless with the right clock it fails because something has
expired. -/
theorem C119_update_with_a_slow_clock {Slow Right : World W} (h : SlowClock Slow Right) (s : St W) :
    (∃ role, (exec E D Right cfg .update s).1 = .error (.expired role)) ∨
      ((exec E D Slow cfg .update s).1 = (exec E D Right cfg .update s).1 ∧
        (exec E D Slow cfg .update s).2.tuf = (exec E D Right cfg .update s).2.tuf ∧
        (exec E D Slow cfg .update s).2.io.w = (exec E D Right cfg .update s).2.io.w) :=
  (update_follows E D cfg h s s ⟨rfl, rfl⟩).imp id fun ⟨h1, h2⟩ => ⟨h1.symm, h2.tuf.symm, h2.w.symm⟩

/-- Whatever two clocks show: `update` gives the same with both, unless with one of them it fails because
something has expired. -/
theorem C119_update_with_any_clock (h : OtherClock R R') (s : St W) :
    (∃ role, (exec E D R cfg .update s).1 = .error (.expired role)) ∨
    (∃ role, (exec E D R' cfg .update s).1 = .error (.expired role)) ∨
      ((exec E D R cfg .update s).1 = (exec E D R' cfg .update s).1 ∧
        (exec E D R cfg .update s).2.tuf = (exec E D R' cfg .update s).2.tuf ∧
        (exec E D R cfg .update s).2.io.w = (exec E D R' cfg .update s).2.io.w) := by
  let L : World W := { R with clock := fun w =>
    (fun site => min ((R.clock w).1 site) ((R'.clock w).1 site), (R.clock w).2) }
  have h1 : SlowClock L R := ⟨⟨rfl, rfl, rfl, rfl, rfl, rfl, fun _ => rfl⟩, fun _ _ => Int.min_le_left _ _⟩
  have h2 : SlowClock L R' := ⟨⟨h.remote, h.cache, h.storeMetadata, h.storeTarget, h.write, h.flush, h.next⟩,
    fun _ _ => Int.min_le_right _ _⟩
  rcases C119_update_with_a_slow_clock E D cfg h1 s with e | ⟨a1, a2, a3⟩
  · exact .inl e
  rcases C119_update_with_a_slow_clock E D cfg h2 s with e | ⟨b1, b2, b3⟩
  · exact .inr (.inl e)
  exact .inr (.inr ⟨a1.symm.trans b1, a2.symm.trans b2, a3.symm.trans b3⟩)

theorem sameCopy (h : OtherClock R R') (evs : List Ev) : copyToWriter R evs = copyToWriter R' evs := by
  induction evs with
  | nil => unfold copyToWriter; rw [h.flush]
  | cons e evs ih =>
    cases e with
    | pending => exact ih
    | err k => rfl
    | data bs => unfold copyToWriter; rw [h.flush, h.write, ih]

theorem sameStream (h : OtherClock R R') (p : TargetPath) (d : TargetDescription) :
    fetchTargetStream D R p d = fetchTargetStream D R' p d := by
  unfold fetchTargetStream
  rw [h.remote]

theorem topEntry_description {path : TargetPath} {d : TargetDescription} {s : St W}
    (htop : TopEntry cfg s.tuf path d) (hsn : s.tuf.snapshot ≠ none) (R : World W) :
    fetchTargetDescription E D R cfg path s = (.ok d, s) := by
  obtain ⟨virt, ta, h1, h2, h3⟩ := htop
  obtain ⟨sn, hsn⟩ := Option.ne_none_iff_exists'.1 hsn
  show M.bind _ _ s = _
  simp only [M.bind, M.ofExcept, h1, Bind.bind, getTuf, hsn, h2, Client.lookupIn, h3]
  rfl

theorem missing_description {path : TargetPath} {s : St W} (hsn : s.tuf.snapshot = none) (R : World W) :
    fetchTargetDescription E D R cfg path s =
      (match cfg.realToVirtual path with
        | .error e => .error e
        | .ok _ => .error (.missing .snapshot), s) := by
  show M.bind _ _ s = _
  unfold M.bind M.ofExcept
  cases cfg.realToVirtual path with
  | error e => rfl
  | ok virt =>
    show M.bind _ _ s = _
    simp only [M.bind, getTuf, hsn]
    rfl

theorem description_any (h : OtherClock R R') {p : TargetPath} {s : St W} (ht : ∃ d, TopEntry cfg s.tuf p d) :
    fetchTargetDescription E D R cfg p s = fetchTargetDescription E D R' cfg p s := by
  obtain ⟨d, ht⟩ := ht
  by_cases hsn : s.tuf.snapshot = none
  · rw [missing_description E D cfg hsn, missing_description E D cfg hsn]
  · rw [topEntry_description E D cfg ht hsn, topEntry_description E D cfg ht hsn]

theorem reader_any (h : OtherClock R R') {p : TargetPath} {s : St W} (ht : ∃ d, TopEntry cfg s.tuf p d) :
    fetchTargetReader E D R cfg p s = fetchTargetReader E D R' cfg p s := by
  show M.bind _ _ s = M.bind _ _ s
  unfold M.bind
  rw [description_any E D cfg h ht]
  simp only [sameStream D h]

/-- A call for a target that the trusted top-level targets metadata list does the same whatever the clock
shows. -/
theorem C119_listed_targets (h : OtherClock R R') (c : Call) (s : St W) (hc : AsksListed cfg s.tuf c) :
    exec E D R cfg c s = exec E D R' cfg c s := by
  cases c with
  | update => exact hc.elim
  | fetchTargetDescription p =>
    show M.bind _ _ s = M.bind _ _ s
    unfold M.bind
    rw [description_any E D cfg h hc]
  | fetchTarget p =>
    show M.bind (M.bind _ _) _ s = M.bind (M.bind _ _) _ s
    unfold M.bind
    rw [reader_any E D cfg h hc]
    unfold storeTarget
    rw [h.storeTarget]
  | fetchTargetToWriter p =>
    show M.bind (M.bind _ _) _ s = M.bind (M.bind _ _) _ s
    unfold M.bind
    rw [reader_any E D cfg h hc]
    simp only [sameCopy h]

end Client

/-! ### Examples -/

theorem toy_slowClock (files : List ((MetadataPath × MetadataVersion) × Bytes)) (ts : List (TargetPath × Bytes))
    {n m : Time} (h : n ≤ m) : SlowClock (Toy.repos files ts n) (Toy.repos files ts m) :=
  ⟨⟨rfl, rfl, rfl, rfl, rfl, rfl, fun _ => rfl⟩, fun _ _ => h⟩

/-- Both alternatives occur: at time 400 the update does what it does at time 100, at time 600 it fails,
because the timestamp has expired at 500. -/
example :
    SlowClock (Toy.repos Toy.remoteFiles [] 100) (Toy.repos Toy.remoteFiles [] 400) ∧
    SlowClock (Toy.repos Toy.remoteFiles [] 100) (Toy.repos Toy.remoteFiles [] 600) ∧
    (exec Toy.env Toy.digest (Toy.repos Toy.remoteFiles [] 100) Toy.config .update Toy.client0).1 =
      .ok (.updated true) ∧
    (exec Toy.env Toy.digest (Toy.repos Toy.remoteFiles [] 400) Toy.config .update Toy.client0).1 =
      .ok (.updated true) ∧
    (exec Toy.env Toy.digest (Toy.repos Toy.remoteFiles [] 600) Toy.config .update Toy.client0).1 =
      .error (.expired .timestamp) :=
  ⟨toy_slowClock _ _ (by decide), toy_slowClock _ _ (by decide), by decide +kernel, by decide +kernel,
    by decide +kernel⟩

/-- So do they for a call of `Tuf`. -/
example : NotAhead (Toy.clk 100) (Toy.clk 1000) ∧ NotAhead (Toy.clk 100) (Toy.clk 400) ∧
    (step Toy.env Toy.boot (.timestamp (Toy.clk 100) [10])).1 = .changed ∧
    (step Toy.env Toy.boot (.timestamp (Toy.clk 400) [10])).1 = .changed ∧
    (step Toy.env Toy.boot (.timestamp (Toy.clk 1000) [10])).1 = .failed (.expired .timestamp) :=
  ⟨fun _ => (by decide : (100 : Int) ≤ 1000), fun _ => (by decide : (100 : Int) ≤ 400), by decide +kernel,
    by decide +kernel, by decide +kernel⟩

/-- A listed target. -/
example : AsksListed Toy.config
    (exec Toy.env Toy.digest Toy.remoteRepo Toy.config .update Toy.client0).2.tuf (.fetchTarget "x".toList) :=
  ⟨Toy.target 1, "x".toList, Toy.topTargets, by decide +kernel, by decide +kernel, by decide +kernel⟩

/-- For targets below delegations there is no such theorem, and neither for what a client loads when it
starts: errors are skipped there, and what has expired leaves its place to something else. A client that
starts in time loads timestamp 2, keeps it and refuses the update to timestamp 1; started after the timestamp
has expired it loads none, and the same update succeeds. -/
theorem C119_start_is_not_covered :
    ∃ (E : Env) (D : Digest) (Slow Right : World Toy.Disk) (cfg : Config) (io : Io Toy.Disk)
      (t t' : Tuf) (io1 io1' : Io Toy.Disk) (z z' : St Toy.Disk),
      SlowClock Slow Right ∧
      construct E D Slow cfg (.trustedRoot [1]) io = (.ok t, io1) ∧
      construct E D Right cfg (.trustedRoot [1]) io = (.ok t', io1') ∧
      exec E D Slow cfg .update ⟨t, io1⟩ = (.error .verification, z) ∧
      exec E D Right cfg .update ⟨t', io1'⟩ = (.ok (.updated true), z') ∧
      z.tuf.timestamp.map (·.version) = some 2 ∧ z'.tuf.timestamp.map (·.version) = some 1 :=
  ⟨staleWorld.env, Toy.digest, staleRepo 11 400, staleRepo 11 600, Toy.config, stale1.io, stale1.tuf, Toy.boot,
    (staleStart 400).2, (staleStart 600).2, _, _, toy_slowClock _ _ (by decide),
    Prod.ext (by decide +kernel) rfl, Prod.ext (by decide +kernel) rfl, Prod.ext (by decide +kernel) rfl,
    Prod.ext (by decide +kernel) rfl, by decide +kernel, by decide +kernel⟩

end RustTuf.Props
