import Verif.Lemmas.Map
import Verif.Spec.ClientTargets
import Verif.Spec.ClientWorld
import Verif.Spec.Ephemeral

/-!
# C57: the in-memory repository is a map
-/

namespace RustTuf.Props
open Spec RustTuf

/-! ### Reading -/

theorem readToEnd_eq (evs : List Ev) (acc : Bytes) :
    readToEnd evs acc =
      match delivered evs with
      | (bs, .eof) => .ok (acc ++ bs)
      | (_, .error k) => .error k := by
  induction evs generalizing acc with
  | nil => simp [readToEnd, delivered]
  | cons ev evs ih =>
    cases ev with
    | pending => simp only [readToEnd, delivered, ih]
    | err k => simp [readToEnd, delivered]
    | data bs =>
      by_cases hb : bs = []
      · simp [readToEnd, delivered, hb]
      · simp only [readToEnd, delivered, hb, if_false, ih]
        cases hd : delivered evs with
        | mk b en => cases en <;> simp

theorem delivered_cursor (bs : Bytes) : delivered (cursorEvents bs) = (bs, .eof) := by
  by_cases h : bs = [] <;> simp [cursorEvents, delivered, h]

/-! ### Sequential use -/

/-- C57: after a store has reported success, a fetch under the same name delivers everything the
source of the store had delivered, and the source had ended normally; every other name delivers what
it did before. -/
theorem C57_store_then_fetch_metadata (r r' : Ephemeral) (p : MetadataPath) (v : MetadataVersion)
    (src : List Ev) (h : r.storeMetadata p v src = (.ok (), r')) :
    (∃ bs evs, delivered src = (bs, .eof) ∧ r'.fetchMetadata p v = .ok evs ∧
      delivered evs = (bs, .eof)) ∧
    (∀ p' v', (p', v') ≠ (p, v) → r'.fetchMetadata p' v' = r.fetchMetadata p' v') ∧
    ∀ q, r'.fetchTarget q = r.fetchTarget q := by
  unfold Ephemeral.storeMetadata at h
  rw [readToEnd_eq] at h
  cases hd : delivered src with
  | mk bs en =>
    rw [hd] at h
    cases en with
    | error k => cases h
    | eof =>
      cases h
      refine ⟨⟨bs, cursorEvents bs, rfl, ?_, delivered_cursor bs⟩, ?_, fun _ => rfl⟩
      · simp [Ephemeral.fetchMetadata, Map.get?_insert]
      · intro p' v' hne
        simp only [Ephemeral.fetchMetadata, Map.get?_insert, if_neg hne]

/-- C57: the same for targets. -/
theorem C57_store_then_fetch_target (r r' : Ephemeral) (p : TargetPath) (src : List Ev)
    (h : r.storeTarget src p = (.ok (), r')) :
    (∃ bs evs, delivered src = (bs, .eof) ∧ r'.fetchTarget p = .ok evs ∧
      delivered evs = (bs, .eof)) ∧
    (∀ q, q ≠ p → r'.fetchTarget q = r.fetchTarget q) ∧
    ∀ p' v', r'.fetchMetadata p' v' = r.fetchMetadata p' v' := by
  unfold Ephemeral.storeTarget at h
  rw [readToEnd_eq] at h
  cases hd : delivered src with
  | mk bs en =>
    rw [hd] at h
    cases en with
    | error k => cases h
    | eof =>
      cases h
      refine ⟨⟨bs, cursorEvents bs, rfl, ?_, delivered_cursor bs⟩, ?_, fun _ _ => rfl⟩
      · simp [Ephemeral.fetchTarget, Map.get?_insert]
      · intro q hne
        simp only [Ephemeral.fetchTarget, Map.get?_insert, if_neg hne]

/-- C57: a store that reports an error has changed nothing. -/
theorem C57_failed_store (r r' : Ephemeral) (p : MetadataPath) (v : MetadataVersion) (q : TargetPath)
    (src : List Ev) (e : Err) :
    (r.storeMetadata p v src = (.error e, r') → r' = r) ∧
    (r.storeTarget src q = (.error e, r') → r' = r) := by
  constructor <;> intro h
  · unfold Ephemeral.storeMetadata at h
    split at h <;> cases h; rfl
  · unfold Ephemeral.storeTarget at h
    split at h <;> cases h; rfl

/-- C57: a new repository holds nothing. -/
theorem C57_new_is_empty (p : MetadataPath) (v : MetadataVersion) (q : TargetPath) :
    Ephemeral.new.fetchMetadata p v = .error .notFound ∧
    Ephemeral.new.fetchTarget q = .error .notFound := ⟨rfl, rfl⟩

/-- A store from a source that delivers in chunks and pauses. -/
example :
    (Ephemeral.new.storeTarget [.data [1], .pending, .data [2, 3]] "x".toList).1 = .ok () ∧
    ((Ephemeral.new.storeTarget [.data [1], .pending, .data [2, 3]] "x".toList).2.fetchTarget
      "x".toList) = .ok [.data [1, 2, 3]] ∧
    (Ephemeral.new.storeTarget [.data [1], .err .other] "x".toList).1 = .error .opaqueErr := by
  decide +kernel

/-! ### Concurrent use -/

theorem lookup_insert (r : Ephemeral) (bs : Bytes) (k k' : MemKey) :
    MemState.lookup (MemState.insert r bs k) k' =
      if k' = k then some bs else MemState.lookup r k' := by
  cases k <;> cases k' <;>
    simp only [MemState.lookup, MemState.insert, Map.get?_insert, Prod.mk.injEq,
      MemKey.metadata.injEq, MemKey.target.injEq, reduceCtorEq, if_false]

theorem latest_append (k : MemKey) (l l' : List MemEvent) :
    latest k (l ++ l') = (latest k l').or (latest k l) := by
  induction l with
  | nil => simp [latest]
  | cons e l ih =>
    cases e with
    | put i k' bs => simp only [List.cons_append, latest, ih, Option.or_assoc]
    | get i k' f => simp only [List.cons_append, latest, ih]

/-- What holds of call number `i` that began as `c₀` and has done the accesses `acc`. -/
def CallOk (c₀ : MemCall) (i : Nat) (acc : List MemEvent) : MemCall → Prop
  | .storing k src buf => acc = [] ∧
      ∃ src₀, c₀ = .storing k src₀ [] ∧
        delivered src₀ = (buf ++ (delivered src).1, (delivered src).2)
  | .inserting k buf => acc = [] ∧
      ∃ src₀, c₀ = .storing k src₀ [] ∧ delivered src₀ = (buf, .eof)
  | .stored (.ok ()) => ∃ k src₀ bs, c₀ = .storing k src₀ [] ∧
      delivered src₀ = (bs, .eof) ∧ acc = [.put i k bs]
  | .stored (.error e) => acc = [] ∧
      ∃ k src₀, c₀ = .storing k src₀ [] ∧ (delivered src₀).2 = .error e
  | .fetching k => acc = [] ∧ c₀ = .fetching k
  | .reading content pos got eof => pos ≤ content.length ∧ got = content.take pos ∧
      (eof = true → got = content) ∧
      ∃ k, c₀ = .fetching k ∧ acc = [.get i k (some content)]
  | .missing => ∃ k, c₀ = .fetching k ∧ acc = [.get i k none]

/-- What holds between the beginning and any later moment. -/
structure MemInv (s₀ s : MemState) : Prop where
  /-- the map is the record -/
  repo : ∀ k, MemState.lookup s.repo k = (latest k s.log).or (MemState.lookup s₀.repo k)
  expl : Explains (MemState.lookup s₀.repo) s.log
  calls : ∀ i,
    CallOk (s₀.calls i) i (accesses i s.log) (s.calls i)

theorem accesses_append (i : Nat) (l l' : List MemEvent) :
    accesses i (l ++ l') = accesses i l ++ accesses i l' := by simp [accesses]

theorem accesses_other {i j : Nat} (h : j ≠ i) (k : MemKey) (bs : Bytes) (f : Option Bytes) :
    accesses i [.put j k bs] = [] ∧ accesses i [.get j k f] = [] := by
  simp [accesses, h]

theorem accesses_self (i : Nat) (k : MemKey) (bs : Bytes) (f : Option Bytes) :
    accesses i [.put i k bs] = [.put i k bs] ∧ accesses i [.get i k f] = [.get i k f] := by
  simp [accesses]

theorem append_eq_append_cons {α : Type} {l pre post : List α} {a b : α}
    (h : l ++ [a] = pre ++ b :: post) :
    (post = [] ∧ l = pre ∧ a = b) ∨ ∃ post', post = post' ++ [a] ∧ l = pre ++ b :: post' := by
  rcases List.eq_nil_or_concat post with rfl | ⟨post', c, rfl⟩
  · left
    have := List.append_inj' h rfl
    simp at this
    exact ⟨rfl, this.1, this.2⟩
  · right
    have h' : l ++ [a] = (pre ++ b :: post') ++ [c] := by simpa using h
    obtain ⟨h1, h2⟩ := List.append_inj' h' rfl
    simp at h2
    exact ⟨post', by simp [h2], h1⟩

theorem expl_put {f : MemKey → Option Bytes} {l : List MemEvent} (h : Explains f l) (i : Nat)
    (k : MemKey) (bs : Bytes) : Explains f (l ++ [.put i k bs]) := by
  intro pre post j k' fnd he
  rcases append_eq_append_cons he with ⟨_, _, hc⟩ | ⟨post', _, hl⟩
  · cases hc
  · exact h pre post' j k' fnd hl

theorem expl_get {f : MemKey → Option Bytes} {l : List MemEvent} (h : Explains f l) (i : Nat)
    (k : MemKey) (fnd : Option Bytes) (hf : fnd = (latest k l).or (f k)) :
    Explains f (l ++ [.get i k fnd]) := by
  intro pre post j k' fnd' he
  rcases append_eq_append_cons he with ⟨_, rfl, hc⟩ | ⟨post', _, hl⟩
  · cases hc; exact hf
  · exact h pre post' j k' fnd' hl

theorem memInv_init (s : MemState) (hl : s.log = []) (hf : ∀ i, MemState.Fresh (s.calls i)) :
    MemInv s s where
  repo := by simp [hl, latest]
  expl := by
    intro pre post i k found h
    rw [hl] at h
    simp at h
  calls := by
    intro i
    have := hf i
    cases hc : s.calls i with
    | storing k src buf =>
      rw [hc] at this
      cases (this : buf = [])
      exact ⟨by simp [hl, accesses], src, rfl, by simp⟩
    | fetching k => exact ⟨by simp [hl, accesses], rfl⟩
    | inserting k buf => rw [hc] at this; cases this
    | stored r => rw [hc] at this; cases this
    | reading a b c d => rw [hc] at this; cases this
    | missing => rw [hc] at this; cases this

/-- A step that leaves the map and the record alone only has to keep its own call's invariant. -/
theorem memInv_set {s₀ s : MemState} (h : MemInv s₀ s) (i : Nat) (c : MemCall)
    (hc : CallOk (s₀.calls i) i (accesses i s.log) c) :
    MemInv s₀ (s.set i c) where
  repo := h.repo
  expl := h.expl
  calls := by
    intro j
    by_cases hj : j = i
    · subst hj
      simp only [MemState.set, if_true]
      exact hc
    · simp only [MemState.set, hj, if_false]
      exact h.calls j

theorem memInv_step {s₀ s : MemState} (h : MemInv s₀ s) (i n : Nat) : MemInv s₀ (s.step i n) := by
  have hi := h.calls i
  unfold MemState.step
  cases hc : s.calls i with
  | storing k src buf =>
    rw [hc] at hi
    obtain ⟨ha, src₀, hs, hd⟩ := hi
    cases src with
    | nil =>
      refine memInv_set h i _ ⟨ha, src₀, hs, ?_⟩
      simpa [delivered] using hd
    | cons ev evs =>
      cases ev with
      | pending => exact memInv_set h i _ ⟨ha, src₀, hs, by simpa [delivered] using hd⟩
      | err e => exact memInv_set h i _ ⟨ha, k, src₀, hs, by simp [delivered] at hd; simp [hd]⟩
      | data bs =>
        by_cases hb : bs = []
        · simp only [hb, if_true]
          exact memInv_set h i _ ⟨ha, src₀, hs, by simpa [delivered, hb] using hd⟩
        · simp only [hb, if_false]
          exact memInv_set h i _ ⟨ha, src₀, hs, by simpa [delivered, hb] using hd⟩
  | inserting k buf =>
    rw [hc] at hi
    obtain ⟨ha, src₀, hs, hd⟩ := hi
    refine ⟨?_, expl_put h.expl i k buf, ?_⟩
    · intro k'
      simp only [lookup_insert, latest_append, latest, h.repo k']
      by_cases hk : k' = k
      · simp [hk]
      · have : k ≠ k' := fun e => hk e.symm
        simp [hk, this]
    · intro j
      by_cases hj : j = i
      · subst hj
        simp only [MemState.set, if_true]
        exact ⟨k, src₀, buf, hs, hd, by rw [accesses_append, ha, (accesses_self j k buf none).1]; rfl⟩
      · have hj' : i ≠ j := fun e => hj e.symm
        have := h.calls j
        rw [accesses_append, (accesses_other hj' k buf none).1, List.append_nil]
        simpa only [MemState.set, hj, if_false] using this
  | stored r => exact h
  | fetching k =>
    rw [hc] at hi
    obtain ⟨ha, hs⟩ := hi
    cases hl : MemState.lookup s.repo k with
    | some bs =>
      dsimp only
      rw [hl]
      dsimp only
      refine ⟨?_, expl_get h.expl i k _ (by rw [← h.repo k, hl]), ?_⟩
      · intro k'
        have := h.repo k'
        simpa [latest_append, latest, MemState.set] using this
      · intro j
        by_cases hj : j = i
        · subst hj
          simp only [MemState.set, if_true]
          exact ⟨Nat.zero_le _, by simp, by simp, k, hs,
            by rw [accesses_append, ha, (accesses_self j k [] (some bs)).2]; rfl⟩
        · have hj' : i ≠ j := fun e => hj e.symm
          have := h.calls j
          rw [accesses_append, (accesses_other hj' k [] (some bs)).2, List.append_nil]
          simpa only [MemState.set, hj, if_false] using this
    | none =>
      dsimp only
      rw [hl]
      dsimp only
      refine ⟨?_, expl_get h.expl i k _ (by rw [← h.repo k, hl]), ?_⟩
      · intro k'
        have := h.repo k'
        simpa [latest_append, latest, MemState.set] using this
      · intro j
        by_cases hj : j = i
        · subst hj
          simp only [MemState.set, if_true]
          exact ⟨k, hs, by rw [accesses_append, ha, (accesses_self j k [] none).2]; rfl⟩
        · have hj' : i ≠ j := fun e => hj e.symm
          have := h.calls j
          rw [accesses_append, (accesses_other hj' k [] none).2, List.append_nil]
          simpa only [MemState.set, hj, if_false] using this
  | reading content pos got eof =>
    rw [hc] at hi
    obtain ⟨hp, hg, he, k, hs, ha⟩ := hi
    refine memInv_set h i _ ⟨?_, ?_, ?_, k, hs, ha⟩
    · simp only [List.length_take, List.length_drop]; omega
    · rw [hg, ← List.take_add]
      simp only [List.length_take, List.length_drop]
      rw [List.take_eq_take_iff]
      omega
    · intro hor
      simp only [Bool.or_eq_true, Bool.and_eq_true, decide_eq_true_eq, ne_eq,
        List.isEmpty_iff] at hor
      rcases hor with hor | ⟨hn, hem⟩
      · have := he hor
        rw [hg] at this
        have hlen : content.length ≤ pos := by
          have := congrArg List.length this
          rw [List.length_take] at this
          omega
        rw [List.drop_eq_nil_of_le hlen, hg, this]; simp
      · rw [hem, List.append_nil, hg]
        rw [List.take_eq_nil_iff] at hem
        rcases hem with h0 | h0
        · exact absurd h0 hn
        · rw [List.drop_eq_nil_iff] at h0
          exact List.take_of_length_le h0
  | missing => exact h

theorem memInv_run {s₀ s : MemState} (h : MemInv s₀ s) (sched : List (Nat × Nat)) :
    MemInv s₀ (s.run sched) := by
  induction sched generalizing s with
  | nil => exact h
  | cons p l ih => exact ih (memInv_step h p.1 p.2)

/-- C57: any number of stores and fetches, run concurrently with any interleaving of their steps.
Every lookup of a fetch sees exactly the content of the last completed store under the same name, or
what was there at the beginning. -/
theorem C57_fetch_sees_latest_store (s : MemState) (hl : s.log = [])
    (hf : ∀ i, MemState.Fresh (s.calls i)) (sched : List (Nat × Nat)) :
    Explains (MemState.lookup s.repo) (s.run sched).log :=
  (memInv_run (memInv_init s hl hf) sched).expl

/-- C57: a fetch that has returned a reader has done exactly one lookup; whatever is stored later,
the caller reads a prefix of the content found, and all of it when the reader ends. A fetch that has
reported `NotFound` has done exactly one lookup, which found nothing. -/
theorem C57_reader_is_unaffected (s : MemState) (hl : s.log = [])
    (hf : ∀ i, MemState.Fresh (s.calls i)) (sched : List (Nat × Nat)) (i : Nat) :
    (∀ content pos got eof, (s.run sched).calls i = .reading content pos got eof →
      got <+: content ∧ (eof = true → got = content) ∧
      ∃ k, s.calls i = .fetching k ∧
        accesses i (s.run sched).log = [.get i k (some content)]) ∧
    ((s.run sched).calls i = .missing →
      ∃ k, s.calls i = .fetching k ∧ accesses i (s.run sched).log = [.get i k none]) := by
  have h := (memInv_run (memInv_init s hl hf) sched).calls i
  constructor
  · intro content pos got eof hc
    rw [hc] at h
    obtain ⟨_, hg, he, hk⟩ := h
    exact ⟨hg ▸ List.take_prefix _ _, he, hk⟩
  · intro hc
    rw [hc] at h
    exact h

/-- C57: a store that has reported success has put exactly what its source delivered, once, under
its own name, and its source had ended normally; one that has reported an error, or has not returned
yet without being past its single insertion, has put nothing. -/
theorem C57_store_puts_its_source (s : MemState) (hl : s.log = [])
    (hf : ∀ i, MemState.Fresh (s.calls i)) (sched : List (Nat × Nat)) (i : Nat) :
    ((s.run sched).calls i = .stored (.ok ()) →
      ∃ k src bs, s.calls i = .storing k src [] ∧ delivered src = (bs, .eof) ∧
        accesses i (s.run sched).log = [.put i k bs]) ∧
    (∀ e, (s.run sched).calls i = .stored (.error e) →
      accesses i (s.run sched).log = [] ∧
      ∃ k src, s.calls i = .storing k src [] ∧ (delivered src).2 = .error e) ∧
    (∀ k src buf, (s.run sched).calls i = .storing k src buf →
      accesses i (s.run sched).log = []) := by
  have h := (memInv_run (memInv_init s hl hf) sched).calls i
  refine ⟨fun hc => ?_, fun e hc => ?_, fun k src buf hc => ?_⟩ <;> rw [hc] at h
  · exact h
  · exact h
  · exact h.1

/-- Two stores under one name and a fetch that runs between them: the fetch gets the first content
although the second store completes before it is read. -/
example :
    let k : MemKey := .target "x".toList
    let s : MemState := ⟨Ephemeral.new, fun i =>
      if i = 0 then .storing k [.data [1, 2]] [] else if i = 1 then .storing k [.data [3]] []
      else .fetching k, []⟩
    let sched := [(0, 0), (1, 0), (0, 0), (0, 0), (2, 0), (1, 0), (1, 0), (2, 1), (2, 5), (2, 5), (3, 0)]
    (∀ i, MemState.Fresh (s.calls i)) ∧
    (s.run sched).log = [.put 0 k [1, 2], .get 2 k (some [1, 2]), .put 1 k [3],
      .get 3 k (some [3])] ∧
    (s.run sched).calls 2 = .reading [1, 2] 2 [1, 2] true := by
  refine ⟨?_, by decide +kernel, by decide +kernel⟩
  intro i
  show MemState.Fresh (if i = 0 then _ else if i = 1 then _ else _)
  split
  · rfl
  · split
    · rfl
    · trivial

/-- The steps of a store that runs alone add up to the sequential function. -/
theorem storing_alone (s : MemState) (i : Nat) (k : MemKey) (src : List Ev) (buf : Bytes)
    (hc : s.calls i = .storing k src buf) :
    ∃ n, ∀ r, readToEnd src buf = r →
      (s.run (List.replicate n (i, 0))).calls i = .stored (r.map fun _ => ()) ∧
      (s.run (List.replicate n (i, 0))).repo =
        (match r with | .ok bs => MemState.insert s.repo bs k | .error _ => s.repo) := by
  induction src generalizing s buf with
  | nil =>
    refine ⟨2, ?_⟩
    rintro r rfl
    simp [MemState.run, MemState.step, hc, List.replicate, MemState.set, readToEnd, Except.map]
  | cons ev evs ih =>
    cases ev with
    | pending =>
      obtain ⟨n, hn⟩ := ih (s.step i 0) buf (by simp [MemState.step, hc, MemState.set])
      refine ⟨n + 1, ?_⟩
      rintro r rfl
      have hr : (s.step i 0).repo = s.repo := by simp [MemState.step, hc, MemState.set]
      have := hn _ rfl
      rw [hr] at this
      simpa only [MemState.run, List.replicate_succ, List.foldl_cons, readToEnd] using this
    | err e =>
      refine ⟨1, ?_⟩
      rintro r rfl
      simp [MemState.run, MemState.step, hc, List.replicate, MemState.set, readToEnd, Except.map]
    | data bs =>
      by_cases hb : bs = []
      · refine ⟨2, ?_⟩
        rintro r rfl
        simp [MemState.run, MemState.step, hc, List.replicate, MemState.set, readToEnd, Except.map, hb]
      · obtain ⟨n, hn⟩ := ih (s.step i 0) (buf ++ bs) (by simp [MemState.step, hc, MemState.set, hb])
        refine ⟨n + 1, ?_⟩
        rintro r rfl
        have hr : (s.step i 0).repo = s.repo := by simp [MemState.step, hc, MemState.set, hb]
        have := hn _ rfl
        rw [hr] at this
        simpa only [MemState.run, List.replicate_succ, List.foldl_cons, readToEnd, hb, if_false]
          using this

/-! ### As the local repository of a client -/

/-- A client's world whose local repository is an in-memory repository that nobody else changes. -/
def ephemeralWorld (remote : Provider Ephemeral)
    (write : Bytes → Except IoKind Unit) (flush : Except IoKind Unit) (clock : Clock) :
    World Ephemeral where
  remote :=
    { fetchMetadata := fun p v m h w => ((remote.fetchMetadata p v m h w).1, w)
      fetchTarget := fun p d w => ((remote.fetchTarget p d w).1, w) }
  cache :=
    { fetchMetadata := fun p v _ _ w => (w.fetchMetadata p v, w)
      fetchTarget := fun p _ w => (w.fetchTarget p, w) }
  storeMetadata := fun p v b w => w.storeMetadata p v (cursorEvents b)
  storeTarget := fun evs p w => w.storeTarget evs p
  write := fun b w => (write b, w)
  flush := fun w => (flush, w)
  clock := fun w => (clock, w)

/-- The in-memory repository keeps targets as `C33` and `C34` assume it. -/
theorem ephemeral_keepsTargets (remote write flush clock) :
    KeepsTargets (ephemeralWorld remote write flush clock) (fun w p => w.targets.get? p) where
  ok := by
    intro evs p w w' h
    simp only [ephemeralWorld, Ephemeral.storeTarget, readToEnd_eq] at h
    cases hd : delivered evs with
    | mk bs en =>
      rw [hd] at h
      cases en with
      | error k => cases h
      | eof =>
        cases h
        refine ⟨bs, rfl, by simp [Map.get?_insert], ?_⟩
        intro q hq
        simp [Map.get?_insert, hq]
  error := by
    intro evs p w e w' h
    simp only [ephemeralWorld, Ephemeral.storeTarget, readToEnd_eq] at h
    cases hd : delivered evs with
    | mk bs en => rw [hd] at h; cases en <;> cases h; rfl
  metas := by
    intro p v b w
    simp only [ephemeralWorld, Ephemeral.storeMetadata]
    split <;> rfl
  fetch := by intro src p v m h w; cases src <;> rfl
  target := fun _ _ _ => rfl
  clock := fun _ => rfl

end RustTuf.Props
