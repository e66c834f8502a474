import Verif.Model.FileStore
import Verif.Spec.Readers
import Mathlib.Data.List.Induction

/-! C56 File stores are atomic. -/

namespace RustTuf
open Spec

/-- The beginning: arbitrary files, and calls that have not started. -/
structure Spec.FsInit (s : FsState) : Prop where
  start : ∀ i, (s.calls i).st = .start
  whole : ∀ i, (s.calls i).rest = (s.calls i).src

/-- Temporary names are never destinations of any call (`tempfile` picks random names ".tmpXXXXXX"). -/
def Spec.TempsApart (s : FsState) (acts : List FsAct) : Prop :=
  ∀ i tmp, .create i tmp ∈ acts → ∀ j, (s.calls j).dest ≠ tmp

/-- The temporary file a call holds. -/
def StoreState.tmp? : StoreState → Option FileName
  | .copying t _ => some t
  | .copied t => some t
  | _ => none

/-- Invariant of all reachable states. -/
structure FsInv (s0 s : FsState) : Prop where
  same : ∀ i, (s.calls i).dest = (s0.calls i).dest ∧ (s.calls i).src = (s0.calls i).src
  started : ∀ i, (s.calls i).st = .start → (s.calls i).rest = (s.calls i).src
  copying : ∀ i t buf, (s.calls i).st = .copying t buf → ∃ w, s.files t = some w ∧
    delivered (s.calls i).src =
      (w ++ buf ++ (delivered (s.calls i).rest).1, (delivered (s.calls i).rest).2)
  copied : ∀ i t, (s.calls i).st = .copied t → ∃ w, s.files t = some w ∧
    delivered (s.calls i).src = (w, .eof)
  apart : ∀ i t, (s.calls i).st.tmp? = some t → ∀ j, (s.calls j).dest ≠ t
  distinct : ∀ i j t, (s.calls i).st.tmp? = some t → (s.calls j).st.tmp? = some t → i = j
  dest : ∀ p, (∃ j, (s.calls j).dest = p) → s.files p = s0.files p ∨
    ∃ i, (s.calls i).dest = p ∧ (s.calls i).st = .finished true ∧
      ∃ w, s.files p = some w ∧ delivered (s.calls i).src = (w, .eof)
  ok : ∀ i, (s.calls i).st = .finished true → ∃ w, delivered (s.calls i).src = (w, .eof)
  others : ∀ p, (∀ j, (s.calls j).dest ≠ p) → (∀ i, (s.calls i).st.tmp? ≠ some p) →
    s.files p = s0.files p
  tmpNew : ∀ i t, (s.calls i).st.tmp? = some t → s0.files t = none

theorem FsInv.init {s : FsState} (h : FsInit s) : FsInv s s where
  same := fun _ => ⟨rfl, rfl⟩
  started := fun i _ => h.whole i
  copying := fun i t buf hi => by rw [h.start i] at hi; cases hi
  copied := fun i t hi => by rw [h.start i] at hi; cases hi
  apart := fun i t hi => by rw [h.start i] at hi; cases hi
  distinct := fun i j t hi => by rw [h.start i] at hi; cases hi
  dest := fun p _ => .inl rfl
  ok := fun i hi => by rw [h.start i] at hi; cases hi
  others := fun p _ _ => rfl
  tmpNew := fun i t hi => by rw [h.start i] at hi; cases hi

theorem upd_same {A B : Type} [DecidableEq A] (f : A → B) (a : A) (b : B) : upd f a b a = b := by
  simp [upd]

theorem upd_ne {A B : Type} [DecidableEq A] (f : A → B) {a x : A} (b : B) (h : x ≠ a) :
    upd f a b x = f x := by simp [upd, h]

theorem FsInv.live {s0 s : FsState} (h : FsInv s0 s) {j : Nat} {t : FileName}
    (hj : (s.calls j).st.tmp? = some t) : ∃ w, s.files t = some w := by
  cases hst : (s.calls j).st with
  | start => rw [hst] at hj; cases hj
  | copying t' buf =>
    rw [hst] at hj; cases hj
    obtain ⟨w, hw, _⟩ := h.copying j _ buf hst
    exact ⟨w, hw⟩
  | copied t' =>
    rw [hst] at hj; cases hj
    obtain ⟨w, hw, _⟩ := h.copied j _ hst
    exact ⟨w, hw⟩
  | finished ok => rw [hst] at hj; cases hj

/-- One call moves on, touching at most its own temporary file `T` and its destination. -/
theorem FsInv.update {s0 s : FsState} (h : FsInv s0 s) (i : Nat) (c : StoreCall)
    (f : FileName → Option Bytes) (T : FileName)
    (hd : c.dest = (s.calls i).dest ∧ c.src = (s.calls i).src)
    (hfin : (s.calls i).st ≠ .finished true)
    (hf : ∀ p, p ≠ T → p ≠ c.dest → f p = s.files p)
    (hTd : ∀ j, (s.calls j).dest ≠ T)
    (hTo : ∀ j, j ≠ i → (s.calls j).st.tmp? ≠ some T)
    (hold : ∀ t, (s.calls i).st.tmp? = some t → t = T)
    (hstart : c.st = .start → c.rest = c.src)
    (hcopying : ∀ t buf, c.st = .copying t buf → t = T ∧ ∃ w, f t = some w ∧
      delivered c.src = (w ++ buf ++ (delivered c.rest).1, (delivered c.rest).2))
    (hcopied : ∀ t, c.st = .copied t → t = T ∧ ∃ w, f t = some w ∧ delivered c.src = (w, .eof))
    (hnone : c.st.tmp? = none → f T = none)
    (h0 : s0.files T = none)
    (hok : c.st = .finished true → ∃ w, delivered c.src = (w, .eof))
    (hdest : f c.dest = s.files c.dest ∨ (c.st = .finished true ∧ ∃ w, f c.dest = some w ∧
      delivered c.src = (w, .eof))) :
    FsInv s0 ⟨f, upd s.calls i c⟩ := by
  have hcd : c.dest ≠ T := by rw [hd.1]; exact hTd i
  have htmp : ∀ t, c.st.tmp? = some t → t = T := by
    intro t ht
    cases hst : c.st with
    | start => rw [hst] at ht; cases ht
    | copying t' buf => rw [hst] at ht; cases ht; exact (hcopying _ _ hst).1
    | copied t' => rw [hst] at ht; cases ht; exact (hcopied _ hst).1
    | finished b => rw [hst] at ht; cases ht
  have dests : ∀ j, (upd s.calls i c j).dest = (s.calls j).dest := by
    intro j
    by_cases e : j = i
    · subst e; rw [upd_same]; exact hd.1
    · rw [upd_ne _ _ e]
  refine ⟨?_, ?_, ?_, ?_, ?_, ?_, ?_, ?_, ?_, ?_⟩
  · intro j
    by_cases e : j = i
    · subst e; simp only [upd_same]; rw [hd.1, hd.2]; exact h.same j
    · simp only [upd_ne _ _ e]; exact h.same j
  · intro j
    by_cases e : j = i
    · subst e; simp only [upd_same]; exact hstart
    · simp only [upd_ne _ _ e]; exact h.started j
  · intro j t buf
    by_cases e : j = i
    · subst e; simp only [upd_same]; exact fun hs => (hcopying t buf hs).2
    · simp only [upd_ne _ _ e]
      intro hs
      have ht : (s.calls j).st.tmp? = some t := by rw [hs]; rfl
      have h1 : t ≠ T := by rintro rfl; exact hTo j e ht
      have h2 : t ≠ c.dest := by rw [hd.1]; exact fun e' => h.apart j t ht i e'.symm
      rw [hf t h1 h2]
      exact h.copying j t buf hs
  · intro j t
    by_cases e : j = i
    · subst e; simp only [upd_same]; exact fun hs => (hcopied t hs).2
    · simp only [upd_ne _ _ e]
      intro hs
      have ht : (s.calls j).st.tmp? = some t := by rw [hs]; rfl
      have h1 : t ≠ T := by rintro rfl; exact hTo j e ht
      have h2 : t ≠ c.dest := by rw [hd.1]; exact fun e' => h.apart j t ht i e'.symm
      rw [hf t h1 h2]
      exact h.copied j t hs
  · intro j t hj k
    simp only [dests]
    by_cases e : j = i
    · subst e; simp only [upd_same] at hj; rw [htmp t hj]; exact hTd k
    · simp only [upd_ne _ _ e] at hj; exact h.apart j t hj k
  · intro j k t hj hk
    by_cases e : j = i
    · by_cases e' : k = i
      · rw [e, e']
      · subst e
        simp only [upd_same] at hj
        simp only [upd_ne _ _ e'] at hk
        rw [htmp t hj] at hk
        exact absurd hk (hTo k e')
    · by_cases e' : k = i
      · subst e'
        simp only [upd_same] at hk
        simp only [upd_ne _ _ e] at hj
        rw [htmp t hk] at hj
        exact absurd hj (hTo j e)
      · simp only [upd_ne _ _ e] at hj
        simp only [upd_ne _ _ e'] at hk
        exact h.distinct j k t hj hk
  · rintro p ⟨j, hj⟩
    simp only [dests] at hj ⊢
    have hpT : p ≠ T := by rw [← hj]; exact hTd j
    have old := h.dest p ⟨j, hj⟩
    have keep : f p = s.files p → f p = s0.files p ∨ ∃ k, (s.calls k).dest = p ∧
        (upd s.calls i c k).st = .finished true ∧ ∃ w, f p = some w ∧
          delivered (upd s.calls i c k).src = (w, .eof) := by
      intro e
      rw [e]
      rcases old with o | ⟨k, k1, k2, k3⟩
      · exact .inl o
      · refine .inr ⟨k, k1, ?_⟩
        have : k ≠ i := by rintro rfl; exact hfin k2
        rw [upd_ne _ _ this]
        exact ⟨k2, k3⟩
    by_cases e : p = c.dest
    · subst e
      rcases hdest with e' | ⟨e1, e2⟩
      · exact keep e'
      · refine .inr ⟨i, hd.1.symm, ?_⟩
        rw [upd_same]
        exact ⟨e1, e2⟩
    · exact keep (hf p hpT e)
  · intro j
    by_cases e : j = i
    · subst e; simp only [upd_same]; exact hok
    · simp only [upd_ne _ _ e]; exact h.ok j
  · intro p hp hl
    simp only [dests] at hp
    by_cases e : p = T
    · subst e
      have : c.st.tmp? = none := by
        cases hc : c.st.tmp? with
        | none => rfl
        | some t =>
          have := hl i
          simp only [upd_same] at this
          rw [hc, htmp t hc] at this
          exact absurd rfl this
      simp only [hnone this, h0]
    · simp only
      rw [hf p e (by rw [hd.1]; exact fun e' => hp i e'.symm)]
      refine h.others p hp (fun j => ?_)
      by_cases e' : j = i
      · subst e'; intro hj; exact e (hold p hj)
      · have := hl j
        simpa only [upd_ne _ _ e'] using this
  · intro j t hj
    by_cases e : j = i
    · subst e; simp only [upd_same] at hj; rw [htmp t hj]; exact h0
    · simp only [upd_ne _ _ e] at hj; exact h.tmpNew j t hj

theorem FsInv.abort {s0 s : FsState} (h : FsInv s0 s) (i : Nat) (t : FileName)
    (ht : (s.calls i).st.tmp? = some t) : FsInv s0 (s.abort i t) := by
  have hl : ∀ u, (s.calls i).st.tmp? = some u → u = t := by
    intro u hu; rw [ht] at hu; injection hu with hu; exact hu.symm
  refine h.update i { s.calls i with st := .finished false } (upd s.files t none) t ⟨rfl, rfl⟩ ?_ ?_
    (h.apart i t ht) ?_ hl ?_ ?_ ?_ ?_ (h.tmpNew i t ht) ?_ ?_
  · intro e; rw [e] at ht; cases ht
  · intro p hp _; exact upd_ne _ _ hp
  · intro j hj hjt; exact hj (h.distinct j i t hjt ht)
  · intro e; cases e
  · intro _ _ e; cases e
  · intro _ e; cases e
  · intro _; exact upd_same _ _ _
  · intro e; cases e
  · left; exact upd_ne _ _ (h.apart i t ht i)

/-- A step that changes only call `i`, which holds `t` before and after. -/
theorem FsInv.advance {s0 s : FsState} (h : FsInv s0 s) (i : Nat) (t : FileName)
    (ht : (s.calls i).st.tmp? = some t) (c : StoreCall) (f : FileName → Option Bytes)
    (hd : c.dest = (s.calls i).dest ∧ c.src = (s.calls i).src)
    (hc : c.st.tmp? = some t) (hf : ∀ p, p ≠ t → f p = s.files p)
    (hcopying : ∀ t buf, c.st = .copying t buf → ∃ w, f t = some w ∧
      delivered c.src = (w ++ buf ++ (delivered c.rest).1, (delivered c.rest).2))
    (hcopied : ∀ t, c.st = .copied t → ∃ w, f t = some w ∧ delivered c.src = (w, .eof)) :
    FsInv s0 ⟨f, upd s.calls i c⟩ := by
  have hl : ∀ u, (s.calls i).st.tmp? = some u → u = t := by
    intro u hu; rw [ht] at hu; injection hu with hu; exact hu.symm
  refine h.update i c f t hd ?_ (fun p hp _ => hf p hp) (h.apart i t ht) ?_ hl ?_ ?_ ?_ ?_
    (h.tmpNew i t ht) ?_ ?_
  · intro e; rw [e] at ht; cases ht
  · intro j hj hjt; exact hj (h.distinct j i t hjt ht)
  · intro e; rw [e] at hc; cases hc
  · intro u buf e; refine ⟨?_, hcopying u buf e⟩; rw [e] at hc; injection hc
  · intro u e; refine ⟨?_, hcopied u e⟩; rw [e] at hc; injection hc
  · intro e; rw [e] at hc; cases hc
  · intro e; rw [e] at hc; cases hc
  · left; apply hf; rw [hd.1]; exact h.apart i t ht i

theorem FsInv.step {s0 s : FsState} (h : FsInv s0 s) (a : FsAct)
    (hT : ∀ i tmp, a = .create i tmp → ∀ j, (s0.calls j).dest ≠ tmp) : FsInv s0 (s.step a) := by
  cases a with
  | create i tmp =>
    simp only [FsState.step]
    split
    · rename_i hst
      split
      · rename_i hfree
        have hTd : ∀ j, (s.calls j).dest ≠ tmp := by
          intro j; rw [(h.same j).1]; exact hT i tmp rfl j
        have hnl : ∀ j, (s.calls j).st.tmp? ≠ some tmp := by
          intro j hj
          obtain ⟨w, hw⟩ := h.live hj
          rw [hfree] at hw; cases hw
        have h0 : s0.files tmp = none := by rw [← h.others tmp hTd hnl]; exact hfree
        refine h.update i { s.calls i with st := .copying tmp [] } (upd s.files tmp (some [])) tmp
          ⟨rfl, rfl⟩ ?_ ?_ hTd (fun j _ => hnl j) ?_ ?_ ?_ ?_ ?_ h0 ?_ ?_
        · rw [hst]; simp
        · intro p hp _; exact upd_ne _ _ hp
        · intro t ht; rw [hst] at ht; cases ht
        · intro e; cases e
        · intro t buf e
          cases e
          refine ⟨rfl, [], upd_same _ _ _, ?_⟩
          simp only [h.started i hst, List.nil_append]
        · intro t e; cases e
        · intro e; cases e
        · intro e; cases e
        · left; exact upd_ne _ _ (hTd i)
      · exact h
    · exact h
  | createFail i =>
    simp only [FsState.step]
    split
    · rename_i hst
      -- no temporary file is involved
      have dests : ∀ j, (upd s.calls i { s.calls i with st := .finished false } j).dest =
          (s.calls j).dest := by
        intro j
        by_cases e : j = i
        · subst e; rw [upd_same]
        · rw [upd_ne _ _ e]
      have tm : ∀ j t, (upd s.calls i { s.calls i with st := .finished false } j).st.tmp? = some t →
          j ≠ i ∧ (s.calls j).st.tmp? = some t := by
        intro j t hj
        by_cases e : j = i
        · subst e; rw [upd_same] at hj; cases hj
        · rw [upd_ne _ _ e] at hj; exact ⟨e, hj⟩
      refine ⟨?_, ?_, ?_, ?_, ?_, ?_, ?_, ?_, ?_, ?_⟩ <;> simp only [FsState.setSt]
      · intro j
        by_cases e : j = i
        · subst e; simp only [upd_same]; exact h.same j
        · simp only [upd_ne _ _ e]; exact h.same j
      · intro j hj
        by_cases e : j = i
        · subst e; rw [upd_same] at hj; cases hj
        · rw [upd_ne _ _ e] at hj ⊢; exact h.started j hj
      · intro j t buf hj
        by_cases e : j = i
        · subst e; rw [upd_same] at hj; cases hj
        · rw [upd_ne _ _ e] at hj ⊢; exact h.copying j t buf hj
      · intro j t hj
        by_cases e : j = i
        · subst e; rw [upd_same] at hj; cases hj
        · rw [upd_ne _ _ e] at hj ⊢; exact h.copied j t hj
      · intro j t hj k; rw [dests]; exact h.apart j t (tm j t hj).2 k
      · intro j k t hj hk; exact h.distinct j k t (tm j t hj).2 (tm k t hk).2
      · rintro p ⟨j, hj⟩
        rw [dests] at hj
        rcases h.dest p ⟨j, hj⟩ with o | ⟨k, k1, k2, k3⟩
        · exact .inl o
        · refine .inr ⟨k, ?_⟩
          have : k ≠ i := by rintro rfl; rw [hst] at k2; cases k2
          rw [upd_ne _ _ this]
          exact ⟨k1, k2, k3⟩
      · intro j hj
        by_cases e : j = i
        · subst e; rw [upd_same] at hj; cases hj
        · rw [upd_ne _ _ e] at hj ⊢; exact h.ok j hj
      · intro p hp hl
        refine h.others p (fun j => by have := hp j; rwa [dests] at this) (fun j => ?_)
        by_cases e : j = i
        · subst e; rw [hst]; simp [StoreState.tmp?]
        · have := hl j; rwa [upd_ne _ _ e] at this
      · intro j t hj; exact h.tmpNew j t (tm j t hj).2
    · exact h
  | read i =>
    simp only [FsState.step]
    split
    · rename_i t buf hst
      have ht : (s.calls i).st.tmp? = some t := by rw [hst]; rfl
      obtain ⟨w, hw, hdel⟩ := h.copying i t buf hst
      split
      · exact h
      · rename_i hb
        have hb : buf = [] := by simpa using hb
        subst hb
        simp only [List.append_nil] at hdel
        split
        · rename_i hr
          refine h.advance i t ht _ s.files ⟨rfl, rfl⟩ rfl (fun _ _ => rfl) ?_ ?_
          · intro _ _ e; cases e
          · intro u e; cases e
            refine ⟨w, hw, ?_⟩
            rw [hr] at hdel; simpa [delivered] using hdel
        · rename_i evs hr
          refine h.advance i t ht _ s.files ⟨rfl, rfl⟩ (by simp only [hst]; rfl) (fun _ _ => rfl) ?_ ?_
          · intro u b e
            simp only [hst] at e
            cases e
            refine ⟨w, hw, ?_⟩
            rw [hr] at hdel; simpa [delivered] using hdel
          · intro u e
            simp only [hst] at e
            cases e
        · exact h.abort i t ht
        · rename_i bs evs hr
          split
          · rename_i hbs
            refine h.advance i t ht _ s.files ⟨rfl, rfl⟩ rfl (fun _ _ => rfl) ?_ ?_
            · intro _ _ e; cases e
            · intro u e; cases e
              refine ⟨w, hw, ?_⟩
              rw [hr] at hdel; simpa [delivered, hbs] using hdel
          · rename_i hbs
            refine h.advance i t ht _ s.files ⟨rfl, rfl⟩ rfl (fun _ _ => rfl) ?_ ?_
            · intro u b e; cases e
              refine ⟨w, hw, ?_⟩
              rw [hr] at hdel; simpa [delivered, hbs] using hdel
            · intro u e; cases e
    · exact h
  | write i n =>
    simp only [FsState.step]
    split
    · rename_i t buf hst
      have ht : (s.calls i).st.tmp? = some t := by rw [hst]; rfl
      obtain ⟨w, hw, hdel⟩ := h.copying i t buf hst
      refine h.advance i t ht _ _ ⟨rfl, rfl⟩ rfl (fun p hp => upd_ne _ _ hp) ?_ ?_
      · intro u b e; cases e
        refine ⟨w ++ buf.take n, ?_, ?_⟩
        · rw [upd_same, hw]; rfl
        · rw [List.append_assoc w, List.take_append_drop]; exact hdel
      · intro u e; cases e
    · exact h
  | writeFail i =>
    simp only [FsState.step]
    split
    · rename_i t buf hst
      exact h.abort i t (by rw [hst]; rfl)
    · exact h
  | persist i =>
    simp only [FsState.step]
    split
    · rename_i t hst
      have ht : (s.calls i).st.tmp? = some t := by rw [hst]; rfl
      obtain ⟨w, hw, hdel⟩ := h.copied i t hst
      have hdt := h.apart i t ht i
      have hl : ∀ u, (s.calls i).st.tmp? = some u → u = t := by
        intro u hu; rw [ht] at hu; injection hu with hu; exact hu.symm
      refine h.update i { s.calls i with st := .finished true } _ t ⟨rfl, rfl⟩ ?_ ?_
        (h.apart i t ht) ?_ hl ?_ ?_ ?_ ?_ (h.tmpNew i t ht) ?_ ?_
      · intro e; rw [e] at ht; cases ht
      · intro p hp hp'; rw [upd_ne _ _ hp, upd_ne _ _ hp']
      · intro j hj hjt; exact hj (h.distinct j i t hjt ht)
      · intro e; cases e
      · intro _ _ e; cases e
      · intro _ e; cases e
      · intro _; exact upd_same _ _ _
      · intro _; exact ⟨w, hdel⟩
      · right
        refine ⟨rfl, w, ?_, hdel⟩
        rw [upd_ne _ _ hdt, upd_same]; exact hw
    · exact h
  | persistFail i =>
    simp only [FsState.step]
    split
    · rename_i t hst
      exact h.abort i t (by rw [hst]; rfl)
    · exact h

theorem FsInv.run {s0 : FsState} (h0 : FsInit s0) (acts : List FsAct) (hT : TempsApart s0 acts) :
    FsInv s0 (s0.run acts) := by
  induction acts using List.reverseRecOn with
  | nil => exact FsInv.init h0
  | append_singleton acts a ih =>
    have e : s0.run (acts ++ [a]) = (s0.run acts).step a := by simp [FsState.run]
    rw [e]
    refine (ih (fun i t ht => hT i t (by simp [ht]))).step a ?_
    rintro i t rfl
    exact hT i t (by simp)

/-! ## C56 -/

/-- At every moment of every schedule of any number of concurrent stores (so also after a crash at
any moment), the file at the destination of a store holds either its original content or the
complete content of the source of a store to that file that has returned `Ok`. -/
theorem C56_atomic (s0 : FsState) (h0 : FsInit s0) (acts : List FsAct) (hT : TempsApart s0 acts)
    (j : Nat) :
    (s0.run acts).files (s0.calls j).dest = s0.files (s0.calls j).dest ∨
    ∃ i w, (s0.calls i).dest = (s0.calls j).dest ∧
      ((s0.run acts).calls i).st = .finished true ∧
      delivered (s0.calls i).src = (w, .eof) ∧
      (s0.run acts).files (s0.calls j).dest = some w := by
  have h := FsInv.run h0 acts hT
  rcases h.dest (s0.calls j).dest ⟨j, (h.same j).1⟩ with o | ⟨i, h1, h2, w, h3, h4⟩
  · exact .inl o
  · refine .inr ⟨i, w, ?_, h2, ?_, h3⟩
    · rw [← (h.same i).1]; exact h1
    · rw [← (h.same i).2]; exact h4

/-- If no store to a file has returned `Ok` (all failed, or are still running), the file is
unchanged. -/
theorem C56_failed_stores_change_nothing (s0 : FsState) (h0 : FsInit s0) (acts : List FsAct)
    (hT : TempsApart s0 acts) (p : FileName)
    (hfail : ∀ i, (s0.calls i).dest = p → ((s0.run acts).calls i).st ≠ .finished true)
    (hp : ∃ j, (s0.calls j).dest = p) :
    (s0.run acts).files p = s0.files p := by
  obtain ⟨j, rfl⟩ := hp
  rcases C56_atomic s0 h0 acts hT j with o | ⟨i, w, h1, h2, _⟩
  · exact o
  · exact absurd h2 (hfail i h1)

/-- A store returns `Ok` only if its source ended without error. -/
theorem C56_ok_only_if_complete (s0 : FsState) (h0 : FsInit s0) (acts : List FsAct)
    (hT : TempsApart s0 acts) (i : Nat) (hi : ((s0.run acts).calls i).st = .finished true) :
    ∃ w, delivered (s0.calls i).src = (w, .eof) := by
  have h := FsInv.run h0 acts hT
  obtain ⟨w, hw⟩ := h.ok i hi
  exact ⟨w, by rw [← (h.same i).2]; exact hw⟩

/-- Files that are not destinations are never touched, except for the temporary files of running
stores; these did not exist before, and once every store has returned none of them is left. -/
theorem C56_nothing_else_changes (s0 : FsState) (h0 : FsInit s0) (acts : List FsAct)
    (hT : TempsApart s0 acts) (p : FileName) (hp : ∀ j, (s0.calls j).dest ≠ p) :
    (s0.files p ≠ none → (s0.run acts).files p = s0.files p) ∧
    ((∀ i, ((s0.run acts).calls i).st = .start ∨ ∃ ok, ((s0.run acts).calls i).st = .finished ok) →
      (s0.run acts).files p = s0.files p) := by
  have h := FsInv.run h0 acts hT
  have hp' : ∀ j, ((s0.run acts).calls j).dest ≠ p := fun j => by rw [(h.same j).1]; exact hp j
  constructor
  · intro he
    exact h.others p hp' (fun i hi => he (h.tmpNew i p hi))
  · intro hdone
    refine h.others p hp' (fun i hi => ?_)
    rcases hdone i with e | ⟨ok, e⟩ <;> (rw [e] at hi; cases hi)

/-- The last action decides: right after a successful `persist` the destination has the complete
content of that store's source. -/
theorem C56_persist_installs (s0 : FsState) (h0 : FsInit s0) (acts : List FsAct)
    (hT : TempsApart s0 acts) (i : Nat) (t : FileName)
    (hi : ((s0.run acts).calls i).st = .copied t) :
    ∃ w, delivered (s0.calls i).src = (w, .eof) ∧
      (s0.run (acts ++ [.persist i])).files (s0.calls i).dest = some w := by
  have h := FsInv.run h0 acts hT
  obtain ⟨w, hw, hdel⟩ := h.copied i t hi
  have ht : ((s0.run acts).calls i).st.tmp? = some t := by rw [hi]; rfl
  refine ⟨w, by rw [← (h.same i).2]; exact hdel, ?_⟩
  have e : s0.run (acts ++ [.persist i]) = (s0.run acts).step (.persist i) := by simp [FsState.run]
  rw [e]
  have e2 : (s0.run acts).step (.persist i) = { (s0.run acts).setSt i (.finished true) with
      files := upd (upd (s0.run acts).files ((s0.run acts).calls i).dest ((s0.run acts).files t)) t none } := by
    simp only [FsState.step, hi]
  rw [e2]
  simp only
  rw [← (h.same i).1, upd_ne _ _ (h.apart i t ht i), upd_same]
  exact hw

/-- A concrete run: two stores to the same file and one failing store; the second to persist wins,
reading in between gives the old or a complete new content. -/
def Spec.exFs : FsState where
  files := fun p => if p = ["root.json".toList] then some [9] else none
  calls := fun i =>
    if i = 0 then ⟨["root.json".toList], [.data [1, 2], .pending, .data [3]], [.data [1, 2], .pending, .data [3]], .start⟩
    else if i = 1 then ⟨["root.json".toList], [.data [4]], [.data [4]], .start⟩
    else ⟨["root.json".toList], [.data [5], .err .other], [.data [5], .err .other], .start⟩

/-- The schedule of the example. -/
def Spec.exActs : List FsAct :=
  [.create 0 ["t0".toList], .create 1 ["t1".toList], .create 2 ["t2".toList], .read 0, .write 0 1,
   .read 2, .write 2 5, .write 0 1, .read 1, .write 1 1, .read 1, .read 2, .persist 1, .read 0, .read 0,
   .write 0 1, .read 0]

example : FsInit exFs ∧ TempsApart exFs exActs ∧
    (exFs.run (exActs.take 12)).files ["root.json".toList] = some [9] ∧
    (exFs.run exActs).files ["root.json".toList] = some [4] ∧
    (exFs.run exActs).files ["t2".toList] = none ∧
    (exFs.run (exActs ++ [.persist 0])).files ["root.json".toList] = some [1, 2, 3] := by
  refine ⟨⟨?_, ?_⟩, ?_, by decide +kernel, by decide +kernel, by decide +kernel, by decide +kernel⟩
  · intro i
    simp only [exFs]
    split
    · rfl
    · split <;> rfl
  · intro i
    simp only [exFs]
    split
    · rfl
    · split <;> rfl
  · intro i t h j
    have ht : t = ["t0".toList] ∨ t = ["t1".toList] ∨ t = ["t2".toList] := by
      simp only [exActs, List.mem_cons, List.not_mem_nil, or_false, FsAct.create.injEq, reduceCtorEq] at h
      rcases h with h | h | h
      · exact .inl h.2
      · exact .inr (.inl h.2)
      · exact .inr (.inr h.2)
    have hd : (exFs.calls j).dest = ["root.json".toList] := by
      simp only [exFs]
      split
      · rfl
      · split <;> rfl
    rw [hd]
    rcases ht with rfl | rfl | rfl <;> decide

end RustTuf
