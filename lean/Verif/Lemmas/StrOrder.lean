import Verif.Model.StrOrder
import Verif.Lemmas.Map

namespace RustTuf

theorem strLt_irrefl : ∀ a : Str, strLt a a = false
  | [] => rfl
  | a :: as => by simp [strLt, strLt_irrefl as]

theorem strLt_trans : ∀ a b c : Str, strLt a b = true → strLt b c = true → strLt a c = true
  | _, _, [], _, h2 => by simp [strLt] at h2
  | _, [], _ :: _, h1, _ => by simp [strLt] at h1
  | [], _ :: _, _ :: _, _, _ => by simp [strLt]
  | a :: as, b :: bs, c :: cs, h1, h2 => by
    simp only [strLt, Bool.or_eq_true, decide_eq_true_eq, Bool.and_eq_true] at *
    rcases h1 with h1 | ⟨rfl, h1⟩
    · rcases h2 with h2 | ⟨rfl, h2⟩
      · exact Or.inl (Char.lt_trans h1 h2)
      · exact Or.inl h1
    · rcases h2 with h2 | ⟨rfl, h2⟩
      · exact Or.inl h2
      · exact Or.inr ⟨rfl, strLt_trans as bs cs h1 h2⟩

theorem strLt_total : ∀ a b : Str, strLt a b = true ∨ a = b ∨ strLt b a = true
  | [], [] => Or.inr (Or.inl rfl)
  | [], _ :: _ => Or.inl rfl
  | _ :: _, [] => Or.inr (Or.inr rfl)
  | a :: as, b :: bs => by
    simp only [strLt, Bool.or_eq_true, decide_eq_true_eq, Bool.and_eq_true, List.cons.injEq]
    by_cases h1 : a < b
    · exact Or.inl (Or.inl h1)
    by_cases h2 : b < a
    · exact Or.inr (Or.inr (Or.inl h2))
    have : a = b := Char.le_antisymm (Char.not_lt.1 h2) (Char.not_lt.1 h1)
    subst this
    rcases strLt_total as bs with h | h | h
    · exact Or.inl (Or.inr ⟨rfl, h⟩)
    · exact Or.inr (Or.inl ⟨rfl, h⟩)
    · exact Or.inr (Or.inr (Or.inr ⟨rfl, h⟩))

theorem strLt_ne {a b : Str} (h : strLt a b = true) : a ≠ b := by
  rintro rfl
  rw [strLt_irrefl] at h
  cases h

theorem strLt_asymm {a b : Str} (h : strLt a b = true) : strLt b a = false := by
  cases hb : strLt b a with
  | false => rfl
  | true =>
    have := strLt_trans a b a h hb
    rw [strLt_irrefl] at this
    cases this

/-- The entries are in strictly ascending order of their keys. -/
def Ascending {V : Type} (m : List (Str × V)) : Prop :=
  m.Pairwise fun p q => strLt p.1 q.1 = true

variable {V : Type}

theorem mem_btreeInsert {k : Str} {v : V} {m : List (Str × V)} {q : Str × V}
    (h : q ∈ btreeInsert k v m) : q = (k, v) ∨ q ∈ m := by
  induction m with
  | nil => simpa [btreeInsert] using h
  | cons p m ih =>
    unfold btreeInsert at h
    split at h
    · simpa using h
    · split at h
      · rcases List.mem_cons.1 h with h | h
        · exact Or.inl h
        · exact Or.inr (List.mem_cons_of_mem _ h)
      · rcases List.mem_cons.1 h with h | h
        · exact Or.inr (h ▸ List.mem_cons_self ..)
        · rcases ih h with h | h
          · exact Or.inl h
          · exact Or.inr (List.mem_cons_of_mem _ h)

theorem ascending_btreeInsert {k : Str} {v : V} {m : List (Str × V)} (h : Ascending m) :
    Ascending (btreeInsert k v m) := by
  induction m with
  | nil => simp [btreeInsert, Ascending]
  | cons p m ih =>
    obtain ⟨h1, h2⟩ := List.pairwise_cons.1 h
    unfold btreeInsert
    split
    · rename_i hlt
      refine List.pairwise_cons.2 ⟨?_, h⟩
      intro q hq
      rcases List.mem_cons.1 hq with rfl | hq
      · exact hlt
      · exact strLt_trans _ _ _ hlt (h1 q hq)
    · rename_i hlt
      split
      · rename_i heq
        refine List.pairwise_cons.2 ⟨?_, h2⟩
        intro q hq
        rw [heq]
        exact h1 q hq
      · rename_i hne
        refine List.pairwise_cons.2 ⟨?_, ih h2⟩
        intro q hq
        rcases mem_btreeInsert hq with rfl | hq
        · rcases strLt_total k p.1 with hl | hl | hl
          · exact absurd hl hlt
          · exact absurd hl hne
          · exact hl
        · exact h1 q hq

theorem ascending_foldl (l : List (Str × V)) (m : List (Str × V)) (h : Ascending m) :
    Ascending (l.foldl (fun m p => btreeInsert p.1 p.2 m) m) := by
  induction l generalizing m with
  | nil => exact h
  | cons p l ih => exact ih _ (ascending_btreeInsert h)

theorem ascending_btreeCollect (l : List (Str × V)) : Ascending (btreeCollect l) :=
  ascending_foldl l [] List.Pairwise.nil

theorem get?_btreeInsert (k : Str) (v : V) (m : List (Str × V)) (h : Ascending m) (q : Str) :
    Map.get? (btreeInsert k v m) q = if q = k then some v else Map.get? m q := by
  induction m with
  | nil => simp [btreeInsert, Map.get?, eq_comm]
  | cons p m ih =>
    obtain ⟨h1, h2⟩ := List.pairwise_cons.1 h
    unfold btreeInsert
    split
    · simp [Map.get?, eq_comm]
    · split
      · rename_i heq
        by_cases hq : q = k
        · simp [Map.get?, hq]
        · have : ¬ k = q := fun e => hq e.symm
          have h' : ¬ p.1 = q := heq ▸ this
          obtain ⟨pk, pv⟩ := p
          simp only [Map.get?, if_neg this, if_neg hq]
          rw [if_neg h']
      · rename_i hne
        obtain ⟨pk, pv⟩ := p
        simp only [Map.get?]
        by_cases hp : pk = q
        · have : ¬ q = k := fun e => hne (e.symm.trans hp.symm)
          simp [hp, this]
        · simp only [if_neg hp]
          exact ih h2

/-- Two ascending lists with the same entries are the same list. -/
theorem ascending_ext {m m' : List (Str × V)} (h : Ascending m) (h' : Ascending m')
    (he : ∀ q, Map.get? m q = Map.get? m' q) : m = m' := by
  induction m generalizing m' with
  | nil =>
    cases m' with
    | nil => rfl
    | cons p m' =>
      obtain ⟨k, v⟩ := p
      have := he k
      simp [Map.get?] at this
  | cons p m ih =>
    obtain ⟨k, v⟩ := p
    obtain ⟨h1, h2⟩ := List.pairwise_cons.1 h
    cases m' with
    | nil =>
      have := he k
      simp [Map.get?] at this
    | cons p' m' =>
      obtain ⟨k', v'⟩ := p'
      obtain ⟨h1', h2'⟩ := List.pairwise_cons.1 h'
      have hk : k = k' := by
        rcases strLt_total k k' with hl | hl | hl
        · exfalso
          have := he k
          simp only [Map.get?, if_true] at this
          rw [if_neg (fun e => strLt_ne hl e.symm)] at this
          have := strLt_asymm (h1' _ (Map.mem_of_get? this.symm))
          rw [hl] at this
          cases this
        · exact hl
        · exfalso
          have := he k'
          simp only [Map.get?, if_true] at this
          rw [if_neg (fun e => strLt_ne hl e.symm)] at this
          have := strLt_asymm (h1 _ (Map.mem_of_get? this))
          rw [hl] at this
          cases this
      subst hk
      have hv := he k
      simp only [Map.get?, if_true, Option.some.injEq] at hv
      subst hv
      refine congrArg _ (ih h2 h2' ?_)
      intro q
      by_cases hq : k = q
      · subst hq
        have e1 : Map.get? m k = none := Map.get?_eq_none_iff.2 fun w hm => strLt_ne (h1 _ hm) rfl
        have e2 : Map.get? m' k = none := Map.get?_eq_none_iff.2 fun w hm => strLt_ne (h1' _ hm) rfl
        rw [e1, e2]
      · have := he q
        simpa only [Map.get?, if_neg hq] using this

theorem btreeInsert_last {k : Str} {v : V} {m : List (Str × V)}
    (h : ∀ p ∈ m, strLt p.1 k = true) : btreeInsert k v m = m ++ [(k, v)] := by
  induction m with
  | nil => rfl
  | cons p m ih =>
    have hp := h p (List.mem_cons_self ..)
    unfold btreeInsert
    rw [if_neg (by rw [strLt_asymm hp]; exact Bool.false_ne_true), if_neg (fun e => strLt_ne hp e.symm),
      ih fun q hq => h q (List.mem_cons_of_mem _ hq)]
    rfl

theorem foldl_btreeInsert_ascending (l m : List (Str × V)) (h : Ascending (m ++ l)) :
    l.foldl (fun m p => btreeInsert p.1 p.2 m) m = m ++ l := by
  induction l generalizing m with
  | nil => simp
  | cons p l ih =>
    have h' : ∀ q ∈ m, strLt q.1 p.1 = true := fun q hq =>
      (List.pairwise_append.1 h).2.2 q hq p (List.mem_cons_self ..)
    simp only [List.foldl_cons]
    rw [btreeInsert_last h', ih (m ++ [(p.1, p.2)]) (by simpa using h)]
    simp

/-- Inserting entries that are in order already gives just these entries. -/
theorem btreeCollect_ascending {m : List (Str × V)} (h : Ascending m) : btreeCollect m = m := by
  simpa [btreeCollect] using foldl_btreeInsert_ascending m [] (by simpa using h)

theorem Ascending.nodup {m : List (Str × V)} (h : Ascending m) : (Map.keys m).Nodup := by
  unfold Map.keys
  rw [List.nodup_iff_pairwise_ne, List.pairwise_map]
  exact h.imp fun hlt => strLt_ne hlt

theorem get?_foldl_btree (l m : List (Str × V)) (hm : Ascending m) (q : Str) :
    Map.get? (l.foldl (fun m p => btreeInsert p.1 p.2 m) m) q =
      (Map.get? l.reverse q).or (Map.get? m q) := by
  induction l generalizing m with
  | nil => simp
  | cons p l ih =>
    simp only [List.foldl_cons]
    rw [ih _ (ascending_btreeInsert hm), get?_btreeInsert _ _ _ hm]
    obtain ⟨k, v⟩ := p
    have happ : ∀ (a b : List (Str × V)), Map.get? (a ++ b) q = (Map.get? a q).or (Map.get? b q) := by
      intro a b
      induction a with
      | nil => simp
      | cons x a iha =>
        obtain ⟨xk, xv⟩ := x
        simp only [List.cons_append, Map.get?, iha]
        split <;> simp
    rw [List.reverse_cons, happ, Option.or_assoc]
    congr 1
    simp only [Map.get?]
    by_cases hq : q = k
    · simp [hq]
    · have : ¬ k = q := fun e => hq e.symm
      simp [hq, this]

theorem get?_btreeCollect (l : List (Str × V)) (q : Str) :
    Map.get? (btreeCollect l) q = Map.get? l.reverse q := by
  rw [btreeCollect, get?_foldl_btree l [] List.Pairwise.nil]
  simp

/-- Distinct keys: the order of insertion does not matter. -/
theorem btreeCollect_perm {l l' : List (Str × V)} (hp : l.Perm l') (hn : (Map.keys l).Nodup) :
    btreeCollect l = btreeCollect l' := by
  refine ascending_ext (ascending_btreeCollect l) (ascending_btreeCollect l') fun q => ?_
  rw [get?_btreeCollect, get?_btreeCollect]
  have hn' : (Map.keys l').Nodup := (hp.map Prod.fst).nodup_iff.1 hn
  have nodr : ∀ x : List (Str × V), (Map.keys x).Nodup → (Map.keys x.reverse).Nodup := by
    intro x hx
    rw [Map.keys, List.map_reverse]
    exact List.nodup_reverse.2 hx
  cases h : Map.get? l.reverse q with
  | some v =>
    have hm := Map.mem_of_get? h
    have : (q, v) ∈ l'.reverse := List.mem_reverse.2 (hp.mem_iff.1 (List.mem_reverse.1 hm))
    exact (Map.get?_of_mem_nodup (nodr _ hn') this).symm
  | none =>
    rw [Map.get?_eq_none_iff] at h
    refine (Map.get?_eq_none_iff.2 fun v hv => ?_).symm
    exact h v (List.mem_reverse.2 (hp.mem_iff.2 (List.mem_reverse.1 hv)))

/-- The order of strings is the lexicographic one of their characters. -/
theorem strLt_iff : ∀ a b : Str, strLt a b = true ↔ a < b
  | [], [] => by simp [strLt]
  | [], _ :: _ => by simp [strLt]
  | _ :: _, [] => by simp [strLt]
  | a :: as, b :: bs => by
    rw [List.cons_lt_cons_iff, ← strLt_iff as bs]
    simp [strLt]

end RustTuf
