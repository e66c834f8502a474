import Verif.Model.Basic
import Mathlib.Data.List.Perm.Basic
import Mathlib.Data.List.Nodup

/-! Lemmas about association-list maps. -/

namespace RustTuf.Map
variable {K V : Type} [DecidableEq K]

@[simp] theorem get?_nil (k : K) : get? ([] : Map K V) k = none := rfl

theorem get?_cons (p : K × V) (m : Map K V) (k : K) :
    get? (p :: m) k = if p.1 = k then some p.2 else get? m k := rfl

theorem get?_erase (m : Map K V) (k k' : K) :
    get? (erase m k) k' = if k' = k then none else get? m k' := by
  induction m with
  | nil => simp [erase]
  | cons p m ih =>
    unfold erase at ih ⊢
    by_cases h : p.1 = k
    · simp only [List.filter_cons, h, ne_eq, not_true_eq_false, decide_false, Bool.false_eq_true,
        if_false, ih, get?_cons]
      by_cases hk : k' = k
      · simp [hk]
      · have : ¬ k = k' := fun e => hk e.symm
        simp [hk, this]
    · simp only [List.filter_cons, h, ne_eq, not_false_eq_true, decide_true, if_true, get?_cons, ih]
      by_cases hk : p.1 = k'
      · have : ¬ k' = k := fun e => h (hk.trans e)
        simp [hk, this]
      · simp [hk]

theorem get?_insert (m : Map K V) (k k' : K) (v : V) :
    get? (insert m k v) k' = if k' = k then some v else get? m k' := by
  unfold insert
  rw [get?_cons, get?_erase]
  by_cases h : k' = k
  · simp [h]
  · have : ¬ k = k' := fun e => h e.symm
    simp [h, this]

theorem mem_of_get? {m : Map K V} {k : K} {v : V} (h : get? m k = some v) : (k, v) ∈ m := by
  induction m with
  | nil => simp at h
  | cons p m ih =>
    rw [get?_cons] at h
    split at h
    · next e => cases h; cases p; simp at e; simp [e]
    · exact List.mem_cons_of_mem _ (ih h)

theorem get?_of_mem_nodup {m : Map K V} (hn : (keys m).Nodup) {k : K} {v : V}
    (h : (k, v) ∈ m) : get? m k = some v := by
  induction m with
  | nil => cases h
  | cons p m ih =>
    rw [get?_cons]
    simp only [keys, List.map_cons, List.nodup_cons] at hn
    rcases List.mem_cons.1 h with h | h
    · subst h; simp
    · have hne : p.1 ≠ k := by
        intro e
        apply hn.1
        rw [e]
        exact List.mem_map.2 ⟨(k, v), h, rfl⟩
      simp [hne, ih hn.2 h]

theorem get?_eq_none_iff {m : Map K V} {k : K} : get? m k = none ↔ ∀ v, (k, v) ∉ m := by
  induction m with
  | nil => simp
  | cons p m ih =>
    rw [get?_cons]
    by_cases h : p.1 = k
    · simp only [h, if_true]
      constructor
      · intro h; cases h
      · intro hh
        exact absurd (List.mem_cons_self) (by
          have := hh p.2
          rw [← h] at this
          exact this)
    · simp only [h, if_false, ih]
      constructor
      · intro hh v hv
        rcases List.mem_cons.1 hv with e | e
        · exact h (by rw [← e])
        · exact hh v e
      · intro hh v hv
        exact hh v (List.mem_cons_of_mem _ hv)

theorem isSome_get?_iff {m : Map K V} {k : K} : (get? m k).isSome ↔ ∃ v, (k, v) ∈ m := by
  constructor
  · intro h
    obtain ⟨v, hv⟩ := Option.isSome_iff_exists.1 h
    exact ⟨v, mem_of_get? hv⟩
  · rintro ⟨v, hv⟩
    by_contra hn
    have : get? m k = none := by simpa using hn
    exact get?_eq_none_iff.1 this v hv

theorem nodup_keys_erase {m : Map K V} (h : (keys m).Nodup) (k : K) : (keys (erase m k)).Nodup := by
  unfold keys erase at *
  exact h.sublist (List.filter_sublist.map _)

theorem nodup_keys_insert {m : Map K V} (h : (keys m).Nodup) (k : K) (v : V) :
    (keys (insert m k v)).Nodup := by
  have := nodup_keys_erase h k
  unfold insert keys at *
  simp only [List.map_cons, List.nodup_cons]
  refine ⟨?_, this⟩
  intro hm
  obtain ⟨p, hp, e⟩ := List.mem_map.1 hm
  unfold erase at hp
  have := (List.mem_filter.1 hp).2
  simp [e] at this

theorem nodup_keys_foldl (l : List (K × V)) (m : Map K V) (h : (keys m).Nodup) :
    (keys (l.foldl (fun m p => insert m p.1 p.2) m)).Nodup := by
  induction l generalizing m with
  | nil => simpa
  | cons p l ih => exact ih _ (nodup_keys_insert h _ _)

theorem nodup_keys_collect (l : List (K × V)) : (keys (collect l)).Nodup :=
  nodup_keys_foldl l [] (by simp [keys])

theorem get?_foldl_append (l : List (K × V)) (m : Map K V) (k : K) :
    get? (l.foldl (fun m p => insert m p.1 p.2) m) k =
      (get? (l.foldl (fun m p => insert m p.1 p.2) []) k).or (get? m k) := by
  induction l generalizing m with
  | nil => simp
  | cons p l ih =>
    simp only [List.foldl_cons]
    rw [ih (insert m p.1 p.2), ih (insert [] p.1 p.2)]
    rw [get?_insert, get?_insert]
    by_cases h : k = p.1
    · simp [h]
    · simp [h]

theorem get?_collect_cons (p : K × V) (l : List (K × V)) (k : K) :
    get? (collect (p :: l)) k = (get? (collect l) k).or (if k = p.1 then some p.2 else none) := by
  unfold collect
  rw [List.foldl_cons, get?_foldl_append, get?_insert]
  simp

/-- A collected map holds the last entry of each key. -/
theorem get?_collect_eq_some (l : List (K × V)) (k : K) (v : V) :
    get? (collect l) k = some v ↔
      ∃ pre post, l = pre ++ (k, v) :: post ∧ ∀ q ∈ post, q.1 ≠ k := by
  induction l with
  | nil => simp [collect]
  | cons p l ih =>
    rw [get?_collect_cons]
    constructor
    · intro h
      cases hc : get? (collect l) k with
      | some w =>
        rw [hc] at h
        simp at h
        subst h
        obtain ⟨pre, post, e, hp⟩ := ih.1 hc
        exact ⟨p :: pre, post, by simp [e], hp⟩
      | none =>
        rw [hc] at h
        simp at h
        obtain ⟨h1, h2⟩ := h
        refine ⟨[], l, ?_, ?_⟩
        · cases p; simp_all
        · intro q hq e
          have key : ∀ (l : List (K × V)), get? (collect l) k = none → ∀ q ∈ l, q.1 ≠ k := by
            intro l
            induction l with
            | nil => simp
            | cons a l ih2 =>
              intro hn q hq
              rw [get?_collect_cons] at hn
              simp at hn
              rcases List.mem_cons.1 hq with rfl | hq
              · exact fun e => hn.2 e.symm
              · exact ih2 hn.1 q hq
          exact key l hc q hq e
    · rintro ⟨pre, post, e, hp⟩
      cases pre with
      | nil =>
        simp at e
        obtain ⟨rfl, rfl⟩ := e
        have : get? (collect l) k = none := by
          cases hc : get? (collect l) k with
          | none => rfl
          | some w =>
            have hmem : (k, w) ∈ l := by
              have : ∀ (l : List (K × V)) (w), get? (collect l) k = some w → (k, w) ∈ l := by
                intro l
                induction l with
                | nil => simp [collect]
                | cons a l ih2 =>
                  intro w hw
                  rw [get?_collect_cons] at hw
                  cases hc2 : get? (collect l) k with
                  | some z => rw [hc2] at hw; simp at hw; subst hw; exact List.mem_cons_of_mem _ (ih2 _ hc2)
                  | none =>
                    rw [hc2] at hw
                    simp at hw
                    cases a
                    simp at hw
                    simp [hw.1, hw.2]
              exact this l w hc
            exact absurd rfl (hp (k, w) hmem)
        simp [this]
      | cons a pre =>
        simp at e
        obtain ⟨rfl, rfl⟩ := e
        have := ih.2 ⟨pre, post, rfl, hp⟩
        simp [this]

end RustTuf.Map
