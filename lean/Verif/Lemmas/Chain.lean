import Verif.Spec.Lookup

/-! Lemmas about `isChild` and `matchesChain`. -/

namespace RustTuf
open Spec

theorem isChild_iff (a p : VirtualTargetPath) :
    isChild a p = true ↔ (∃ dir, p = dir ++ ['/']) ∧ ∃ rest, a = p ++ rest := by
  unfold isChild
  split
  · rename_i h
    simp only [Bool.false_eq_true, false_iff]
    rintro ⟨⟨dir, rfl⟩, _⟩
    simp at h
  · rename_i h
    simp only [ne_eq, not_not] at h
    rw [List.getLast?_eq_some_iff] at h
    rw [List.isPrefixOf_iff_prefix]
    constructor
    · rintro ⟨rest, h'⟩
      exact ⟨h, rest, h'.symm⟩
    · rintro ⟨_, rest, h'⟩
      exact ⟨rest, h'.symm⟩

theorem under_iff (a p : VirtualTargetPath) : Under a p ↔ a = p ∨ isChild a p = true := by
  rw [isChild_iff]; rfl

theorem Spec.Under.trans {a b c : VirtualTargetPath} (h : Under a b) (h' : Under b c) : Under a c := by
  rcases h with rfl | ⟨_, r, rfl⟩
  · exact h'
  · rcases h' with rfl | ⟨hc, r', rfl⟩
    · exact .inr ⟨by assumption, r, rfl⟩
    · exact .inr ⟨hc, r' ++ r, by simp⟩

theorem mem_keepUnder (g h : List VirtualTargetPath) (q : VirtualTargetPath) :
    q ∈ keepUnder g h ↔ q ∈ h ∧ ∃ p ∈ g, Under q p := by
  unfold keepUnder
  rw [List.mem_filter, List.any_eq_true]
  simp only [Bool.or_eq_true, decide_eq_true_eq, under_iff]
  constructor
  · rintro ⟨h1, p, hp, h2⟩; exact ⟨h1, p, hp, h2.symm⟩
  · rintro ⟨h1, p, hp, h2⟩; exact ⟨h1, p, hp, h2.symm⟩

theorem nested_under_head {p : VirtualTargetPath} {ps : List VirtualTargetPath} (h : Nested p ps)
    {x : VirtualTargetPath} (hx : x ∈ ps) : Under x p := by
  induction ps generalizing p with
  | nil => cases hx
  | cons q qs ih =>
    obtain ⟨h1, h2⟩ := h
    rcases List.mem_cons.1 hx with rfl | hx
    · exact h1
    · exact (ih h2 hx).trans h1

theorem forall₂_mem_map_keep (g : List VirtualTargetPath) (l : List VirtualTargetPath)
    (gs : List (List VirtualTargetPath)) :
    List.Forall₂ (fun q h => q ∈ h) l (gs.map (keepUnder g)) ↔
      List.Forall₂ (fun q h => q ∈ h) l gs ∧ ∀ q ∈ l, ∃ p ∈ g, Under q p := by
  induction gs generalizing l with
  | nil =>
    simp only [List.map_nil, List.forall₂_nil_right_iff]
    constructor
    · rintro rfl; exact ⟨rfl, by simp⟩
    · exact fun h => h.1
  | cons h gs ih =>
    cases l with
    | nil => simp
    | cons q l =>
      simp only [List.map_cons, List.forall₂_cons, ih, mem_keepUnder, List.mem_cons,
        forall_eq_or_imp]
      tauto

theorem matchesChainN_iff (path : VirtualTargetPath) (gs : List (List VirtualTargetPath)) :
    matchesChainN path gs.length gs = true ↔ Covered path gs := by
  generalize hn : gs.length = n
  induction n generalizing gs with
  | zero =>
    have : gs = [] := by simpa using hn
    subst this
    simp only [matchesChainN, Bool.false_eq_true, false_iff]
    rintro ⟨p, ps, h, _⟩
    cases h
  | succ n ih =>
    match gs, hn with
    | [g], _ =>
      simp only [matchesChainN, List.any_eq_true, Bool.or_eq_true, decide_eq_true_eq]
      constructor
      · rintro ⟨p, hp, h⟩
        refine ⟨p, [], .cons hp .nil, trivial, ?_⟩
        rcases h with h | h
        · exact .inl h.symm
        · exact (under_iff _ _).2 (.inr h)
      · rintro ⟨p, ps, h, _, hu⟩
        cases h with
        | cons hp hps =>
          cases hps
          refine ⟨p, hp, ?_⟩
          rcases (under_iff _ _).1 hu with h | h
          · exact .inl h.symm
          · exact .inr h
    | g :: g' :: gs, hn =>
      have hlen : ((g' :: gs).map (keepUnder g)).length = n := by
        simp at hn ⊢; omega
      have e : matchesChainN path (n + 1) (g :: g' :: gs) =
          matchesChainN path n ((g' :: gs).map (keepUnder g)) := rfl
      rw [e, ih _ hlen]
      constructor
      · rintro ⟨p, ps, h1, h2, h3⟩
        obtain ⟨h4, h5⟩ := (forall₂_mem_map_keep g _ _).1 h1
        obtain ⟨p0, hp0, hu⟩ := h5 p (by simp)
        exact ⟨p0, p :: ps, .cons hp0 h4, ⟨hu, h2⟩, h3⟩
      · rintro ⟨p0, ps, h1, h2, h3⟩
        cases h1 with
        | cons hp0 hps =>
          cases ps with
          | nil => cases hps
          | cons p ps =>
            refine ⟨p, ps, (forall₂_mem_map_keep g _ _).2 ⟨hps, ?_⟩, h2.2, h3⟩
            intro q hq
            exact ⟨p0, hp0, nested_under_head h2 hq⟩

theorem matchesChain_iff (path : VirtualTargetPath) (gs : List (List VirtualTargetPath)) :
    matchesChain path gs = true ↔ Covered path gs := matchesChainN_iff path gs

end RustTuf
