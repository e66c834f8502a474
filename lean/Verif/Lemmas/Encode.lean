import Verif.Props.Shims
import Verif.Model.Encode
import Verif.Spec.RoundTrip
import Mathlib.Data.List.Forall2

/-!
# Lemmas: decoding what was encoded
-/

namespace RustTuf
open Spec Props

theorem mapAll_map {α β γ : Type} {f : β → Option γ} {g : α → β} {h : α → γ} :
    ∀ (l : List α), (∀ a ∈ l, f (g a) = some (h a)) → mapAll f (l.map g) = some (l.map h)
  | [], _ => rfl
  | a :: l, hl => by
    simp only [List.map_cons, mapAll]
    rw [hl a (by simp), mapAll_map l fun a ha => hl a (by simp [ha])]

theorem mapAll_eq {α β : Type} {f : α → Option β} {h : α → β} (l : List α)
    (hl : ∀ a ∈ l, f a = some (h a)) : mapAll f l = some (l.map h) := by
  have := mapAll_map (f := f) (g := id) (h := h) l hl
  simpa using this

theorem mapAll_mem {α β : Type} {f : α → Option β} : ∀ {l : List α} {r : List β},
    mapAll f l = some r → ∀ a ∈ l, ∃ b, f a = some b
  | [], _, _, a, ha => by cases ha
  | a :: l, r, h, x, hx => by
    unfold mapAll at h
    split at h
    · cases h
    · split at h
      · cases h
      · rename_i b hb _ _ hl
        rcases List.mem_cons.1 hx with rfl | hx
        · exact ⟨b, hb⟩
        · exact mapAll_mem hl x hx

theorem perm_of_map {α β : Type} {f : α → β} {l₁ : List β} {l₂ : List β} (h : l₁.Perm l₂) :
    ∀ {l : List α}, l₂ = l.map f → ∃ l' : List α, l'.Perm l ∧ l₁ = l'.map f := by
  intro l e
  have h' : l₂.Perm l₁ := h.symm
  clear h
  induction h' generalizing l with
  | nil => exact ⟨l, .refl _, e⟩
  | cons x _ ih =>
    cases l with
    | nil => cases e
    | cons a l =>
      simp only [List.map_cons, List.cons.injEq] at e
      obtain ⟨l', hp, e'⟩ := ih e.2
      exact ⟨a :: l', hp.cons a, by simp [e.1, e']⟩
  | swap x y t =>
    match l, e with
    | a :: b :: l, e =>
      simp only [List.map_cons, List.cons.injEq] at e
      exact ⟨b :: a :: l, .swap .., by simp [e.1, e.2.1, e.2.2]⟩
  | trans _ _ ih1 ih2 =>
    obtain ⟨l', hp, e'⟩ := ih1 e
    obtain ⟨l'', hp', e''⟩ := ih2 e'
    exact ⟨l'', hp'.trans hp, e''⟩

namespace Map
variable {K V W : Type} [DecidableEq K]

theorem get?_map (m : Map K V) (g : V → W) (k : K) :
    get? (m.map fun p => (p.1, g p.2)) k = (get? m k).map g := by
  induction m with
  | nil => rfl
  | cons p m ih =>
    obtain ⟨k', v⟩ := p
    simp only [List.map_cons, get?_cons]
    by_cases h : k' = k
    · simp [h]
    · simp [h, ih]

theorem get?_perm {m m' : Map K V} (h : m.Perm m') (hn : (m.map Prod.fst).Nodup) (k : K) :
    get? m k = get? m' k := by
  have hn' : (m'.map Prod.fst).Nodup := (h.map Prod.fst).nodup_iff.1 hn
  cases h1 : get? m k with
  | some v => exact (get?_of_mem_nodup hn' (h.mem_iff.1 (mem_of_get? h1))).symm
  | none =>
    rw [get?_eq_none_iff] at h1
    exact (get?_eq_none_iff.2 fun v hv => h1 v (h.mem_iff.2 hv)).symm

theorem get?_collect_nodup {l : List (K × V)} (hn : (l.map Prod.fst).Nodup) (k : K) :
    get? (collect l) k = get? l k := by
  cases h1 : get? (collect l) k with
  | some v => exact (get?_of_mem_nodup hn (mem_collect (mem_of_get? h1))).symm
  | none =>
    cases h2 : get? l k with
    | none => rfl
    | some v =>
      exfalso
      obtain ⟨s, t, e⟩ := List.append_of_mem (mem_of_get? h2)
      have : get? (collect l) k = some v := by
        rw [get?_collect_eq_some]
        subst e
        refine ⟨s, t, rfl, ?_⟩
        intro p hp e
        rw [List.map_append, List.nodup_append] at hn
        have := hn.2.1
        simp only [List.map_cons, List.nodup_cons] at this
        exact this.1 (List.mem_map.2 ⟨p, hp, e⟩)
      rw [this] at h1
      cases h1

end Map

theorem sameMap_of_get? {K V : Type} [DecidableEq K] {R : V → V → Prop} {a b : Map K V}
    (g : V → V) (h : ∀ k, b.get? k = (a.get? k).map g) (hr : ∀ p ∈ a, R p.2 (g p.2)) :
    SameMap R a b :=
  ⟨fun k v e => ⟨g v, by rw [h, e]; rfl, hr _ (Map.mem_of_get? e)⟩, fun k e => by rw [h, e]; rfl⟩

theorem SameMap.collect {K V : Type} [DecidableEq K] {R : V → V → Prop} {a b : Map K V}
    (h : SameMap R a b) (hn : (b.map Prod.fst).Nodup) : SameMap R a (Map.collect b) :=
  ⟨fun k v e => by rw [Map.get?_collect_nodup hn]; exact h.there k v e,
    fun k e => by rw [Map.get?_collect_nodup hn]; exact h.none k e⟩

/-! ### Structs -/

open Json in
/-- The members of an object after `to_value`. -/
def members (m : List (Str × Json)) : Map Str Json := btreeCollect (normalM m)

open Json in
theorem get?_members {m : List (Str × Json)} (hn : (m.map Prod.fst).Nodup) (k : Str) :
    Map.get? (members m) k = (Map.get? m k).map normal := by
  unfold members
  have hn' : ((normalM m).map Prod.fst).Nodup := by
    rw [normalM_eq, List.map_map]; exact hn
  rw [Map.get?_perm (perm_btreeCollect _ hn') (Ascending.nodup (ascending_btreeCollect _)),
    normalM_eq, Map.get?_map]

theorem asStruct_normal (names : List Str) (m : List (Str × Json)) :
    asStruct names (Json.obj m).normal = some (members m) := by
  rw [Json.normal, asStruct, if_pos]
  · rfl
  · exact (Ascending.nodup (ascending_btreeCollect _)).sublist List.filter_sublist

theorem field_members {α : Type} {m : List (Str × Json)} {n : Str} {f : Json → Option α} {j : Json}
    (hn : (m.map Prod.fst).Nodup) (hg : Map.get? m n = some j) :
    field (members m) n f = f j.normal := by
  unfold field
  rw [get?_members hn, hg]
  rfl

theorem fieldOpt_members {α : Type} {m : List (Str × Json)} {n : Str} {f : Json → Option α}
    {j : Json} (hn : (m.map Prod.fst).Nodup) (hg : Map.get? m n = some j) :
    fieldOpt (members m) n f = asOption f j.normal := by
  unfold fieldOpt
  rw [get?_members hn, hg]
  rfl

theorem fieldOpt_absent {α : Type} {m : List (Str × Json)} {n : Str} {f : Json → Option α}
    (hn : (m.map Prod.fst).Nodup) (hg : Map.get? m n = none) :
    fieldOpt (members m) n f = some none := by
  unfold fieldOpt
  rw [get?_members hn, hg]
  rfl

theorem normal_strs (l : List Str) : (Json.arr (l.map Json.str)).normal = .arr (l.map Json.str) := by
  rw [Json.normal, normalL_eq, List.map_map]
  rfl

theorem asVec_strs {α : Type} {f : Json → Option α} {g : Str → α} (l : List Str)
    (h : ∀ s ∈ l, f (.str s) = some (g s)) :
    asVec f (Json.arr (l.map Json.str)).normal = some (l.map g) := by
  rw [normal_strs, asVec, mapAll_map l h]

theorem asU32_nat {n : Nat} (h : n < 2 ^ 32) : asU32 (natJson n) = some n := by
  simp only [natJson, asU32]
  rw [if_pos (by omega)]
  rfl

theorem asU64_nat {n : Nat} (h : n < 2 ^ 64) : asU64 (natJson n) = some n := by
  simp only [natJson, asU64]
  rw [if_pos (by omega)]
  rfl

/-! ### Maps -/

theorem asEntries_normal {K V : Type} [DecidableEq K] {ek : K → Option Str} {ev : V → Option Json}
    {dk : Str → Option K} {dv : Json → Option V} {R : V → V → Prop} {m : Map K V}
    (hn : (m.map Prod.fst).Nodup)
    (hk : ∀ p ∈ m, ∃ s, ek p.1 = some s ∧ dk s = some p.1)
    (hv : ∀ p ∈ m, ∃ j v', ev p.2 = some j ∧ dv j.normal = some v' ∧ R p.2 v') :
    ∃ j r, encodeEntries ek ev m = some j ∧ asEntries dk dv j.normal = some r ∧
      (r.map Prod.fst).Nodup ∧ SameMap R m r ∧ (∀ p ∈ r, ∃ q ∈ m, q.1 = p.1) ∧ j.normal ≠ .null ∧
      (m ≠ [] → r ≠ []) := by
  classical
  let f : K × V → Str × Json := fun p => ((ek p.1).getD [], (ev p.2).getD .null)
  let g : V → V := fun v => (dv ((ev v).getD .null).normal).getD v
  have he : encodeEntries ek ev m = some (.obj (m.map f)) := by
    unfold encodeEntries
    rw [mapAll_eq (h := f) m]
    · rfl
    · intro p hp
      obtain ⟨s, h1, _⟩ := hk p hp
      obtain ⟨j, v', h2, _⟩ := hv p hp
      simp only [f, h1, h2, Option.getD_some]
  have hnf : ((m.map f).map Prod.fst).Nodup := by
    rw [List.map_map]
    have : m.map (Prod.fst ∘ f) = (m.map Prod.fst).map fun k => (ek k).getD [] := by
      rw [List.map_map]; rfl
    rw [this]
    refine List.Nodup.map_on ?_ hn
    intro x hx y hy e
    obtain ⟨p, hp, rfl⟩ := List.mem_map.1 hx
    obtain ⟨q, hq, rfl⟩ := List.mem_map.1 hy
    obtain ⟨s, h1, h1'⟩ := hk p hp
    obtain ⟨t, h2, h2'⟩ := hk q hq
    rw [h1, h2] at e
    simp only [Option.getD_some] at e
    rw [e, h2'] at h1'
    exact (Option.some.inj h1').symm
  have hnn : ((Json.normalM (m.map f)).map Prod.fst).Nodup := by
    rw [normalM_eq, List.map_map]; exact hnf
  obtain ⟨m', hp, e⟩ := perm_of_map (f := fun p => ((f p).1, (f p).2.normal)) (l := m)
    (perm_btreeCollect _ hnn) (by rw [normalM_eq, List.map_map]; rfl)
  have hn' : (m'.map Prod.fst).Nodup := (hp.map Prod.fst).nodup_iff.2 hn
  refine ⟨_, m'.map fun p => (p.1, g p.2), he, ?_, ?_, ?_, ?_, ?_, ?_⟩
  · rw [Json.normal, asEntries, e]
    refine mapAll_map _ ?_
    intro p hp'
    have hp' := hp.mem_iff.1 hp'
    obtain ⟨s, h1, h1'⟩ := hk p hp'
    obtain ⟨j, v', h2, h2', _⟩ := hv p hp'
    simp only [f, g, h1, h2, Option.getD_some, h1', h2']
  · rw [List.map_map]; exact hn'
  · refine sameMap_of_get? g (fun k => ?_) fun p hp' => ?_
    · rw [Map.get?_map, Map.get?_perm hp hn']
    · obtain ⟨j, v', h2, h2', h3⟩ := hv p hp'
      simp only [g, h2, Option.getD_some, h2']
      exact h3
  · intro p hp'
    obtain ⟨q, hq, rfl⟩ := List.mem_map.1 hp'
    exact ⟨q, hp.mem_iff.1 hq, rfl⟩
  · rw [Json.normal]; exact fun h => by cases h
  · intro hm hr
    rw [List.map_eq_nil_iff] at hr
    subst hr
    exact hm (hp.nil_eq).symm

/-! ### Sorting -/

theorem strInsert_perm (s : Str) (l : List Str) : (strInsert s l).Perm (s :: l) := by
  induction l with
  | nil => exact .refl _
  | cons t l ih =>
    unfold strInsert
    split
    · exact (ih.cons t).trans (.swap ..)
    · exact .refl _

theorem strSort_perm (l : List Str) : (strSort l).Perm l := by
  induction l with
  | nil => exact .refl _
  | cons s l ih => exact (strInsert_perm s _).trans (ih.cons s)

theorem sameSet_strSort {l : List Str} (h : l.Nodup) : SameSet l (strSort l) :=
  ⟨(strSort_perm l).nodup_iff.2 h, (strSort_perm l).length_eq.symm,
    fun _ => ((strSort_perm l).mem_iff).symm⟩

/-! ### Hexadecimal -/

theorem hexLowerVal_digit (n : Nat) (h : n < 16) : hexLowerVal (hexDigit n) = some n := by
  have : ∀ n : Fin 16, hexLowerVal (hexDigit n) = some n.1 := by decide
  exact this ⟨n, h⟩

theorem hexLowerDecode_hexLower (b : Bytes) : hexLowerDecode (hexLower b) = some b := by
  induction b with
  | nil => rfl
  | cons x b ih =>
    have e : hexLower (x :: b) =
        hexDigit (x.toNat / 16) :: hexDigit (x.toNat % 16) :: hexLower b := by simp [hexLower]
    have hx : x.toNat < 256 := UInt8.toNat_lt x
    rw [e, hexLowerDecode, hexLowerVal_digit _ (by omega), hexLowerVal_digit _ (by omega), ih]
    have : x.toNat / 16 * 16 + x.toNat % 16 = x.toNat := by omega
    simp only [this, UInt8.ofNat_toNat]

end RustTuf
