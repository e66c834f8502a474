import Verif.Lemmas.Cjson
import Verif.Spec.Calendar

/-!
# Lemmas on dates
-/

namespace RustTuf.Formats
open Spec

/-! ### Days and years -/

/-- The length of a year. -/
def yearLength (y : Int) : Nat := if isLeap y then 366 else 365

theorem sum_monthLengths (y : Int) : (monthLengths y).sum = yearLength y := by
  unfold monthLengths yearLength
  cases isLeap y <;> rfl

theorem lt_yearLength {y : Int} {d : Nat} (h : d ≤ 365)
    (h' : d = 365 → y % 4 = 0 ∧ (y % 100 ≠ 0 ∨ y % 400 = 0)) : d < yearLength y := by
  unfold yearLength isLeap
  split
  · omega
  · rename_i hl
    rw [decide_eq_true_eq] at hl
    have : d ≠ 365 := fun e => hl (h' e)
    omega

theorem yearDay_spec (n : Int) :
    daysBefore (yearDay n).1 + (yearDay n).2 = n ∧ (yearDay n).2 < yearLength (yearDay n).1 := by
  obtain ⟨r, hr⟩ : ∃ r, (n % 146097).toNat = r := ⟨_, rfl⟩
  obtain ⟨c, hc⟩ : ∃ c, min (r / 36524) 3 = c := ⟨_, rfl⟩
  obtain ⟨r', hr'⟩ : ∃ x, r - 36524 * c = x := ⟨_, rfl⟩
  obtain ⟨f, hf⟩ : ∃ x, r' / 1461 = x := ⟨_, rfl⟩
  obtain ⟨r'', hr''⟩ : ∃ x, r' - 1461 * f = x := ⟨_, rfl⟩
  obtain ⟨y, hy⟩ : ∃ x, min (r'' / 365) 3 = x := ⟨_, rfl⟩
  obtain ⟨q, hq⟩ : ∃ x, n / 146097 = x := ⟨_, rfl⟩
  have e : yearDay n = (400 * q + 100 * c + 4 * f + y + 1, r'' - 365 * y) := by
    simp only [yearDay, hr, hc, hr', hf, hr'', hy, hq]
  rw [e]
  have hn : n = 146097 * q + r := by omega
  have hr2 : r < 146097 := by omega
  have c3 : c ≤ 3 := by omega
  have h1 : r' ≤ 36524 := by omega
  have h1' : c ≠ 3 → r' < 36524 := by omega
  have f24 : f ≤ 24 := by omega
  have h2 : r'' < 1461 := by omega
  have h2' : f = 24 → c ≠ 3 → r'' < 1460 := by omega
  have y3 : y ≤ 3 := by omega
  have h3 : r'' - 365 * y ≤ 365 := by omega
  have h3' : y ≠ 3 → r'' - 365 * y < 365 := by omega
  have h4 : 365 * y ≤ r'' := by omega
  refine ⟨?_, lt_yearLength h3 ?_⟩
  · simp only [daysBefore]
    have e1 : (400 * q + 100 * (c : Int) + 4 * (f : Int) + (y : Int) + 1 - 1) / 4 = 100 * q + 25 * c + f := by
      omega
    have e2 : (400 * q + 100 * (c : Int) + 4 * (f : Int) + (y : Int) + 1 - 1) / 100 = 4 * q + c := by
      omega
    have e3 : (400 * q + 100 * (c : Int) + 4 * (f : Int) + (y : Int) + 1 - 1) / 400 = q := by
      omega
    rw [e1, e2, e3]
    omega
  · simp only
    intro h5
    have hy3 : y = 3 := Decidable.byContradiction fun h => by have := h3' h; omega
    by_cases hf24 : f = 24
    · by_cases hc3 : c = 3
      · omega
      · have := h2' hf24 hc3
        omega
    · omega

theorem daysBefore_succ (y : Int) : daysBefore (y + 1) = daysBefore y + yearLength y := by
  simp only [daysBefore, yearLength, isLeap, decide_eq_true_eq]
  split <;> push_cast <;> omega

theorem daysBefore_mono {a b : Int} (h : a ≤ b) : daysBefore a ≤ daysBefore b := by
  simp only [daysBefore]
  omega

theorem yearDay_eq {n y : Int} {d : Nat} (h : daysBefore y + d = n) (hd : d < yearLength y) :
    yearDay n = (y, d) := by
  obtain ⟨h1, h2⟩ := yearDay_spec n
  generalize hy : yearDay n = p at *
  obtain ⟨y', d'⟩ := p
  simp only at h1 h2
  have a := daysBefore_succ y
  have b := daysBefore_succ y'
  have : y = y' := by
    rcases Int.lt_trichotomy y y' with h3 | h3 | h3
    · have := daysBefore_mono (show y + 1 ≤ y' by omega)
      omega
    · exact h3
    · have := daysBefore_mono (show y' + 1 ≤ y by omega)
      omega
  subst this
  have : d' = d := by omega
  rw [this]

/-! ### Months -/

theorem monthDay_spec (ls : List Nat) (m d : Nat) (h : d < ls.sum) :
    ∃ i l, (monthDay ls m d).1 = m + i ∧ ls[i]? = some l ∧ 1 ≤ (monthDay ls m d).2 ∧
      (monthDay ls m d).2 ≤ l ∧ (ls.take i).sum + ((monthDay ls m d).2 - 1) = d := by
  induction ls generalizing m d with
  | nil => simp at h
  | cons l ls ih =>
    unfold monthDay
    split
    · exact ⟨0, l, by simp, by simp, by simp, by simp; omega, by simp⟩
    · rw [List.sum_cons] at h
      obtain ⟨i, l', h1, h2, h3, h4, h5⟩ := ih (m + 1) (d - l) (by omega)
      refine ⟨i + 1, l', by rw [h1]; omega, by simpa using h2, h3, h4, ?_⟩
      rw [List.take_succ_cons, List.sum_cons]
      omega

theorem monthDay_succ (ls : List Nat) (m d : Nat) (hp : ∀ l ∈ ls, 0 < l) (h : d + 1 < ls.sum) :
    ∃ i l, (monthDay ls m d).1 = m + i ∧ ls[i]? = some l ∧
      monthDay ls m (d + 1) = (if (monthDay ls m d).2 < l then (m + i, (monthDay ls m d).2 + 1)
        else (m + i + 1, 1)) ∧ ((monthDay ls m d).2 < l ∨ i + 1 < ls.length) := by
  induction ls generalizing m d with
  | nil => simp at h
  | cons l ls ih =>
    rw [List.sum_cons] at h
    by_cases h1 : d < l
    · refine ⟨0, l, by simp [monthDay, h1], by simp, ?_⟩
      by_cases h2 : d + 1 < l
      · simp [monthDay, h1, h2]
      · have hne : ls ≠ [] := by
          intro e
          rw [e] at h
          simp at h
          omega
        obtain ⟨l', ls', rfl⟩ := List.exists_cons_of_ne_nil hne
        have := hp l' (by simp)
        have e : d + 1 - l = 0 := by omega
        simp [monthDay, h1, h2, e, this]
    · obtain ⟨i, l', h2, h3, h4, h5⟩ := ih (m + 1) (d - l) (fun x hx => hp x (by simp [hx])) (by omega)
      have e : monthDay (l :: ls) m d = monthDay ls (m + 1) (d - l) := by simp [monthDay, h1]
      have e' : monthDay (l :: ls) m (d + 1) = monthDay ls (m + 1) (d - l + 1) := by
        rw [monthDay, if_neg (by omega)]
        congr 1
        omega
      refine ⟨i + 1, l', ?_, by simpa using h3, ?_, ?_⟩
      · rw [e, h2]; omega
      · rw [e, e', h4]
        have : m + 1 + i = m + (i + 1) := by omega
        rw [this]
      · rw [e]
        simpa using h5

theorem monthDay_last (y : Int) (d : Nat) (h : d + 1 = yearLength y) :
    monthDay (monthLengths y) 1 d = (12, 31) := by
  unfold yearLength at h
  unfold monthLengths
  cases hl : isLeap y
  · rw [hl] at h
    obtain rfl : d = 364 := by simpa using h
    rfl
  · rw [hl] at h
    obtain rfl : d = 365 := by simpa using h
    rfl

theorem isLeap_iff (y : Int) : isLeap y = true ↔ LeapYear y := by
  simp only [isLeap, decide_eq_true_eq, LeapYear]
  omega

theorem monthLength_eq (y : Int) {i l : Nat} (h : (monthLengths y)[i]? = some l) :
    monthLength y (1 + i) = l := by
  have hi : i < 12 := by
    obtain ⟨h1, -⟩ := List.getElem?_eq_some_iff.1 h
    exact h1
  have hl := isLeap_iff y
  unfold monthLengths at h
  obtain rfl | rfl | rfl | rfl | rfl | rfl | rfl | rfl | rfl | rfl | rfl | rfl :
    i = 0 ∨ i = 1 ∨ i = 2 ∨ i = 3 ∨ i = 4 ∨ i = 5 ∨ i = 6 ∨ i = 7 ∨ i = 8 ∨ i = 9 ∨ i = 10 ∨ i = 11 := by
    omega
  all_goals simp at h
  all_goals subst h
  all_goals simp [monthLength, hl]

theorem dateOfDay_succ (n : Int) : dateOfDay (n + 1) = nextDay (dateOfDay n) := by
  obtain ⟨h1, h2⟩ := yearDay_spec n
  generalize hp : yearDay n = p at h1 h2
  obtain ⟨y, d⟩ := p
  simp only at h1 h2
  simp only [dateOfDay, hp]
  by_cases hd : d + 1 < yearLength y
  · rw [yearDay_eq (n := n + 1) (y := y) (d := d + 1) (by push_cast; omega) hd]
    simp only
    obtain ⟨i, l, h3, h4, h5, h6⟩ := monthDay_succ (monthLengths y) 1 d (by
      intro l hl
      unfold monthLengths at hl
      simp only [List.mem_cons, List.not_mem_nil, or_false] at hl
      split at hl <;> omega) (by rw [sum_monthLengths]; exact hd)
    have h7 := monthLength_eq y h4
    rw [h5, nextDay]
    simp only [h3, h7]
    by_cases h8 : (monthDay (monthLengths y) 1 d).2 < l
    · rw [if_pos h8, if_pos h8]
    · rw [if_neg h8, if_neg h8]
      have : i + 1 < 12 := h6.resolve_left h8
      rw [if_pos (by omega)]
  · have hd : d + 1 = yearLength y := by omega
    have h3 := daysBefore_succ y
    rw [yearDay_eq (n := n + 1) (y := y + 1) (d := 0) (by push_cast; omega)
      (by unfold yearLength; split <;> omega), monthDay_last y d hd]
    rfl

theorem dayOfDate_dateOfDay (n : Int) (h1 : -262144 ≤ (dateOfDay n).year)
    (h2 : (dateOfDay n).year ≤ 262143) : dayOfDate (dateOfDay n) = some n := by
  obtain ⟨h3, h4⟩ := yearDay_spec n
  simp only [dateOfDay] at h1 h2 ⊢
  generalize hp : yearDay n = p at *
  obtain ⟨y, d⟩ := p
  simp only at *
  obtain ⟨i, l, h5, h6, h7, h8, h9⟩ := monthDay_spec (monthLengths y) 1 d (by rw [sum_monthLengths]; exact h4)
  simp only [dayOfDate, h5, show 1 + i - 1 = i by omega, h6]
  rw [if_pos ⟨by omega, h7, h8, h1, h2⟩]
  congr 1
  omega

theorem dateOfDay_month (n : Int) : 1 ≤ (dateOfDay n).month ∧ (dateOfDay n).month ≤ 12 ∧
    1 ≤ (dateOfDay n).day ∧ (dateOfDay n).day ≤ 31 := by
  obtain ⟨h3, h4⟩ := yearDay_spec n
  simp only [dateOfDay]
  obtain ⟨i, l, h5, h6, h7, h8, h9⟩ := monthDay_spec (monthLengths (yearDay n).1) 1 (yearDay n).2
    (by rw [sum_monthLengths]; exact h4)
  have hi : i < 12 := by
    obtain ⟨h1, -⟩ := List.getElem?_eq_some_iff.1 h6
    exact h1
  have hl : l ≤ 31 := by
    have := List.mem_of_getElem? h6
    unfold monthLengths at this
    simp only [List.mem_cons, List.not_mem_nil, or_false] at this
    split at this <;> omega
  omega

theorem monthDay_of (ls : List Nat) (m k : Nat) {i l : Nat} (h : ls[i]? = some l) (hk : k < l) :
    monthDay ls m ((ls.take i).sum + k) = (m + i, k + 1) := by
  induction ls generalizing m i with
  | nil => simp at h
  | cons a ls ih =>
    cases i with
    | zero =>
      obtain rfl : a = l := by simpa using h
      simp [monthDay, hk]
    | succ i =>
      rw [List.take_succ_cons, List.sum_cons, monthDay, if_neg (by omega),
        show a + (ls.take i).sum + k - a = (ls.take i).sum + k by omega, ih (m + 1) (by simpa using h)]
      congr 1
      omega

theorem sum_take_le (ls : List Nat) {i l : Nat} (h : ls[i]? = some l) : (ls.take i).sum + l ≤ ls.sum := by
  induction ls generalizing i with
  | nil => simp at h
  | cons a ls ih =>
    cases i with
    | zero =>
      obtain rfl : a = l := by simpa using h
      simp
    | succ i =>
      have := ih (i := i) (by simpa using h)
      rw [List.take_succ_cons, List.sum_cons, List.sum_cons]
      omega

/-- The days that there are. -/
theorem dayOfDate_iff {d : Date} (h1 : -262144 ≤ d.year) (h2 : d.year ≤ 262143) :
    (dayOfDate d).isSome ↔ 1 ≤ d.month ∧ d.month ≤ 12 ∧ 1 ≤ d.day ∧ d.day ≤ monthLength d.year d.month := by
  unfold dayOfDate
  cases h : (monthLengths d.year)[d.month - 1]? with
  | none =>
    have : (monthLengths d.year).length ≤ d.month - 1 := List.getElem?_eq_none_iff.1 h
    have e : (monthLengths d.year).length = 12 := rfl
    simp only [Option.isSome_none, Bool.false_eq_true, false_iff]
    omega
  | some l =>
    have hl := monthLength_eq d.year h
    obtain ⟨h3, -⟩ := List.getElem?_eq_some_iff.1 h
    have e : (monthLengths d.year).length = 12 := rfl
    by_cases hm : 1 ≤ d.month
    · rw [show 1 + (d.month - 1) = d.month by omega] at hl
      rw [hl]
      simp only
      split
      · simp only [Option.isSome_some, true_iff]
        omega
      · simp only [Option.isSome_none, Bool.false_eq_true, false_iff]
        omega
    · simp only [hm, false_and, if_false, Option.isSome_none, Bool.false_eq_true]

theorem dateOfDay_dayOfDate {d : Date} {n : Int} (h : dayOfDate d = some n) : dateOfDay n = d := by
  unfold dayOfDate at h
  split at h
  · cases h
  · rename_i l hl
    split at h
    · rename_i hc
      cases h
      have h1 := sum_take_le _ hl
      rw [sum_monthLengths] at h1
      have h2 := monthDay_of (monthLengths d.year) 1 (d.day - 1) hl (by omega)
      unfold dateOfDay
      rw [yearDay_eq (y := d.year) (d := ((monthLengths d.year).take (d.month - 1)).sum + (d.day - 1))
        (by push_cast; omega) (by omega)]
      simp only [h2]
      rw [show 1 + (d.month - 1) = d.month by omega, show d.day - 1 + 1 = d.day by omega]
    · cases h

/-! ### Texts -/

theorem digitsRev_length (fuel n k : Nat) (h : n < fuel) :
    (n < 10 ^ (k + 1) → (digitsRev fuel n).length ≤ k + 1) ∧
      (10 ^ (k + 1) ≤ n → k + 1 < (digitsRev fuel n).length) := by
  induction fuel generalizing n k with
  | zero => omega
  | succ fuel ih =>
    unfold digitsRev
    split
    · rename_i h1
      refine ⟨fun _ => by simp, fun h2 => ?_⟩
      have : 10 ^ 1 ≤ 10 ^ (k + 1) := Nat.pow_le_pow_right (by omega) (by omega)
      omega
    · rename_i h1
      rw [List.length_cons]
      cases k with
      | zero =>
        refine ⟨fun h2 => by omega, fun _ => ?_⟩
        obtain ⟨f, rfl⟩ : ∃ f, fuel = f + 1 := ⟨fuel - 1, by omega⟩
        unfold digitsRev
        split <;> simp
      | succ k =>
        obtain ⟨h2, h3⟩ := ih (n / 10) k (by omega)
        have e : 10 ^ (k + 1 + 1) = 10 ^ (k + 1) * 10 := Nat.pow_succ ..
        generalize 10 ^ (k + 1) = p at *
        constructor
        · intro h4
          have := h2 (by omega)
          omega
        · intro h4
          have := h3 (by omega)
          omega

theorem decimal_length_le {n k : Nat} (h : n < 10 ^ (k + 1)) : (decimal n).length ≤ k + 1 := by
  unfold decimal
  rw [List.length_map, List.length_reverse]
  exact (digitsRev_length (n + 1) n k (by omega)).1 h

theorem decimal_length_gt {n k : Nat} (h : 10 ^ (k + 1) ≤ n) : k + 1 < (decimal n).length := by
  unfold decimal
  rw [List.length_map, List.length_reverse]
  exact (digitsRev_length (n + 1) n k (by omega)).2 h

theorem isDigit_padded (w n : Nat) : ∀ c ∈ padded w n, isDigit c = true := by
  intro c hc
  rcases List.mem_append.1 hc with h | h
  · rw [(List.mem_replicate.1 h).2]
    rfl
  · exact isDigit_decimal n c h

theorem digitsVal_zeros (k : Nat) : digitsVal 0 (List.replicate k '0') = 0 := by
  induction k with
  | zero => rfl
  | succ k ih => exact ih

theorem digitsVal_padded (w n : Nat) : digitsVal 0 (padded w n) = n := by
  rw [padded, digitsVal_append, digitsVal_zeros, digitsVal_decimal]

theorem padded_ne_nil (w n : Nat) : padded w n ≠ [] := by
  intro h
  exact decimal_ne_nil n (List.append_eq_nil_iff.1 h).2

theorem padded_length {w n : Nat} (h : (decimal n).length ≤ w) : (padded w n).length = w := by
  simp only [padded, List.length_append, List.length_replicate]
  omega

theorem scanNumber_padded {max w n : Nat} {s : Str} (h : (padded w n).length ≤ max)
    (hs : ∀ c ∈ s.head?, isDigit c = false) : scanNumber max (padded w n ++ s) = some (n, s) := by
  unfold scanNumber
  rw [spanDigits_append _ _ (isDigit_padded w n) hs]
  simp only
  rw [List.take_of_length_le h, digitsVal_padded, List.drop_left, if_neg]
  intro e
  exact padded_ne_nil w n (by simpa using e)

theorem digit_not_space {c : Char} (h : isDigit c = true) : isSpace c = false := by
  simp only [isDigit, decide_eq_true_eq] at h
  simp only [isSpace, decide_eq_false_iff_not]
  omega

theorem dropWhile_padded (w n : Nat) (s : Str) :
    (padded w n ++ s).dropWhile isSpace = padded w n ++ s := by
  cases h : padded w n with
  | nil => exact absurd h (padded_ne_nil w n)
  | cons c t =>
    have := digit_not_space (isDigit_padded w n c (by rw [h]; simp))
    simp [this]

theorem parseField_padded {n : Nat} {s : Str} (h : n < 100)
    (hs : ∀ c ∈ s.head?, isDigit c = false) : parseField (padded 2 n ++ s) = some (n, s) := by
  unfold parseField
  rw [dropWhile_padded]
  refine scanNumber_padded ?_ hs
  rw [padded_length (decimal_length_le (k := 1) (by omega))]

theorem parseYear_digits {w n : Nat} (s : Str) :
    parseYear (padded w n ++ s) = (scanNumber 4 (padded w n ++ s)).map fun p => ((p.1 : Int), p.2) := by
  unfold parseYear
  rw [dropWhile_padded]
  cases h : padded w n with
  | nil => exact absurd h (padded_ne_nil w n)
  | cons c t =>
    have := isDigit_padded w n c (by rw [h]; simp)
    split
    · rename_i heq
      cases heq
      exact absurd this (by decide)
    · rename_i heq
      cases heq
      exact absurd this (by decide)
    · rfl

theorem parseYear_format {y : Int} (h : y ≤ 9999) {s : Str} (hs : ∀ c ∈ s.head?, isDigit c = false) :
    parseYear (formatYear y ++ s) = some (y, s) := by
  unfold formatYear
  split
  · rename_i hy
    unfold parseYear
    have : (('-' :: padded 3 y.natAbs ++ s).dropWhile isSpace) = '-' :: padded 3 y.natAbs ++ s := rfl
    rw [this]
    simp only [List.cons_append]
    rw [scanNumber_padded (by simp) hs]
    simp only [Option.map_some, Option.some.injEq, Prod.mk.injEq, and_true]
    omega
  · rename_i hy
    rw [parseYear_digits, scanNumber_padded ?_ hs]
    · simp only [Option.map_some, Option.some.injEq, Prod.mk.injEq, and_true]
      omega
    · rw [padded_length (decimal_length_le (k := 3) (by omega))]

theorem scanNumber_long {max : Nat} {ds s : Str} (hd : ∀ c ∈ ds, isDigit c = true)
    (h : max < ds.length) {n : Nat} {r : Str} (hr : scanNumber max (ds ++ s) = some (n, r)) :
    ∃ c t, r = c :: t ∧ isDigit c = true := by
  have key : ∀ (ds : Str), (∀ c ∈ ds, isDigit c = true) → ∃ t, (spanDigits (ds ++ s)).1 = ds ++ t := by
    intro ds
    induction ds with
    | nil => exact fun _ => ⟨_, rfl⟩
    | cons d ds ih =>
      intro hd
      obtain ⟨t, ht⟩ := ih fun c hc => hd c (by simp [hc])
      exact ⟨t, by simp [spanDigits, hd d (by simp), ht]⟩
  obtain ⟨t, ht⟩ := key ds hd
  unfold scanNumber at hr
  rw [ht, List.take_append_of_le_length (by omega)] at hr
  simp only at hr
  split at hr
  · cases hr
  · cases hr
    rw [List.length_take, Nat.min_eq_left (by omega), List.drop_append_of_le_length (by omega)]
    cases h1 : ds.drop max with
    | nil =>
      have := List.length_drop (i := max) (l := ds)
      rw [h1] at this
      simp at this
      omega
    | cons c t => exact ⟨c, t ++ s, rfl, hd c (List.mem_of_mem_drop (by rw [h1]; simp))⟩

theorem literal_cons (c : Char) (s : Str) : literal c (c :: s) = some s := by simp [literal]

/-- Fields of a date, written and read. -/
theorem parseDate_text {y : Int} {mo d h mi s : Nat} (hy : y ≤ 9999) (h1 : mo < 100) (h2 : d < 100)
    (h3 : h < 100) (h4 : mi < 100) (h5 : s < 100) :
    parseDate (formatYear y ++ '-' :: padded 2 mo ++ '-' :: padded 2 d ++ 'T' :: padded 2 h ++
      ':' :: padded 2 mi ++ ':' :: padded 2 s ++ ['Z']) =
      (match dayOfDate ⟨y, mo, d⟩, timeOfDay h mi s with
        | some n, some t => some (n * 86400 * second + t)
        | _, _ => none) := by
  have e : (formatYear y ++ '-' :: padded 2 mo ++ '-' :: padded 2 d ++ 'T' :: padded 2 h ++
      ':' :: padded 2 mi ++ ':' :: padded 2 s ++ ['Z']) =
    formatYear y ++ '-' :: (padded 2 mo ++ '-' :: (padded 2 d ++ 'T' :: (padded 2 h ++
      ':' :: (padded 2 mi ++ ':' :: (padded 2 s ++ ['Z']))))) := by
    simp only [List.append_assoc, List.cons_append]
  rw [e]
  unfold parseDate
  rw [parseYear_format hy (by simp; decide)]
  simp only [Option.bind_eq_bind, Option.bind_some, literal_cons]
  rw [parseField_padded h1 (by simp; decide)]
  simp only [Option.bind_some, literal_cons]
  rw [parseField_padded h2 (by simp; decide)]
  simp only [Option.bind_some, literal_cons]
  rw [parseField_padded h3 (by simp; decide)]
  simp only [Option.bind_some, literal_cons]
  rw [parseField_padded h4 (by simp; decide)]
  simp only [Option.bind_some, literal_cons]
  rw [parseField_padded h5 (by simp; decide)]
  simp only [Option.bind_some, literal_cons, List.isEmpty_nil, if_true]
  cases dayOfDate ⟨y, mo, d⟩ with
  | none => rfl
  | some n => cases timeOfDay h mi s <;> rfl

theorem padded_two : ∀ n, n < 100 → padded 2 n = two n := by decide +kernel

theorem padded_four {n : Nat} (h : n < 10000) : padded 4 n = two (n / 100) ++ two (n % 100) := by
  have key : ∀ a, a < 100 → ∀ b, b < 100 → padded 4 (100 * a + b) = two a ++ two b := by decide +kernel
  have := key (n / 100) (by omega) (n % 100) (by omega)
  rwa [show 100 * (n / 100) + n % 100 = n by omega] at this

theorem parseDate_format {t : Time} (h1 : -262144 ≤ (dateOf t).year) (h2 : (dateOf t).year ≤ 9999) :
    parseDate (formatDate t) = some (t / second * second) := by
  have hm := dateOfDay_month (t / second / 86400)
  unfold dateOf at h1 h2
  unfold formatDate
  simp only
  have hx : (t / second % 86400).toNat < 86400 := by omega
  generalize hxx : (t / second % 86400).toNat = x at *
  rw [parseDate_text h2 (by omega) (by omega) (by omega) (by omega) (by omega)]
  have := dayOfDate_dateOfDay (t / second / 86400) h1 (by omega)
  rw [show (⟨(dateOfDay (t / second / 86400)).year, (dateOfDay (t / second / 86400)).month,
    (dateOfDay (t / second / 86400)).day⟩ : Date) = dateOfDay (t / second / 86400) from rfl, this]
  simp only [timeOfDay]
  rw [if_pos ⟨by omega, by omega, by omega⟩]
  simp only [Option.some.injEq]
  rw [← Int.add_mul]
  congr 1
  push_cast
  omega

theorem parseDate_late {t : Time} (h : 9999 < (dateOf t).year) : parseDate (formatDate t) = none := by
  unfold dateOf at h
  unfold formatDate
  simp only
  generalize (dateOfDay (t / second / 86400)) = d at h
  have e : formatYear d.year = decimal d.year.natAbs := by
    have := decimal_length_gt (n := d.year.natAbs) (k := 3) (by omega)
    rw [formatYear, if_neg (by omega), padded, show 4 - (decimal d.year.natAbs).length = 0 by omega]
    rfl
  have hl := decimal_length_gt (n := d.year.natAbs) (k := 3) (by omega)
  simp only [List.append_assoc, List.cons_append]
  generalize hrest : ('-' :: (padded 2 d.month ++ _) : Str) = rest
  unfold parseDate
  have hy : parseYear (formatYear d.year ++ rest) =
      (scanNumber 4 (formatYear d.year ++ rest)).map fun p => ((p.1 : Int), p.2) := by
    have := parseYear_digits (w := 4) (n := d.year.natAbs) rest
    rwa [show padded 4 d.year.natAbs = formatYear d.year by rw [formatYear, if_neg (by omega)]] at this
  rw [hy]
  cases hs : scanNumber 4 (formatYear d.year ++ rest) with
  | none => rfl
  | some p =>
    obtain ⟨n, r⟩ := p
    rw [e] at hs
    obtain ⟨c, u, rfl, hc⟩ := scanNumber_long (isDigit_decimal _) hl hs
    have : literal '-' (c :: u) = none := by
      simp only [literal]
      rw [if_neg]
      intro e
      rw [e] at hc
      exact absurd hc (by decide)
    simp [this]

end RustTuf.Formats
