import Verif.Spec.DateTexts
import Verif.Props.Dates

/-!
# C80: which texts are read as dates
-/

namespace RustTuf.Props
open Spec RustTuf Formats Json

theorem isSpace_iff (c : Char) : isSpace c = true ↔ Space c := by
  unfold isSpace Space
  simp only [decide_eq_true_eq, List.mem_cons, List.not_mem_nil, or_false]
  omega

theorem isDigit_digitChar : ∀ v < 10, isDigit (Nat.digitChar v) = true ∧ (Nat.digitChar v).toNat - 48 = v := by
  decide +kernel

theorem digitChar_of_isDigit {c : Char} (h : isDigit c = true) :
    c.toNat - 48 < 10 ∧ Nat.digitChar (c.toNat - 48) = c := by
  simp only [isDigit, decide_eq_true_eq] at h
  have h1 : c.toNat - 48 < 10 := by omega
  refine ⟨h1, ?_⟩
  have key : ∀ v < 10, (Nat.digitChar v).toNat = v + 48 := by decide +kernel
  apply Char.toNat_inj.mp
  rw [key _ h1]
  omega

theorem digitsVal_cons (acc : Nat) (c : Char) (s : Str) :
    digitsVal acc (c :: s) = digitsVal (acc * 10 + (c.toNat - 48)) s :=
  digitsVal_append [c] s acc

theorem digitsVal_foldl (vs : List Nat) (acc : Nat) (hv : ∀ v ∈ vs, v < 10) :
    digitsVal acc (vs.map Nat.digitChar) = vs.foldl (fun n v => 10 * n + v) acc := by
  induction vs generalizing acc with
  | nil => rfl
  | cons v vs ih =>
    have e := (isDigit_digitChar v (hv v List.mem_cons_self)).2
    have e2 := ih (acc * 10 + v) fun w hw => hv w (List.mem_cons_of_mem _ hw)
    rw [List.map_cons, digitsVal_cons, e, e2, List.foldl_cons, Nat.mul_comm acc 10]

theorem digits_iff {ds : Str} {n : Nat} :
    Digits ds n ↔ ds ≠ [] ∧ (∀ c ∈ ds, isDigit c = true) ∧ n = digitsVal 0 ds := by
  constructor
  · rintro ⟨vs, h1, h2, rfl, rfl⟩
    refine ⟨by simpa using h1, ?_, (digitsVal_foldl vs 0 h2).symm⟩
    intro c hc
    obtain ⟨v, hv, rfl⟩ := List.mem_map.1 hc
    exact (isDigit_digitChar v (h2 v hv)).1
  · rintro ⟨h1, h2, rfl⟩
    have e : (ds.map fun c => c.toNat - 48).map Nat.digitChar = ds := by
      rw [List.map_map]
      conv => rhs; rw [← List.map_id ds]
      exact List.map_congr_left fun c hc => (digitChar_of_isDigit (h2 c hc)).2
    have hv : ∀ v ∈ ds.map fun c => c.toNat - 48, v < 10 := by
      intro v hv
      obtain ⟨c, hc, rfl⟩ := List.mem_map.1 hv
      exact (digitChar_of_isDigit (h2 c hc)).1
    have hl := digitsVal_foldl _ 0 hv
    rw [e] at hl
    exact ⟨_, mt List.map_eq_nil_iff.1 h1, hv, e.symm, hl⟩

theorem spanDigits_spec (s : Str) :
    s = (spanDigits s).1 ++ (spanDigits s).2 ∧ ∀ c ∈ (spanDigits s).1, isDigit c = true := by
  induction s with
  | nil => exact ⟨rfl, nofun⟩
  | cons c s ih =>
    unfold spanDigits
    split
    · rename_i h
      exact ⟨by simpa using ih.1, by simpa [h] using ih.2⟩
    · exact ⟨rfl, nofun⟩

theorem scanNumber_some {max : Nat} {s r : Str} {n : Nat} (h : scanNumber max s = some (n, r)) :
    ∃ ds, s = ds ++ r ∧ Digits ds n ∧ ds.length ≤ max := by
  unfold scanNumber at h
  have hs := spanDigits_spec s
  generalize spanDigits s = p at h hs
  obtain ⟨a, b⟩ := p
  simp only at h hs
  split at h
  · cases h
  · rename_i he
    cases h
    obtain ⟨rfl, hd⟩ := hs
    refine ⟨a.take max, ?_, digits_iff.2 ⟨by simpa using he, fun c hc => hd c (List.mem_of_mem_take hc), rfl⟩,
      by simp⟩
    conv => lhs; rw [← List.take_append_drop (a.take max).length (a ++ b)]
    congr 1
    rw [List.length_take]
    rw [List.take_append_of_le_length (Nat.min_le_right ..)]
    rcases Nat.le_total max a.length with h | h
    · rw [Nat.min_eq_left h]
    · rw [Nat.min_eq_right h, List.take_of_length_le h, List.take_length]

theorem scanNumber_of {max : Nat} {ds r : Str} {n : Nat} (h : Digits ds n) (hl : ds.length ≤ max)
    (hr : ∀ c ∈ r.head?, isDigit c = false) : scanNumber max (ds ++ r) = some (n, r) := by
  obtain ⟨h1, h2, rfl⟩ := digits_iff.1 h
  unfold scanNumber
  rw [spanDigits_append _ _ h2 hr]
  simp only
  rw [List.take_of_length_le hl, List.drop_left, if_neg (by simpa using h1)]

theorem dropWhile_spaces {ws r : Str} (h : ∀ c ∈ ws, Space c) (hr : ∀ c ∈ r.head?, ¬ Space c) :
    (ws ++ r).dropWhile isSpace = r := by
  induction ws with
  | nil =>
    cases r with
    | nil => rfl
    | cons c r =>
      have : isSpace c = false := by
        have := mt (isSpace_iff c).1 (hr c (by simp))
        simpa using this
      simp [this]
  | cons c ws ih =>
    have : isSpace c = true := (isSpace_iff c).2 (h c (by simp))
    simp only [List.cons_append, List.dropWhile_cons, this, if_true]
    exact ih fun d hd => h d (by simp [hd])

theorem split_spaces (s : Str) : ∃ ws, s = ws ++ s.dropWhile isSpace ∧ ∀ c ∈ ws, Space c := by
  refine ⟨s.takeWhile isSpace, (List.takeWhile_append_dropWhile).symm, ?_⟩
  intro c hc
  have := List.all_takeWhile (p := isSpace) (l := s)
  exact (isSpace_iff c).1 (List.all_eq_true.1 this c hc)

theorem digits_head {ds r : Str} {n : Nat} (h : Digits ds n) : ∀ c ∈ (ds ++ r).head?, ¬ Space c := by
  obtain ⟨h1, h2, -⟩ := digits_iff.1 h
  cases ds with
  | nil => exact absurd rfl h1
  | cons d ds =>
    intro c hc
    simp only [List.cons_append, List.head?_cons, Option.mem_def, Option.some.injEq] at hc
    subst hc
    rw [← isSpace_iff, digit_not_space (h2 d (by simp))]
    simp

theorem parseField_iff {s r : Str} {n : Nat} (hr : ∀ c ∈ r.head?, isDigit c = false) :
    parseField s = some (n, r) ↔ ∃ a, s = a ++ r ∧ FieldText a n := by
  constructor
  · intro h
    obtain ⟨ds, h1, h2, h3⟩ := scanNumber_some h
    obtain ⟨ws, hw, hws⟩ := split_spaces s
    rw [h1] at hw
    exact ⟨ws ++ ds, by rw [List.append_assoc]; exact hw, ws, ds, rfl, hws, h2, h3⟩
  · rintro ⟨_, rfl, ws, ds, rfl, hws, h2, h3⟩
    unfold parseField
    rw [List.append_assoc, dropWhile_spaces hws (digits_head h2), scanNumber_of h2 h3 hr]

theorem parseYear_iff {s r : Str} {y : Int} (hr : ∀ c ∈ r.head?, isDigit c = false) :
    parseYear s = some (y, r) ↔ ∃ a, s = a ++ r ∧ YearText a y := by
  constructor
  · intro h
    obtain ⟨ws, hw, hws⟩ := split_spaces s
    unfold parseYear at h
    split at h
    · rename_i s' e
      rw [e] at hw
      simp only [Option.map_eq_some_iff, Prod.exists, Prod.mk.injEq] at h
      obtain ⟨n, r', h, rfl, rfl⟩ := h
      obtain ⟨ds, rfl, h2, h3⟩ := scanNumber_some h
      exact ⟨ws ++ ['-'] ++ ds, by simpa using hw, ws, ['-'], ds, n, rfl, hws, h2, .inr (.inr ⟨rfl, rfl⟩)⟩
    · rename_i s' e
      rw [e] at hw
      simp only [Option.map_eq_some_iff, Prod.exists, Prod.mk.injEq] at h
      obtain ⟨n, r', h, rfl, rfl⟩ := h
      obtain ⟨ds, rfl, h2, h3⟩ := scanNumber_some h
      exact ⟨ws ++ ['+'] ++ ds, by simpa using hw, ws, ['+'], ds, n, rfl, hws, h2, .inr (.inl ⟨rfl, rfl⟩)⟩
    · simp only [Option.map_eq_some_iff, Prod.exists, Prod.mk.injEq] at h
      obtain ⟨n, r', h, rfl, rfl⟩ := h
      obtain ⟨ds, h1, h2, h3⟩ := scanNumber_some h
      rw [h1] at hw
      exact ⟨ws ++ [] ++ ds, by simpa using hw, ws, [], ds, n, rfl, hws, h2, .inl ⟨rfl, h3, rfl⟩⟩
  · rintro ⟨_, rfl, ws, sign, ds, n, rfl, hws, h2, h3⟩
    have hns : ∀ t : Str, (∀ c ∈ t.head?, ¬ Space c) → (ws ++ t).dropWhile isSpace = t :=
      fun t ht => dropWhile_spaces hws ht
    unfold parseYear
    rcases h3 with ⟨rfl, h3, rfl⟩ | ⟨rfl, rfl⟩ | ⟨rfl, rfl⟩
    · rw [List.append_nil, List.append_assoc, hns _ (digits_head h2)]
      obtain ⟨h4, h5, -⟩ := digits_iff.1 h2
      cases ds with
      | nil => exact absurd rfl h4
      | cons d ds =>
        have := h5 d (by simp)
        split
        · rename_i heq
          cases heq
          exact absurd this (by decide)
        · rename_i heq
          cases heq
          exact absurd this (by decide)
        · rw [scanNumber_of h2 h3 hr]
          rfl
    · rw [List.append_assoc, List.append_assoc, hns _ (by intro c hc; cases hc; decide)]
      show (scanNumber (ds ++ r).length (ds ++ r)).map _ = _
      rw [scanNumber_of h2 (by simp) hr]
      rfl
    · rw [List.append_assoc, List.append_assoc, hns _ (by intro c hc; cases hc; decide)]
      show (scanNumber (ds ++ r).length (ds ++ r)).map _ = _
      rw [scanNumber_of h2 (by simp) hr]
      rfl

theorem literal_iff {c : Char} {s r : Str} : literal c s = some r ↔ s = c :: r := by
  cases s with
  | nil => simp [literal]
  | cons d s =>
    show (if d = c then some s else none) = some r ↔ _
    by_cases h : d = c
    · simp [h]
    · simp [h]

theorem dayOfDate_exists (d : Date) : (dayOfDate d).isSome ↔ DayExists d := by
  by_cases h : -262144 ≤ d.year ∧ d.year ≤ 262143
  · rw [dayOfDate_iff h.1 h.2]
    unfold DayExists
    simp [h.1, h.2]
  · have : dayOfDate d = none := by
      unfold dayOfDate
      split
      · rfl
      · rw [if_neg]
        rintro ⟨-, -, -, h1⟩
        exact h h1
    rw [this]
    simp only [Option.isSome_none, Bool.false_eq_true, false_iff]
    rintro ⟨-, -, -, -, h1⟩
    exact h h1

theorem secondOf_iff {n : Int} {d : Date} (h : dayOfDate d = some n) {hour minute sec : Nat}
    (h1 : hour < 24) (h2 : minute < 60) (h3 : sec < 60) (t : Time) :
    SecondOf t d hour minute sec ↔
      t = n * 86400 * second + ((hour * 3600 + minute * 60 + sec : Nat) : Int) * second := by
  have e : n * 86400 * second + ((hour * 3600 + minute * 60 + sec : Nat) : Int) * second =
      (n * 86400 + ((hour * 3600 + minute * 60 + sec : Nat) : Int)) * second := by
    rw [Int.add_mul]
  rw [e]
  have key : SecondOf ((n * 86400 + ((hour * 3600 + minute * 60 + sec : Nat) : Int)) * second) d hour minute sec := by
    unfold SecondOf dateOf
    rw [Int.mul_ediv_cancel _ (by decide), ← dateOfDay_dayOfDate h]
    refine ⟨?_, ⟨_, Int.mul_comm ..⟩, by push_cast; omega⟩
    congr 1
    push_cast
    omega
  constructor
  · rintro ⟨e1, ⟨k, rfl⟩, e3⟩
    unfold dateOf at e1
    rw [Int.mul_ediv_cancel_left _ (by decide)] at e1 e3
    have hi := (dayOfDate_exists d).1 (by rw [h]; rfl)
    have := dayOfDate_dateOfDay (k / 86400) (by rw [e1]; exact hi.2.2.2.2.1) (by rw [e1]; exact hi.2.2.2.2.2)
    rw [e1, h] at this
    cases this
    rw [Int.mul_comm]
    congr 1
    push_cast
    omega
  · rintro rfl
    exact key

/-- **C80.** Exactly these texts are read as a date: year, month, day, hour, minute and second with
nothing before, between or after them but white space before a number; the day must exist and so must the time
of the day. The time is the start of that second, and for the second 60 it lies between the start of
the second 59 and the next minute. -/
theorem C80_read_exactly (s : Str) (t : Time) :
    parseDate s = some t ↔ ∃ d hour minute sec, IsDateText s d hour minute sec ∧ DayExists d ∧ hour < 24 ∧
      minute < 60 ∧ (sec < 60 ∧ SecondOf t d hour minute sec ∨
        sec = 60 ∧ SecondOf (t - 1000000000) d hour minute 59) := by
  have hd : ∀ (c : Char) (r : Str), isDigit c = false → ∀ x ∈ (c :: r).head?, isDigit x = false := by
    intro c r hc x hx
    cases hx
    exact hc
  have times : ∀ (d : Date) (hour minute sec : Nat),
      ((dayOfDate d).bind fun n => (timeOfDay hour minute sec).bind fun u =>
        some (n * 86400 * second + u)) = some t ↔
      DayExists d ∧ hour < 24 ∧ minute < 60 ∧ (sec < 60 ∧ SecondOf t d hour minute sec ∨
        sec = 60 ∧ SecondOf (t - 1000000000) d hour minute 59) := by
    intro d hour minute sec
    rw [← dayOfDate_exists]
    cases h : dayOfDate d with
    | none => simp
    | some n =>
      simp only [Option.bind_some, Option.isSome_some, true_and]
      unfold timeOfDay
      by_cases ht : hour < 24 ∧ minute < 60
      · by_cases hs : sec < 60
        · rw [if_pos ⟨ht.1, ht.2, hs⟩, secondOf_iff h ht.1 ht.2 hs]
          simp only [Option.bind_some, Option.some.injEq, ht.1, ht.2, hs, true_and]
          constructor
          · rintro rfl
            exact .inl rfl
          · rintro (h | ⟨h, -⟩)
            · exact h.symm
            · omega
        · by_cases hs' : sec = 60
          · rw [if_neg (by omega), if_pos ⟨ht.1, ht.2, hs'⟩, secondOf_iff h ht.1 ht.2 (show 59 < 60 by decide)]
            subst hs'
            simp only [Option.bind_some, Option.some.injEq, ht.1, ht.2, true_and, Nat.lt_irrefl, false_and, false_or]
            constructor
            · intro h
              omega
            · intro h
              omega
          · rw [if_neg (by omega), if_neg (by omega)]
            simp [hs, hs']
      · rw [if_neg (by omega), if_neg (by omega)]
        simp only [Option.bind_none, reduceCtorEq, false_iff]
        exact fun hc => ht ⟨hc.1, hc.2.1⟩
  constructor
  · intro h
    unfold parseDate at h
    simp only [Option.bind_eq_bind, Option.bind_eq_some_iff, Prod.exists] at h
    obtain ⟨y, s1, p1, s2, l1, mo, s3, p2, s4, l2, da, s5, p3, s6, l3, ho, s7, p4, s8, l4, mi, s9, p5, s10, l5,
      se, s11, p6, s12, l6, h⟩ := h
    rw [literal_iff] at l1 l2 l3 l4 l5 l6
    subst l1 l2 l3 l4 l5 l6
    rw [parseYear_iff (hd _ _ (by decide))] at p1
    rw [parseField_iff (hd _ _ (by decide))] at p2 p3 p4 p5 p6
    obtain ⟨a, rfl, ha⟩ := p1
    obtain ⟨b, rfl, hb⟩ := p2
    obtain ⟨c, rfl, hc⟩ := p3
    obtain ⟨e, rfl, he⟩ := p4
    obtain ⟨f, rfl, hf⟩ := p5
    obtain ⟨g, rfl, hg⟩ := p6
    split at h
    · rename_i hn
      rw [List.isEmpty_iff] at hn
      subst hn
      refine ⟨⟨y, mo, da⟩, ho, mi, se, ⟨a, b, c, e, f, g, rfl, ha, hb, hc, he, hf, hg⟩, ?_⟩
      rw [← times]
      simpa only [Option.bind_eq_bind, Option.bind_eq_some_iff] using h
    · cases h
  · rintro ⟨d, ho, mi, se, ⟨a, b, c, e, f, g, rfl, ha, hb, hc, he, hf, hg⟩, h⟩
    rw [← times] at h
    unfold parseDate
    rw [(parseYear_iff (hd _ _ (by decide))).2 ⟨a, rfl, ha⟩]
    simp only [Option.bind_eq_bind, Option.bind_some, literal_cons]
    rw [(parseField_iff (hd _ _ (by decide))).2 ⟨b, rfl, hb⟩]
    simp only [Option.bind_some, literal_cons]
    rw [(parseField_iff (hd _ _ (by decide))).2 ⟨c, rfl, hc⟩]
    simp only [Option.bind_some, literal_cons]
    rw [(parseField_iff (hd _ _ (by decide))).2 ⟨e, rfl, he⟩]
    simp only [Option.bind_some, literal_cons]
    rw [(parseField_iff (hd _ _ (by decide))).2 ⟨f, rfl, hf⟩]
    simp only [Option.bind_some, literal_cons]
    rw [(parseField_iff (hd _ _ (by decide))).2 ⟨g, rfl, hg⟩]
    simp only [Option.bind_some, literal_cons, List.isEmpty_nil, if_true]
    exact h

/-- **C80.** A time of the second 60 is written as the second 59, so that what is read back is earlier. -/
theorem C80_second_60 (d : Date) (hour minute : Nat) (t : Time) (hd : DayExists d) (h1 : 0 ≤ d.year)
    (h2 : d.year ≤ 9999) (h3 : hour < 24) (h4 : minute < 60)
    (h : SecondOf (t - 1000000000) d hour minute 59) :
    parseDate (dateText d hour minute 60) = some t ∧ formatDate t = dateText d hour minute 59 ∧
      parseDate (formatDate t) = some (t - 1000000000) := by
  obtain ⟨n, hn⟩ := Option.isSome_iff_exists.1 ((dayOfDate_exists d).2 hd)
  have hm : d.month < 100 := by have := hd.2.1; omega
  have hday : d.day < 100 := by
    have h5 := hd.2.2.2.1
    have : monthLength d.year d.month ≤ 31 := by
      unfold monthLength
      split <;> (try split) <;> omega
    omega
  have hsec := (secondOf_iff hn h3 h4 (show 59 < 60 by decide) _).1 h
  have hread : ∀ sec < 100, parseDate (dateText d hour minute sec) =
      (timeOfDay hour minute sec).map fun u => n * 86400 * second + u := by
    intro sec hs
    rw [text_eq h1 h2 hm hday (by omega) (by omega) hs, parseDate_text h2 hm hday (by omega) (by omega) hs]
    show (match dayOfDate d, timeOfDay hour minute sec with
        | some n, some t => some (n * 86400 * second + t)
        | _, _ => none) = _
    rw [hn]
    cases timeOfDay hour minute sec <;> rfl
  have hw : formatDate t = dateText d hour minute 59 := by
    have e : t / second = (t - 1000000000) / second := by
      obtain ⟨k, hk⟩ := h.2.1
      have : second = 2000000000 := rfl
      rw [this] at hk ⊢
      omega
    have e2 : formatDate t = formatDate (t - 1000000000) := by
      unfold formatDate
      rw [e]
    obtain ⟨a, b, c, ha, hb, hc, h5, h6⟩ := C80_text (t - 1000000000) (by rw [h.1]; exact h1) (by rw [h.1]; exact h2)
    rw [e2, h6, h.1]
    have h7 := h.2.2
    rw [h5] at h7
    obtain ⟨rfl, rfl, rfl⟩ : a = hour ∧ b = minute ∧ c = 59 := by omega
    rfl
  refine ⟨?_, hw, ?_⟩
  · rw [hread 60 (by decide)]
    unfold timeOfDay
    rw [if_neg (by omega), if_pos ⟨h3, h4, rfl⟩]
    simp only [Option.map_some, Option.some.injEq]
    omega
  · rw [hw, hread 59 (by decide)]
    unfold timeOfDay
    rw [if_pos ⟨h3, h4, by decide⟩, hsec]
    rfl

-- The leap second at the end of 2016 is read, and it is written as the second before it. White space
-- and single digits are read as well; text after the date is not.
example : parseDate "2016-12-31T23:59:60Z".toList =
      (parseDate "2016-12-31T23:59:59Z".toList).map (· + 1000000000) ∧
    (parseDate "2016-12-31T23:59:60Z".toList).map formatDate = some "2016-12-31T23:59:59Z".toList ∧
    (parseDate " 2016-\t1- 2T3:4:5Z".toList).map formatDate = some "2016-01-02T03:04:05Z".toList ∧
    (parseDate "+2016-1-2T3:4:5Z".toList).map formatDate = some "2016-01-02T03:04:05Z".toList ∧
    parseDate "2016-12-31T23:59:59Z ".toList = none := by
  decide +kernel

end RustTuf.Props
