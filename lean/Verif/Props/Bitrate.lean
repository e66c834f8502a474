import Verif.Model.Bitrate
import Verif.Spec.Bitrate
import Mathlib.Tactic.Linarith
import Mathlib.Tactic.NormNum
import Mathlib.Tactic.Positivity
import Mathlib.Tactic.FieldSimp
import Mathlib.Tactic.Ring

/-! C50 Minimum bitrate enforcement. -/

namespace RustTuf
open Spec

/-! ### Rounding error -/

theorem roundEven_error (x : ℚ) : |(roundEven x : ℚ) - x| ≤ 1 / 2 := by
  have h1 := Int.floor_le x
  have h2 := Int.lt_floor_add_one x
  unfold roundEven
  simp only
  rw [abs_le]
  split
  · constructor <;> linarith
  · split
    · push_cast; constructor <;> linarith
    · split
      · constructor <;> linarith
      · push_cast; constructor <;> linarith

/-- Unit roundoff of binary32. -/
def ru : ℚ := 1 / 16777216

theorem f32_error {q : ℚ} (hq : 0 ≤ q) : |f32 q - q| ≤ q * ru := by
  unfold f32
  split
  · rename_i h; subst h; simp
  · rename_i h
    have hpos : 0 < q := lt_of_le_of_ne hq (Ne.symm h)
    simp only
    have hu : (0 : ℚ) < 2 ^ (Int.log 2 q - 23) := zpow_pos (by norm_num) _
    have he := roundEven_error (q / 2 ^ (Int.log 2 q - 23))
    have hlog := Int.zpow_log_le_self (b := 2) (by norm_num) hpos
    have hlog : (2 : ℚ) ^ Int.log 2 q ≤ q := by exact_mod_cast hlog
    have e1 : (roundEven (q / 2 ^ (Int.log 2 q - 23)) : ℚ) * 2 ^ (Int.log 2 q - 23) - q =
        ((roundEven (q / 2 ^ (Int.log 2 q - 23)) : ℚ) - q / 2 ^ (Int.log 2 q - 23)) *
          2 ^ (Int.log 2 q - 23) := by
      rw [sub_mul, div_mul_cancel₀ _ hu.ne']
    rw [e1, abs_mul, abs_of_pos hu]
    have e2 : (2 : ℚ) ^ (Int.log 2 q - 23) = 2 ^ Int.log 2 q / 8388608 := by
      rw [zpow_sub₀ (by norm_num)]; norm_num
    calc _ ≤ (1 / 2 : ℚ) * 2 ^ (Int.log 2 q - 23) := mul_le_mul_of_nonneg_right he hu.le
      _ = (1 / 2 : ℚ) * (2 ^ Int.log 2 q / 8388608) := by rw [e2]
      _ ≤ (1 / 2 : ℚ) * (q / 8388608) := by
            apply mul_le_mul_of_nonneg_left _ (by norm_num)
            exact div_le_div_of_nonneg_right hlog (by norm_num)
      _ = q * ru := by unfold ru; ring

theorem f32_lo {q : ℚ} (hq : 0 ≤ q) : q * (1 - ru) ≤ f32 q := by
  have := (abs_le.1 (f32_error hq)).1; linarith

theorem f32_hi {q : ℚ} (hq : 0 ≤ q) : f32 q ≤ q * (1 + ru) := by
  have := (abs_le.1 (f32_error hq)).2; linarith

theorem ru_pos : 0 < ru := by unfold ru; norm_num
theorem ru_lt : ru < 1 := by unfold ru; norm_num

theorem f32_nonneg {q : ℚ} (hq : 0 ≤ q) : 0 ≤ f32 q :=
  le_trans (mul_nonneg hq (by have := ru_lt; linarith)) (f32_lo hq)

theorem f32_giga : f32 ((1000000000 : Nat) : ℚ) = 1000000000 := by
  have hlog : Int.log 2 (((1000000000 : Nat) : ℚ)) = 29 := by
    rw [Int.log_natCast, (Nat.log_eq_iff (b := 2) (m := 29) (n := 1000000000) (by norm_num)).2 (by norm_num)]
    rfl
  unfold f32
  rw [if_neg (by norm_num), hlog]
  unfold roundEven
  have : ((1000000000 : Nat) : ℚ) / 2 ^ ((29 : ℤ) - 23) = (15625000 : ℤ) := by norm_num
  simp only [this, Int.floor_intCast, sub_self]
  norm_num

theorem asSecs_bounds (ns : Nat) :
    secs ns * (1 - ru) ^ 3 ≤ asSecsF32 ns ∧ asSecsF32 ns ≤ secs ns * (1 + ru) ^ 3 := by
  have hr0 := ru_pos
  have hr1 := ru_lt
  have esecs : secs ns = ((ns / 1000000000 : Nat) : ℚ) + ((ns % 1000000000 : Nat) : ℚ) / 1000000000 := by
    have := Nat.div_add_mod ns 1000000000
    unfold secs
    rw [div_eq_iff (by norm_num), add_mul, div_mul_cancel₀ _ (by norm_num)]
    exact_mod_cast (by omega : ns = ns / 1000000000 * 1000000000 + ns % 1000000000)
  unfold asSecsF32
  rw [f32_giga, esecs]
  generalize hs : ((ns / 1000000000 : Nat) : ℚ) = s
  generalize hn : ((ns % 1000000000 : Nat) : ℚ) = n
  have hs0 : 0 ≤ s := by rw [← hs]; positivity
  have hn0 : 0 ≤ n := by rw [← hn]; positivity
  have s1 := f32_lo hs0
  have s2 := f32_hi hs0
  have n1 := f32_lo hn0
  have n2 := f32_hi hn0
  have n0 := f32_nonneg hn0
  have hm0 : 0 ≤ f32 n / 1000000000 := by positivity
  have m1 := f32_lo hm0
  have m2 := f32_hi hm0
  have hm := f32_nonneg hm0
  have hsf := f32_nonneg hs0
  have t1 := f32_lo (add_nonneg hsf hm)
  have t2 := f32_hi (add_nonneg hsf hm)
  generalize f32 (f32 s + f32 (f32 n / 1000000000)) = t at *
  generalize f32 (f32 n / 1000000000) = m at *
  generalize f32 n = n' at *
  generalize f32 s = s' at *
  have lo : n / 1000000000 * (1 - ru) ^ 2 ≤ m := by
    calc n / 1000000000 * (1 - ru) ^ 2 = (n * (1 - ru)) / 1000000000 * (1 - ru) := by ring
      _ ≤ n' / 1000000000 * (1 - ru) := by
          apply mul_le_mul_of_nonneg_right _ (by linarith)
          exact div_le_div_of_nonneg_right n1 (by norm_num)
      _ ≤ m := m1
  have hi : m ≤ n / 1000000000 * (1 + ru) ^ 2 := by
    calc m ≤ n' / 1000000000 * (1 + ru) := m2
      _ ≤ (n * (1 + ru)) / 1000000000 * (1 + ru) := by
          apply mul_le_mul_of_nonneg_right _ (by linarith)
          exact div_le_div_of_nonneg_right n2 (by norm_num)
      _ = n / 1000000000 * (1 + ru) ^ 2 := by ring
  have slo : s * (1 - ru) ^ 2 ≤ s' := by
    refine le_trans ?_ s1
    apply mul_le_mul_of_nonneg_left _ hs0
    nlinarith
  have shi : s' ≤ s * (1 + ru) ^ 2 := by
    refine le_trans s2 ?_
    apply mul_le_mul_of_nonneg_left _ hs0
    nlinarith
  constructor
  · calc (s + n / 1000000000) * (1 - ru) ^ 3
        = (s * (1 - ru) ^ 2 + n / 1000000000 * (1 - ru) ^ 2) * (1 - ru) := by ring
      _ ≤ (s' + m) * (1 - ru) := by
          apply mul_le_mul_of_nonneg_right _ (by linarith); linarith
      _ ≤ t := t1
  · calc t ≤ (s' + m) * (1 + ru) := t2
      _ ≤ (s * (1 + ru) ^ 2 + n / 1000000000 * (1 + ru) ^ 2) * (1 + ru) := by
          apply mul_le_mul_of_nonneg_right _ (by linarith); linarith
      _ = (s + n / 1000000000) * (1 + ru) ^ 3 := by ring

/-- The relative tolerance: 2^-21. -/
def tol : ℚ := 1 / 2097152

theorem tooSlow_true {bytes ns min : Nat} (hns : 0 < ns) (h : tooSlow bytes ns min = true) :
    (bytes : ℚ) * (1 - tol) < min * secs ns := by
  have hr0 := ru_pos
  have hr1 := ru_lt
  have hd : 0 < secs ns := by unfold secs; positivity
  obtain ⟨d1, d2⟩ := asSecs_bounds ns
  have hr : 0 < 1 - ru := by linarith
  have hd' : 0 < asSecsF32 ns := lt_of_lt_of_le (by positivity) d1
  unfold tooSlow at h
  rw [decide_eq_true_eq] at h
  have hb0 : (0 : ℚ) ≤ bytes := by positivity
  have hm0 : (0 : ℚ) ≤ min := by positivity
  have b1 := f32_lo hb0
  have b0 := f32_nonneg hb0
  have q1 := f32_lo (div_nonneg b0 hd'.le)
  have m2 := f32_hi hm0
  have key : f32 (bytes : ℚ) / asSecsF32 ns * (1 - ru) < min * (1 + ru) := by linarith
  have key2 : f32 (bytes : ℚ) * (1 - ru) < min * (1 + ru) * asSecsF32 ns := by
    have := mul_lt_mul_of_pos_right key hd'
    calc f32 (bytes : ℚ) * (1 - ru) = f32 (bytes : ℚ) / asSecsF32 ns * (1 - ru) * asSecsF32 ns := by
          field_simp
      _ < _ := this
  have key3 : (bytes : ℚ) * (1 - ru) ^ 2 < min * secs ns * (1 + ru) ^ 4 := by
    calc (bytes : ℚ) * (1 - ru) ^ 2 = bytes * (1 - ru) * (1 - ru) := by ring
      _ ≤ f32 (bytes : ℚ) * (1 - ru) := mul_le_mul_of_nonneg_right b1 (by linarith)
      _ < min * (1 + ru) * asSecsF32 ns := key2
      _ ≤ min * (1 + ru) * (secs ns * (1 + ru) ^ 3) := by
          apply mul_le_mul_of_nonneg_left d2; positivity
      _ = min * secs ns * (1 + ru) ^ 4 := by ring
  have c : (1 - tol) * (1 + ru) ^ 4 ≤ (1 - ru) ^ 2 := by unfold tol ru; norm_num
  have hp : 0 < (1 + ru) ^ 4 := by positivity
  have : (bytes : ℚ) * (1 - tol) * (1 + ru) ^ 4 < min * secs ns * (1 + ru) ^ 4 := by
    calc (bytes : ℚ) * (1 - tol) * (1 + ru) ^ 4 = bytes * ((1 - tol) * (1 + ru) ^ 4) := by ring
      _ ≤ bytes * (1 - ru) ^ 2 := mul_le_mul_of_nonneg_left c hb0
      _ < _ := key3
  exact lt_of_mul_lt_mul_right this hp.le

theorem tooSlow_false {bytes ns min : Nat} (hns : 0 < ns) (h : tooSlow bytes ns min = false) :
    (min : ℚ) * secs ns ≤ bytes * (1 + tol) := by
  have hr0 := ru_pos
  have hr1 := ru_lt
  have hd : 0 < secs ns := by unfold secs; positivity
  obtain ⟨d1, d2⟩ := asSecs_bounds ns
  have hr : 0 < 1 - ru := by linarith
  have hd' : 0 < asSecsF32 ns := lt_of_lt_of_le (by positivity) d1
  unfold tooSlow at h
  rw [decide_eq_false_iff_not, not_lt] at h
  have hb0 : (0 : ℚ) ≤ bytes := by positivity
  have hm0 : (0 : ℚ) ≤ min := by positivity
  have b2 := f32_hi hb0
  have b0 := f32_nonneg hb0
  have q2 := f32_hi (div_nonneg b0 hd'.le)
  have m1 := f32_lo hm0
  have key : min * (1 - ru) ≤ f32 (bytes : ℚ) / asSecsF32 ns * (1 + ru) := by linarith
  have key2 : min * (1 - ru) * asSecsF32 ns ≤ f32 (bytes : ℚ) * (1 + ru) := by
    have := mul_le_mul_of_nonneg_right key hd'.le
    calc _ ≤ _ := this
      _ = f32 (bytes : ℚ) * (1 + ru) := by field_simp
  have key3 : min * secs ns * (1 - ru) ^ 4 ≤ (bytes : ℚ) * (1 + ru) ^ 2 := by
    calc min * secs ns * (1 - ru) ^ 4 = min * (1 - ru) * (secs ns * (1 - ru) ^ 3) := by ring
      _ ≤ min * (1 - ru) * asSecsF32 ns := by
          apply mul_le_mul_of_nonneg_left d1; positivity
      _ ≤ f32 (bytes : ℚ) * (1 + ru) := key2
      _ ≤ bytes * (1 + ru) * (1 + ru) := mul_le_mul_of_nonneg_right b2 (by linarith)
      _ = (bytes : ℚ) * (1 + ru) ^ 2 := by ring
  have c : (1 + ru) ^ 2 ≤ (1 + tol) * (1 - ru) ^ 4 := by unfold tol ru; norm_num
  have hp : 0 < (1 - ru) ^ 4 := by positivity
  have : (min : ℚ) * secs ns * (1 - ru) ^ 4 ≤ bytes * (1 + tol) * (1 - ru) ^ 4 := by
    calc _ ≤ (bytes : ℚ) * (1 + ru) ^ 2 := key3
      _ ≤ bytes * ((1 + tol) * (1 - ru) ^ 4) := mul_le_mul_of_nonneg_left c hb0
      _ = _ := by ring
  exact le_of_mul_le_mul_right this hp

/-! ### The state of the adapter -/

theorem Bitrate.run_state (polls : List (Ev × Nat × Nat)) : ∀ b : Bitrate,
    (b.run polls).2 = ⟨b.min, b.start.or (began polls), b.bytesRead + received polls⟩ := by
  induction polls with
  | nil => intro b; simp [Bitrate.run, began, received]
  | cons p polls ih =>
    obtain ⟨ev, t1, t2⟩ := p
    intro b
    unfold Bitrate.run
    simp only [ih]
    cases ev with
    | pending => simp [Bitrate.poll, began, received]
    | err k => simp [Bitrate.poll, began, received]
    | data bs =>
      simp only [Bitrate.poll, began, received]
      cases b.start with
      | none =>
        split
        · rename_i h; subst h; simp
        · split
          · split <;> simp <;> omega
          · simp; omega
      | some t =>
        split
        · rename_i h; subst h; simp
        · split
          · split <;> simp <;> omega
          · simp; omega

/-- The result of the next poll after a history, for a fresh adapter. -/
def Bitrate.next (min : Nat) (history : List (Ev × Nat × Nat)) (ev : Ev) (t1 t2 : Nat) : Ev :=
  (((Bitrate.new min).run history).2.poll ev t1 t2).1

theorem Bitrate.next_data (min : Nat) (history : List (Ev × Nat × Nat)) (bs : Bytes) (t1 t2 : Nat)
    (hne : bs ≠ []) :
    Bitrate.next min history (.data bs) t1 t2 =
      if graceNs ≤ t2 - (began history).getD t1 ∧
        tooSlow (received history + bs.length) (t2 - (began history).getD t1) min = true
      then .err .timedOut else .data bs := by
  unfold Bitrate.next
  rw [Bitrate.run_state]
  simp only [Bitrate.new, Bitrate.poll, if_neg hne, Option.none_or, Nat.zero_add]
  split
  · split <;> simp_all
  · simp_all

/-! ## C50 -/

/-- A read that delivers data is aborted only if at least 30 seconds have passed since the first
read returned and the average rate is below the minimum, up to a relative rounding error of 2^-21
of the binary32 arithmetic. Otherwise the data is passed on unchanged. -/
theorem C50_aborted_only_if_slow (min : Nat) (history : List (Ev × Nat × Nat)) (bs : Bytes)
    (hne : bs ≠ []) (t1 t2 : Nat) :
    Bitrate.next min history (.data bs) t1 t2 = .data bs ∨
    (Bitrate.next min history (.data bs) t1 t2 = .err .timedOut ∧
      30 ≤ secs (t2 - (began history).getD t1) ∧
      ((received history + bs.length : Nat) : ℚ) * (1 - 1 / 2097152) <
        min * secs (t2 - (began history).getD t1)) := by
  rw [Bitrate.next_data min history bs t1 t2 hne]
  split
  · rename_i h
    refine .inr ⟨rfl, ?_, ?_⟩
    · unfold secs
      rw [le_div_iff₀ (by norm_num)]
      have : (30000000000 : ℚ) ≤ ((t2 - (began history).getD t1 : Nat) : ℚ) := by
        have := h.1; unfold graceNs at this; exact_mod_cast this
      linarith
    · have := tooSlow_true (by have := h.1; unfold graceNs at this; omega) h.2
      exact this
  · exact .inl rfl

/-- A transfer at or above the minimum rate plus the rounding tolerance is never aborted. Missing
for the full claim: rates within 2^-21 of the minimum, where the full claim is false, see
`C50_rounding_can_abort`. -/
theorem C50_fast_enough_passes_partial (min : Nat) (history : List (Ev × Nat × Nat)) (bs : Bytes)
    (hne : bs ≠ []) (t1 t2 : Nat)
    (hfast : (min : ℚ) * secs (t2 - (began history).getD t1) ≤
      ((received history + bs.length : Nat) : ℚ) * (1 - 1 / 2097152)) :
    Bitrate.next min history (.data bs) t1 t2 = .data bs := by
  rcases C50_aborted_only_if_slow min history bs hne t1 t2 with h | ⟨_, _, h⟩
  · exact h
  · exact absurd hfast (not_le.2 h)

/-- A transfer clearly below the minimum is aborted at the first read that returns data after the
grace period. -/
theorem C50_slow_is_aborted (min : Nat) (history : List (Ev × Nat × Nat)) (bs : Bytes)
    (hne : bs ≠ []) (t1 t2 : Nat) (hgrace : 30000000000 ≤ t2 - (began history).getD t1)
    (hslow : ((received history + bs.length : Nat) : ℚ) * (1 + 1 / 2097152) <
      min * secs (t2 - (began history).getD t1)) :
    Bitrate.next min history (.data bs) t1 t2 = .err .timedOut := by
  rw [Bitrate.next_data min history bs t1 t2 hne]
  rw [if_pos]
  refine ⟨hgrace, ?_⟩
  cases h : tooSlow (received history + bs.length) (t2 - (began history).getD t1) min with
  | true => rfl
  | false => exact absurd (tooSlow_false (by omega) h) (not_le.2 hslow)

/-- At the boundary the rounding matters: 96139 bytes in 67.042537775 seconds are (slightly) more
than 1434 bytes per second, but the transfer is aborted. -/
theorem C50_rounding_can_abort :
    (1434 : ℚ) * secs 67042537775 ≤ 96139 ∧
    ∀ bs : Bytes, bs.length = 96138 →
      Bitrate.next 1434 [(.data [0], 0, 0)] (.data bs) 67042537775 67042537775 = .err .timedOut := by
  constructor
  · unfold secs; norm_num
  · intro bs hbs
    rw [Bitrate.next_data _ _ _ _ _ (by rintro rfl; simp at hbs), if_pos]
    simp only [began, received, hbs, Option.getD_some]
    exact ⟨by decide, by decide +kernel⟩

/-- Everything else passes unchanged: the end, errors and pending polls of the source. In particular
a transfer that stalls completely (only pending polls) is never aborted by this adapter, however
long it takes. -/
theorem C50_other_events_pass (min : Nat) (history : List (Ev × Nat × Nat)) (ev : Ev) (t1 t2 : Nat)
    (h : ∀ bs, ev = .data bs → bs = []) : Bitrate.next min history ev t1 t2 = ev := by
  unfold Bitrate.next Bitrate.poll
  cases ev with
  | pending => rfl
  | err k => rfl
  | data bs => simp [h bs rfl]

/-- Non-trivial instances: a slow transfer with a stalled poll in between, and a fast one. -/
example : Bitrate.next 100 [(.pending, 0, 0), (.data [1], 5, 6), (.pending, 7, 8)] (.data [2, 3]) 9
      40000000000 = .err .timedOut ∧
    Bitrate.next 0 [(.data [1], 5, 6)] (.data [2, 3]) 9 40000000000 = .data [2, 3] ∧
    Bitrate.next 100 [(.data [1], 5, 6)] (.data [2, 3]) 9 30000000004 = .data [2, 3] := by
  decide +kernel

end RustTuf
