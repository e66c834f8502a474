import Verif.Model.Shims

/-!
# The JSON reader always finishes, with a value or an encoding error
-/

namespace RustTuf

/-- A reader that leaves less than `n` characters or fails with an encoding error. -/
def Eats {α : Type} (n : Nat) : Except Err (α × Str) → Prop
  | .ok (_, r) => r.length < n
  | .error e => e = .encoding

theorem skipWs_length (s : Str) : (skipWs s).length ≤ s.length := by
  induction s with
  | nil => exact Nat.le_refl _
  | cons c s ih =>
    unfold skipWs
    split
    · exact Nat.le_succ_of_le ih
    · exact Nat.le_refl _

theorem stripPrefix_length {p s r : Str} (h : stripPrefix p s = some r) : r.length ≤ s.length := by
  induction p generalizing s with
  | nil => cases h; exact Nat.le_refl _
  | cons c p ih =>
    cases s with
    | nil => cases h
    | cons d s =>
      unfold stripPrefix at h
      split at h
      · exact Nat.le_succ_of_le (ih h)
      · cases h

theorem hex4_length {s r : Str} {n : Nat} (h : hex4 s = some (n, r)) : r.length ≤ s.length := by
  unfold hex4 at h
  split at h
  · split at h
    · cases h; simp only [List.length_cons]; omega
    · cases h
  · cases h

theorem unescapeU_eats (s : Str) : Eats (s.length + 1) (unescapeU s) := by
  unfold unescapeU
  split
  · rfl
  · rename_i n s1 h1
    have := hex4_length h1
    split
    · rfl
    · split
      · split
        · rfl
        · rename_i s2 h2
          have := stripPrefix_length h2
          split
          · rfl
          · rename_i n2 s3 h3
            have := hex4_length h3
            split
            · show s3.length < s.length + 1
              omega
            · rfl
      · show s1.length < s.length + 1
        omega

theorem strStep_eats (s : Str) : Eats s.length (strStep s) := by
  cases s with
  | nil => rfl
  | cons c s =>
    have key : ∀ {α : Type} (a : α) (r : Str), r.length ≤ s.length →
        Eats (List.length (c :: s)) (.ok (a, r) : Except Err (α × Str)) := by
      intro α a r h
      show r.length < _
      simp only [List.length_cons]
      omega
    simp only [strStep]
    split
    · exact key _ _ (Nat.le_refl _)
    split
    · cases s with
      | nil => rfl
      | cons e s =>
        have key' : ∀ a, Eats (List.length (c :: e :: s)) (.ok (a, s) : Except Err (Option Char × Str)) :=
          fun a => key a s (by simp)
        dsimp only
        have hu := unescapeU_eats s
        repeat' (first | exact key' _ | rfl | split)
        · rename_i hx
          rw [hx] at hu
          exact hu
        · rename_i hx
          rw [hx] at hu
          refine key _ _ ?_
          simp only [List.length_cons]
          exact Nat.le_of_lt hu
    split
    · rfl
    · exact key _ _ (Nat.le_refl _)

theorem parseStrBody_eats : ∀ (fuel : Nat) (s : Str), s.length < fuel → Eats s.length (parseStrBody fuel s)
  | 0, s, h => by omega
  | fuel + 1, s, h => by
    have h1 := strStep_eats s
    unfold parseStrBody
    split
    · rename_i he; rw [he] at h1; exact h1
    · rename_i he; rw [he] at h1; exact h1
    · rename_i c r he
      rw [he] at h1
      have h1 : r.length < s.length := h1
      have h2 := parseStrBody_eats fuel r (by omega)
      split
      · rename_i he2; rw [he2] at h2; exact h2
      · rename_i t r2 he2
        rw [he2] at h2
        have h2 : r2.length < r.length := h2
        show r2.length < s.length
        omega

theorem parseStr_eats (s : Str) : Eats s.length (parseStr s) :=
  parseStrBody_eats _ s (Nat.lt_succ_self _)

theorem spanDigits_length (s : Str) : (spanDigits s).1.length + (spanDigits s).2.length = s.length := by
  induction s with
  | nil => rfl
  | cons c s ih =>
    unfold spanDigits
    split
    · simp only [List.length_cons]; omega
    · simp only [List.length_cons, List.length_nil]; omega

theorem numberTail_eats (s : Str) : Eats (s.length + 1) (numberTail s) := by
  unfold numberTail
  have hf : ∀ frac : Except Err (Str × Str), Eats (s.length + 1) frac →
      Eats (s.length + 1) (match frac with
        | .error e => .error e
        | .ok (f, s) =>
          match s with
          | c :: r =>
            if c = 'e' ∨ c = 'E' then
              let (sign, r) : Str × Str :=
                match r with
                | d :: r' => if d = '+' ∨ d = '-' then ([d], r') else ([], r)
                | [] => ([], [])
              if (spanDigits r).1.isEmpty then .error .encoding
              else .ok (f ++ c :: sign ++ (spanDigits r).1, (spanDigits r).2)
            else .ok (f, s)
          | [] => .ok (f, s) : Except Err (Str × Str)) := by
    intro frac h
    cases frac with
    | error e => exact h
    | ok x =>
      obtain ⟨f, s1⟩ := x
      have h : s1.length < s.length + 1 := h
      cases s1 with
      | nil => exact h
      | cons c r =>
        have hc : r.length + 1 < s.length + 1 := h
        have fin : ∀ (sg r' : Str), r'.length ≤ r.length → Eats (s.length + 1)
            (if (spanDigits r').1.isEmpty then .error .encoding
              else .ok (f ++ c :: sg ++ (spanDigits r').1, (spanDigits r').2) : Except Err (Str × Str)) := by
          intro sg r' hr
          split
          · rfl
          · show (spanDigits r').2.length < s.length + 1
            have := spanDigits_length r'
            omega
        dsimp only
        split
        · cases r with
          | nil => exact fin _ _ (Nat.le_refl _)
          | cons d r' =>
            by_cases hd : d = '+' ∨ d = '-'
            · simp only [hd, if_true]
              exact fin [d] r' (by simp)
            · simp only [hd, if_false]
              exact fin [] (d :: r') (Nat.le_refl _)
        · exact h
  refine hf _ ?_
  split
  · rename_i r
    split
    · rfl
    · show (spanDigits r).2.length < _
      have := spanDigits_length r
      simp only [List.length_cons]
      omega
  · exact Nat.lt_succ_self _

theorem parseNumber_eats (L : FloatLib) (neg : Bool) (s : Str) : Eats s.length (parseNumber L neg s) := by
  unfold parseNumber
  dsimp only
  split
  · rfl
  · rename_i hd
    have hpos : 0 < (spanDigits s).1.length := by
      cases h : (spanDigits s).1 with
      | nil => exact absurd (.inl (by rw [h]; rfl)) hd
      | cons => exact Nat.succ_pos _
    have h1 := spanDigits_length s
    have h2 := numberTail_eats (spanDigits s).2
    split
    · rename_i he; rw [he] at h2; exact h2
    · rename_i tail r he
      rw [he] at h2
      have h2 : r.length < (spanDigits s).2.length + 1 := h2
      have fin : ∀ j : Json, Eats s.length (.ok (j, r)) := fun j => by
        show r.length < s.length
        omega
      repeat' (first | exact fin _ | rfl | split)

theorem parse_eats (L : FloatLib) : ∀ fuel : Nat,
    (∀ d s, 2 * s.length < fuel → Eats s.length (parseValue L fuel d s)) ∧
    (∀ d s, 2 * s.length + 1 < fuel → Eats s.length (parseElems L fuel d s)) ∧
    (∀ d s, 2 * s.length + 1 < fuel → Eats s.length (parseMembers L fuel d s))
  | 0 => ⟨fun _ _ h => by omega, fun _ _ h => by omega, fun _ _ h => by omega⟩
  | fuel + 1 => by
    obtain ⟨hV, hE, hM⟩ := parse_eats L fuel
    refine ⟨fun d s h => ?_, fun d s h => ?_, fun d s h => ?_⟩
    · have hs := skipWs_length s
      unfold parseValue
      split
      · rfl
      · rename_i c r hw
        rw [hw, List.length_cons] at hs
        have fin : ∀ (j : Json) (r' : Str), r'.length ≤ r.length → Eats s.length (.ok (j, r')) :=
          fun j r' hr => by show r'.length < s.length; omega
        have lit : ∀ (p : Str) (j : Json), Eats s.length
            (match stripPrefix p r with
              | none => .error .encoding
              | some r => .ok (j, r) : Except Err (Json × Str)) := by
          intro p j
          split
          · rfl
          · rename_i hp; exact fin _ _ (stripPrefix_length hp)
        split
        · exact lit _ _
        split
        · exact lit _ _
        split
        · exact lit _ _
        split
        · have h1 := parseStr_eats r
          split
          · rename_i he; rw [he] at h1; exact h1
          · rename_i he
            rw [he] at h1
            exact fin _ _ (Nat.le_of_lt h1)
        split
        · have hr := skipWs_length r
          split
          · rfl
          split
          · rename_i hw2
            rw [hw2, List.length_cons] at hr
            exact fin _ _ (by omega)
          · have h1 := hE (d - 1) (skipWs r) (by omega)
            split
            · rename_i he; rw [he] at h1; exact h1
            · rename_i l r2 he
              rw [he] at h1
              have h1 : r2.length < (skipWs r).length := h1
              exact fin _ _ (by omega)
        split
        · have hr := skipWs_length r
          split
          · rfl
          split
          · rename_i hw2
            rw [hw2, List.length_cons] at hr
            exact fin _ _ (by omega)
          · have h1 := hM (d - 1) (skipWs r) (by omega)
            split
            · rename_i he; rw [he] at h1; exact h1
            · rename_i l r2 he
              rw [he] at h1
              have h1 : r2.length < (skipWs r).length := h1
              exact fin _ _ (by omega)
        split
        · have h1 := parseNumber_eats L true r
          cases hp : parseNumber L true r with
          | error e => rw [hp] at h1; exact h1
          | ok x =>
            rw [hp] at h1
            have h1 : x.2.length < r.length := h1
            exact fin _ _ (Nat.le_of_lt h1)
        split
        · have h1 := parseNumber_eats L false (c :: r)
          cases hp : parseNumber L false (c :: r) with
          | error e => rw [hp] at h1; exact h1
          | ok x =>
            rw [hp] at h1
            have h1 : x.2.length < (c :: r).length := h1
            rw [List.length_cons] at h1
            exact fin _ _ (by omega)
        · rfl
    · have h1 := hV d s (by omega)
      unfold parseElems
      split
      · rename_i he; rw [he] at h1; exact h1
      · rename_i v r he
        rw [he] at h1
        have h1 : r.length < s.length := h1
        have hr := skipWs_length r
        split
        · rename_i r2 hw
          rw [hw, List.length_cons] at hr
          show r2.length < s.length
          omega
        · rename_i r2 hw
          rw [hw, List.length_cons] at hr
          have h2 := hE d r2 (by omega)
          split
          · rename_i he2; rw [he2] at h2; exact h2
          · rename_i l r3 he2
            rw [he2] at h2
            have h2 : r3.length < r2.length := h2
            show r3.length < s.length
            omega
        · rfl
    · have hs := skipWs_length s
      unfold parseMembers
      split
      · rename_i r hw
        rw [hw, List.length_cons] at hs
        have h1 := parseStr_eats r
        split
        · rename_i he; rw [he] at h1; exact h1
        · rename_i k r1 he
          rw [he] at h1
          have h1 : r1.length < r.length := h1
          have hr1 := skipWs_length r1
          split
          · rename_i r2 hw2
            rw [hw2, List.length_cons] at hr1
            have h2 := hV d r2 (by omega)
            split
            · rename_i he2; rw [he2] at h2; exact h2
            · rename_i v r3 he2
              rw [he2] at h2
              have h2 : r3.length < r2.length := h2
              have hr3 := skipWs_length r3
              split
              · rename_i r4 hw4
                rw [hw4, List.length_cons] at hr3
                show r4.length < s.length
                omega
              · rename_i r4 hw4
                rw [hw4, List.length_cons] at hr3
                have h4 := hM d r4 (by omega)
                split
                · rename_i he4; rw [he4] at h4; exact h4
                · rename_i m r5 he4
                  rw [he4] at h4
                  have h4 : r5.length < r4.length := h4
                  show r5.length < s.length
                  omega
              · rfl
          · rfl
      · rfl

/-- Reading a text gives a value or an encoding error. -/
theorem parseText_error {L : FloatLib} {s : Str} {e : Err} (h : parseText L s = .error e) :
    e = .encoding := by
  have h1 := (parse_eats L (2 * s.length + 2)).1 128 s (by omega)
  unfold parseText at h
  split at h
  · rename_i he
    rw [he] at h1
    cases h
    exact h1
  · split at h <;> cases h
    rfl

theorem parseJson_error {L : FloatLib} {b : Bytes} {e : Err} (h : parseJson L b = .error e) :
    e = .encoding := by
  unfold parseJson at h
  split at h
  · cases h; rfl
  · exact parseText_error h

theorem fromSlice_error {α : Type} {L : FloatLib} {f : Json → Option α} {b : Bytes} {e : Err}
    (h : fromSlice L f b = .error e) : e = .encoding := by
  unfold fromSlice at h
  split at h
  · rename_i he
    cases h
    exact parseJson_error he
  · split at h <;> cases h
    rfl

namespace Json
mutual
theorem convert_error : ∀ {v : Json} {e : Err}, convert v = .error e → e = .opaqueErr
  | .null, _, h | .bool _, _, h | .str _, _, h => by simp [convert] at h
  | .float _, _, h => by simp [convert] at h; exact h.symm
  | .int i, _, h => by
    unfold convert at h
    split at h <;> cases h
    rfl
  | .arr l, _, h => by
    unfold convert at h
    split at h
    · rename_i he; cases h; exact convertL_error he
    · cases h
  | .obj m, _, h => by
    unfold convert at h
    split at h
    · rename_i he; cases h; exact convertM_error he
    · cases h
theorem convertL_error : ∀ {l : List Json} {e : Err}, convertL l = .error e → e = .opaqueErr
  | [], _, h => by simp [convertL] at h
  | v :: l, _, h => by
    unfold convertL at h
    split at h
    · rename_i he; cases h; exact convert_error he
    · split at h
      · rename_i he; cases h; exact convertL_error he
      · cases h
theorem convertM_error : ∀ {m : List (Str × Json)} {e : Err}, convertM m = .error e → e = .opaqueErr
  | [], _, h => by simp [convertM] at h
  | (k, v) :: m, _, h => by
    unfold convertM at h
    split at h
    · rename_i he; cases h; exact convert_error he
    · split at h
      · rename_i he; cases h; exact convertM_error he
      · cases h
end

theorem canonicalize_error {v : Json} {e : Err} (h : canonicalize v = .error e) : e = .opaqueErr := by
  unfold canonicalize canonicalText at h
  split at h
  · rename_i he
    split at he
    · rename_i hc
      cases he; cases h
      exact convert_error hc
    · cases he
  · cases h

end Json

end RustTuf
