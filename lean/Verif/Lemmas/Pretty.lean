import Verif.Model.Pretty
import Verif.Props.Cjson
import Verif.Spec.Layout

/-!
# Pretty-printed JSON
-/

namespace RustTuf.Props
open Spec RustTuf Json

theorem skipWs_spaces (n : Nat) (s : Str) : skipWs (List.replicate n ' ' ++ s) = skipWs s := by
  induction n with
  | zero => rfl
  | succ n ih =>
    rw [List.replicate_succ, List.cons_append, skipWs, if_pos (Or.inl rfl), ih]

theorem skipWs_newline (n : Nat) (s : Str) : skipWs (newline n ++ s) = skipWs s := by
  rw [newline, List.cons_append, skipWs, if_pos (Or.inr (Or.inl rfl)), skipWs_spaces]

theorem squeeze_spaces (n : Nat) (s : Str) :
    squeeze false (List.replicate n ' ' ++ s) = squeeze false s := by
  induction n with
  | zero => rfl
  | succ n ih =>
    rw [List.replicate_succ, List.cons_append, squeeze, if_pos (Or.inl rfl), ih]

theorem squeeze_newline (n : Nat) (s : Str) : squeeze false (newline n ++ s) = squeeze false s := by
  rw [newline, List.cons_append, squeeze, if_pos (Or.inr (Or.inl rfl)), squeeze_spaces]

theorem squeeze_keep {c : Char} (s : Str) (h1 : c ≠ ' ') (h2 : c ≠ '\n') (h3 : c ≠ '\t')
    (h4 : c ≠ '\r') (h5 : c ≠ '"') : squeeze false (c :: s) = c :: squeeze false s := by
  rw [squeeze, if_neg (by simp [h1, h2, h3, h4]), if_neg h5]

theorem squeeze_digits (ds s : Str) (h : ∀ c ∈ ds, isDigit c = true) :
    squeeze false (ds ++ s) = ds ++ squeeze false s := by
  induction ds with
  | nil => rfl
  | cons c ds ih =>
    have hc := h c (by simp)
    have hne : ∀ x : Char, isDigit x = false → c ≠ x := by
      rintro x hx rfl
      rw [hc] at hx; cases hx
    rw [List.cons_append, squeeze_keep _ (hne _ (by decide)) (hne _ (by decide)) (hne _ (by decide))
      (hne _ (by decide)) (hne _ (by decide)), ih fun c hc => h c (by simp [hc]), List.cons_append]

theorem squeeze_in_keep {c : Char} (s : Str) (hs : s ≠ []) (h1 : c ≠ '\\') (h2 : c ≠ '"') :
    squeeze true (c :: s) = c :: squeeze true s := by
  cases s with
  | nil => exact absurd rfl hs
  | cons d s => rw [squeeze, if_neg h1, if_neg h2]

theorem squeeze_in_escape (d : Char) (s : Str) :
    squeeze true ('\\' :: d :: s) = '\\' :: d :: squeeze true s := by
  rw [squeeze, if_pos rfl]

theorem hexDigit_plain : ∀ n < 16, hexDigit n ≠ '\\' ∧ hexDigit n ≠ '"' := by decide

theorem squeeze_escape (c : Char) (s : Str) (hs : s ≠ []) :
    squeeze true (escapeChar c ++ s) = escapeChar c ++ squeeze true s := by
  unfold escapeChar
  repeat' split
  · exact squeeze_in_escape _ _
  · exact squeeze_in_escape _ _
  · exact squeeze_in_escape _ _
  · exact squeeze_in_escape _ _
  · exact squeeze_in_escape _ _
  · exact squeeze_in_escape _ _
  · exact squeeze_in_escape _ _
  · rename_i h
    simp only [List.cons_append, List.nil_append]
    obtain ⟨a1, a2⟩ := hexDigit_plain (c.toNat / 16) (by omega)
    obtain ⟨b1, b2⟩ := hexDigit_plain (c.toNat % 16) (by omega)
    rw [squeeze_in_escape, squeeze_in_keep _ (by simp) (by decide) (by decide),
      squeeze_in_keep _ (by simp) (by decide) (by decide), squeeze_in_keep _ (by simp) a1 a2,
      squeeze_in_keep _ hs b1 b2]
  · rename_i h1 h2 _ _ _ _ _ _
    exact squeeze_in_keep s hs (by rintro rfl; exact h2 (by decide)) (by rintro rfl; exact h1 (by decide))

theorem squeeze_body (t s : Str) :
    squeeze true (writeStrBody t ++ '"' :: s) = writeStrBody t ++ '"' :: squeeze false s := by
  induction t with
  | nil =>
    cases s with
    | nil => simp [writeStrBody, squeeze]
    | cons d s => simp [writeStrBody, squeeze]
  | cons c t ih =>
    rw [writeStrBody, List.append_assoc, squeeze_escape _ _ (by simp), ih, List.append_assoc]

theorem squeeze_str (t s : Str) : squeeze false (writeStr t ++ s) = writeStr t ++ squeeze false s := by
  have : squeeze false (writeStr t ++ s) = '"' :: squeeze true (writeStrBody t ++ '"' :: s) := by
    rw [writeStr, List.cons_append, squeeze, if_neg (by decide), if_pos rfl]
    simp
  rw [this, squeeze_body]
  simp [writeStr]

theorem squeeze_int (i : Int) (s : Str) :
    squeeze false (writeInt i ++ s) = writeInt i ++ squeeze false s := by
  unfold writeInt
  split
  · rw [List.cons_append, squeeze_keep _ (by decide) (by decide) (by decide) (by decide) (by decide),
      squeeze_digits _ _ (isDigit_decimal _), List.cons_append]
  · exact squeeze_digits _ _ (isDigit_decimal _)

mutual
theorem squeeze_pretty (fl : Nat → Str) : ∀ (v : Json) (i : Nat) (s : Str), Canon v →
    squeeze false (pretty fl i v ++ s) = write v ++ squeeze false s
  | .null, _, _, _ => rfl
  | .bool true, _, _, _ => rfl
  | .bool false, _, _, _ => rfl
  | .int i, _, s, _ => by simp only [pretty, write]; exact squeeze_int i s
  | .float _, _, _, h => absurd h (by simp [Canon])
  | .str t, _, s, _ => by simp only [pretty, write]; exact squeeze_str t s
  | .arr l, i, s, h => by
    simp only [Canon] at h
    simp only [pretty, write, List.cons_append, List.append_assoc, List.nil_append]
    rw [squeeze_keep _ (by decide) (by decide) (by decide) (by decide) (by decide),
      squeeze_prettyL fl l (i + 1) true _ h]
    congr 2
    have : squeeze false (']' :: s) = ']' :: squeeze false s :=
      squeeze_keep _ (by decide) (by decide) (by decide) (by decide) (by decide)
    split
    · exact this
    · rw [squeeze_newline, this]
  | .obj m, i, s, h => by
    simp only [Canon] at h
    simp only [pretty, write, List.cons_append, List.append_assoc, List.nil_append]
    rw [squeeze_keep _ (by decide) (by decide) (by decide) (by decide) (by decide),
      squeeze_prettyM fl m (i + 1) true _ h.2]
    congr 2
    have : squeeze false ('}' :: s) = '}' :: squeeze false s :=
      squeeze_keep _ (by decide) (by decide) (by decide) (by decide) (by decide)
    split
    · exact this
    · rw [squeeze_newline, this]
theorem squeeze_prettyL (fl : Nat → Str) : ∀ (l : List Json) (i : Nat) (b : Bool) (s : Str), CanonL l →
    squeeze false (prettyL fl i b l ++ s) = writeL b l ++ squeeze false s
  | [], _, _, _, _ => by simp [prettyL, writeL]
  | v :: l, i, b, s, h => by
    simp only [CanonL] at h
    have e : squeeze false (newline i ++ (pretty fl i v ++ (prettyL fl i false l ++ s))) =
        write v ++ (writeL false l ++ squeeze false s) := by
      rw [squeeze_newline, squeeze_pretty fl v i _ h.1, squeeze_prettyL fl l i false s h.2]
    cases b with
    | true =>
      simp only [prettyL, writeL, if_true, List.nil_append, List.append_assoc]
      exact e
    | false =>
      simp only [prettyL, writeL, List.append_assoc, Bool.false_eq_true, if_false, List.cons_append,
        List.nil_append]
      rw [squeeze_keep _ (by decide) (by decide) (by decide) (by decide) (by decide), e]
theorem squeeze_prettyM (fl : Nat → Str) : ∀ (m : List (Str × Json)) (i : Nat) (b : Bool) (s : Str),
    CanonM m → squeeze false (prettyM fl i b m ++ s) = writeM b m ++ squeeze false s
  | [], _, _, _, _ => by simp [prettyM, writeM]
  | (k, v) :: m, i, b, s, h => by
    simp only [CanonM] at h
    have e : squeeze false (newline i ++ (writeStr k ++ ':' :: ' ' :: (pretty fl i v ++
        (prettyM fl i false m ++ s)))) =
        writeStr k ++ ':' :: (write v ++ (writeM false m ++ squeeze false s)) := by
      rw [squeeze_newline, squeeze_str,
        squeeze_keep _ (by decide) (by decide) (by decide) (by decide) (by decide), squeeze,
        if_pos (Or.inl rfl), squeeze_pretty fl v i _ h.1, squeeze_prettyM fl m i false s h.2]
    cases b with
    | true =>
      simp only [prettyM, writeM, if_true, List.nil_append, List.append_assoc, List.cons_append]
      exact e
    | false =>
      simp only [prettyM, writeM, List.append_assoc, Bool.false_eq_true, if_false, List.cons_append,
        List.nil_append]
      rw [squeeze_keep _ (by decide) (by decide) (by decide) (by decide) (by decide), e]
end

/-! ### Reading -/

theorem parseValue_newline (L : FloatLib) (fuel d n : Nat) (s : Str) :
    parseValue L fuel d (newline n ++ s) = parseValue L fuel d s := by
  cases fuel with
  | zero => rfl
  | succ fuel => rw [parseValue, parseValue, skipWs_newline]

theorem parseValue_space (L : FloatLib) (fuel d : Nat) (s : Str) :
    parseValue L fuel d (' ' :: s) = parseValue L fuel d s := by
  cases fuel with
  | zero => rfl
  | succ fuel => rw [parseValue, parseValue]; rfl

theorem parseElems_newline (L : FloatLib) (fuel d n : Nat) (s : Str) :
    parseElems L fuel d (newline n ++ s) = parseElems L fuel d s := by
  cases fuel with
  | zero => rfl
  | succ fuel => rw [parseElems, parseElems, parseValue_newline]

theorem parseMembers_newline (L : FloatLib) (fuel d n : Nat) (s : Str) :
    parseMembers L fuel d (newline n ++ s) = parseMembers L fuel d s := by
  cases fuel with
  | zero => rfl
  | succ fuel => rw [parseMembers, parseMembers, skipWs_newline]

theorem endsNumber_newline (n : Nat) (s : Str) : EndsNumber (newline n ++ s) :=
  endsNumber_cons _ (by decide) (by decide) (by decide) (by decide)

theorem pretty_cons (fl : Nat → Str) (i : Nat) (v : Json) (h : Canon v) :
    ∃ c t, pretty fl i v = c :: t ∧ Starts c := by
  cases v with
  | null => exact ⟨'n', _, rfl, .inl rfl⟩
  | bool b =>
    cases b with
    | false => exact ⟨'f', _, rfl, .inr (.inr (.inl rfl))⟩
    | true => exact ⟨'t', _, rfl, .inr (.inl rfl)⟩
  | int j => rw [pretty]; exact write_cons (.int j) h
  | float b => exact absurd h (by simp [Canon])
  | str s => rw [pretty]; exact write_cons (.str s) h
  | arr l => exact ⟨'[', _, by simp only [pretty]; rfl, by simp [Starts]⟩
  | obj m => exact ⟨'{', _, by simp only [pretty]; rfl, by simp [Starts]⟩

theorem skipWs_pretty (fl : Nat → Str) (i : Nat) (v : Json) (h : Canon v) (s : Str) :
    skipWs (pretty fl i v ++ s) = pretty fl i v ++ s := by
  obtain ⟨c, t, h1, h2⟩ := pretty_cons fl i v h
  rw [h1]
  exact skipWs_starts _ h2

theorem prettyL_true (fl : Nat → Str) (i : Nat) (v : Json) (l : List Json) :
    prettyL fl i true (v :: l) = newline i ++ (pretty fl i v ++ prettyL fl i false l) := by
  simp [prettyL]

theorem prettyL_false (fl : Nat → Str) (i : Nat) (v : Json) (l : List Json) :
    prettyL fl i false (v :: l) = ',' :: prettyL fl i true (v :: l) := by
  simp [prettyL]

theorem prettyM_true (fl : Nat → Str) (i : Nat) (k : Str) (v : Json) (m : List (Str × Json)) :
    prettyM fl i true ((k, v) :: m) =
      newline i ++ '"' :: (writeStrBody k ++ '"' :: ':' :: ' ' :: (pretty fl i v ++ prettyM fl i false m)) := by
  simp [prettyM, writeStr]

theorem prettyM_false (fl : Nat → Str) (i : Nat) (p : Str × Json) (m : List (Str × Json)) :
    prettyM fl i false (p :: m) = ',' :: prettyM fl i true (p :: m) := by
  obtain ⟨k, v⟩ := p
  simp [prettyM]

mutual
/-- Reading pretty-printed text gives back the value. -/
theorem parseValue_pretty (L : FloatLib) (fl : Nat → Str) : ∀ (v : Json) (i fuel d : Nat) (s : Str),
    Canon v → cost v ≤ fuel → depth v < d → EndsNumber s →
    parseValue L fuel d (pretty fl i v ++ s) = .ok (v, s)
  | v, _, 0, d, s, _, hf, _, _ => by cases v <;> simp [cost] at hf
  | .null, _, fuel + 1, d, s, hc, hf, hd, hs => parseValue_write L .null (fuel + 1) d s hc hf hd hs
  | .bool true, _, fuel + 1, d, s, hc, hf, hd, hs =>
    parseValue_write L (.bool true) (fuel + 1) d s hc hf hd hs
  | .bool false, _, fuel + 1, d, s, hc, hf, hd, hs =>
    parseValue_write L (.bool false) (fuel + 1) d s hc hf hd hs
  | .float _, _, _, _, _, hc, _, _, _ => absurd hc (by simp [Canon])
  | .int i, _, fuel + 1, d, s, hc, hf, hd, hs => by
    have := parseValue_write L (.int i) (fuel + 1) d s hc hf hd hs
    rw [write] at this
    rw [pretty]; exact this
  | .str t, _, fuel + 1, d, s, hc, hf, hd, hs => by
    have := parseValue_write L (.str t) (fuel + 1) d s hc hf hd hs
    rw [write] at this
    rw [pretty]; exact this
  | .arr [], _, fuel + 1, d, s, _, hf, hd, _ => by
    simp only [pretty, prettyL, List.cons_append, List.nil_append, List.isEmpty_nil, if_true]
    rw [parseValue_bracket, if_neg (by simp only [depth] at hd; omega)]
    rfl
  | .arr (v :: l), i, fuel + 1, d, s, hc, hf, hd, _ => by
    simp only [pretty, List.cons_append, List.append_assoc, List.nil_append, List.isEmpty_cons,
      Bool.false_eq_true, if_false]
    simp only [depth] at hd
    rw [parseValue_bracket, if_neg (by omega)]
    simp only [Canon] at hc
    have hcv : Canon v := by simp only [CanonL] at hc; exact hc.1
    have hp := parseElems_pretty L fl v l (i + 1) i fuel (d - 1) s hc
      (by simp only [cost] at hf; omega) (by omega)
    rw [prettyL_true, List.append_assoc, parseElems_newline] at hp
    rw [prettyL_true, List.append_assoc, skipWs_newline, List.append_assoc, skipWs_pretty fl _ v hcv]
    rw [List.append_assoc] at hp
    obtain ⟨c, t, h1, h2⟩ := pretty_cons fl (i + 1) v hcv
    split
    · rename_i h
      rw [h1, List.cons_append] at h
      exact absurd (List.cons.inj h).1 (starts_ne h2 (by decide) (by decide))
    · rw [hp]
  | .obj [], _, fuel + 1, d, s, _, hf, hd, _ => by
    simp only [pretty, prettyM, List.cons_append, List.nil_append, List.isEmpty_nil, if_true]
    rw [parseValue_brace, if_neg (by simp only [depth] at hd; omega)]
    rfl
  | .obj ((k, v) :: m), i, fuel + 1, d, s, hc, hf, hd, _ => by
    simp only [pretty, List.cons_append, List.append_assoc, List.nil_append, List.isEmpty_cons,
      Bool.false_eq_true, if_false]
    simp only [depth] at hd
    rw [parseValue_brace, if_neg (by omega)]
    simp only [Canon] at hc
    have hp := parseMembers_pretty L fl (k, v) m (i + 1) i fuel (d - 1) s hc.2
      (by simp only [cost] at hf; omega) (by omega)
    rw [prettyM_true, List.append_assoc, parseMembers_newline] at hp
    rw [prettyM_true, List.append_assoc, skipWs_newline]
    rw [List.cons_append] at hp ⊢
    rw [skipWs_starts _ (by simp [Starts])]
    split
    · rename_i h
      exact absurd (List.cons.inj h).1 (by decide)
    · rw [hp]
termination_by structural _ _ fuel => fuel
theorem parseElems_pretty (L : FloatLib) (fl : Nat → Str) : ∀ (v : Json) (l : List Json)
    (i j fuel d : Nat) (s : Str), CanonL (v :: l) → costL (v :: l) ≤ fuel → depthL (v :: l) < d →
    parseElems L fuel d (prettyL fl i true (v :: l) ++ (newline j ++ ']' :: s)) = .ok (v :: l, s)
  | v, l, _, _, 0, d, s, _, hf, _ => by simp [costL] at hf
  | v, [], i, j, fuel + 1, d, s, hc, hf, hd => by
    rw [prettyL_true, List.append_assoc, parseElems_newline]
    simp only [prettyL, List.append_nil]
    simp only [CanonL, costL, depthL] at hc hf hd
    rw [parseElems, parseValue_pretty L fl v i fuel d _ hc.1 (by omega) (by omega)
      (endsNumber_newline j _)]
    simp only [skipWs_newline]
    rfl
  | v, w :: l, i, j, fuel + 1, d, s, hc, hf, hd => by
    have hc1 : Canon v := by simp only [CanonL] at hc; exact hc.1
    have hc2 : CanonL (w :: l) := by simp only [CanonL] at hc ⊢; exact hc.2
    have hf1 : cost v + costL (w :: l) + 1 ≤ fuel + 1 := by
      simp only [costL] at hf ⊢; omega
    have hd1 : depth v < d ∧ depthL (w :: l) < d := by
      simp only [depthL] at hd ⊢; omega
    rw [prettyL_true, List.append_assoc, parseElems_newline, prettyL_false, List.append_assoc,
      List.cons_append, parseElems, parseValue_pretty L fl v i fuel d _ hc1 (by omega) hd1.1
        (endsNumber_comma _)]
    show (match parseElems L fuel d (prettyL fl i true (w :: l) ++ (newline j ++ ']' :: s)) with
      | .error e => Except.error e
      | .ok (l, r) => Except.ok (v :: l, r)) = _
    rw [parseElems_pretty L fl w l i j fuel d s hc2 (by omega) hd1.2]
termination_by structural _ _ _ _ fuel => fuel
theorem parseMembers_pretty (L : FloatLib) (fl : Nat → Str) : ∀ (p : Str × Json)
    (m : List (Str × Json)) (i j fuel d : Nat) (s : Str), CanonM (p :: m) → costM (p :: m) ≤ fuel →
    depthM (p :: m) < d →
    parseMembers L fuel d (prettyM fl i true (p :: m) ++ (newline j ++ '}' :: s)) = .ok (p :: m, s)
  | p, m, _, _, 0, d, s, _, hf, _ => by simp [costM] at hf
  | (k, v), [], i, j, fuel + 1, d, s, hc, hf, hd => by
    simp only [CanonM, costM, depthM] at hc hf hd
    rw [prettyM_true, List.append_assoc, parseMembers_newline]
    have e : '"' :: (writeStrBody k ++ '"' :: ':' :: ' ' :: (pretty fl i v ++ prettyM fl i false [])) ++
        (newline j ++ '}' :: s) = '"' :: (writeStrBody k ++ '"' :: ':' :: ' ' :: (pretty fl i v ++
          (newline j ++ '}' :: s))) := by
      simp [prettyM]
    rw [e, parseMembers_quote, parseStr_write, membersAfterKey, parseValue_space,
      parseValue_pretty L fl v i fuel d _ hc.1 (by omega) (by omega) (endsNumber_newline j _)]
    simp only [skipWs_newline]
    rfl
  | (k, v), q :: m, i, j, fuel + 1, d, s, hc, hf, hd => by
    have hc1 : Canon v := by simp only [CanonM] at hc; exact hc.1
    have hc2 : CanonM (q :: m) := by simp only [CanonM] at hc ⊢; exact hc.2
    have hf1 : cost v + costM (q :: m) + 1 ≤ fuel + 1 := by
      simp only [costM] at hf ⊢; omega
    have hd1 : depth v < d ∧ depthM (q :: m) < d := by
      simp only [depthM] at hd ⊢; omega
    rw [prettyM_true, List.append_assoc, parseMembers_newline]
    have e : '"' :: (writeStrBody k ++ '"' :: ':' :: ' ' :: (pretty fl i v ++
        prettyM fl i false (q :: m))) ++ (newline j ++ '}' :: s) =
        '"' :: (writeStrBody k ++ '"' :: ':' :: ' ' :: (pretty fl i v ++ ',' ::
          (prettyM fl i true (q :: m) ++ (newline j ++ '}' :: s)))) := by
      rw [prettyM_false]; simp
    rw [e, parseMembers_quote, parseStr_write, membersAfterKey, parseValue_space,
      parseValue_pretty L fl v i fuel d _ hc1 (by omega) hd1.1 (endsNumber_comma _)]
    show (match parseMembers L fuel d (prettyM fl i true (q :: m) ++ (newline j ++ '}' :: s)) with
      | .error e => Except.error e
      | .ok (m, r) => Except.ok ((k, v) :: m, r)) = _
    rw [parseMembers_pretty L fl q m i j fuel d s hc2 (by omega) hd1.2]
termination_by structural _ _ _ _ fuel => fuel
end

/-! ### Length -/

theorem squeeze_sublist (b : Bool) (s : Str) : (squeeze b s).Sublist s := by
  fun_induction squeeze b s with
  | case1 => exact List.Sublist.refl _
  | case2 c s h ih => exact ih.cons _
  | case3 s h ih => exact ih.cons_cons _
  | case4 c s h1 h2 ih => exact ih.cons_cons _
  | case5 c => exact List.Sublist.refl _
  | case6 d s ih => exact (ih.cons_cons _).cons_cons _
  | case7 d s h ih => exact ih.cons_cons _
  | case8 c d s h1 h2 ih => exact ih.cons_cons _

theorem utf8_append (a b : Str) : utf8 (a ++ b) = utf8 a ++ utf8 b := by
  simp [utf8]

theorem utf8_sublist {a b : Str} (h : a.Sublist b) : (utf8 a).length ≤ (utf8 b).length := by
  induction h with
  | slnil => exact Nat.le_refl _
  | cons c h ih =>
    rename_i l₁ l₂
    have : utf8 (c :: l₂) = utf8 [c] ++ utf8 l₂ := utf8_append [c] l₂
    rw [this, List.length_append]; omega
  | cons_cons c h ih =>
    rename_i l₁ l₂
    have e1 : utf8 (c :: l₂) = utf8 [c] ++ utf8 l₂ := utf8_append [c] l₂
    have e2 : utf8 (c :: l₁) = utf8 [c] ++ utf8 l₁ := utf8_append [c] l₁
    rw [e1, e2, List.length_append, List.length_append]; omega

theorem pretty_longer (fl : Nat → Str) (i : Nat) (p : Str × Json) (m : List (Str × Json))
    (h : Canon (.obj (p :: m))) :
    (utf8 (write (.obj (p :: m)))).length < (utf8 (pretty fl i (.obj (p :: m)))).length := by
  have e := squeeze_pretty fl (.obj (p :: m)) i [] h
  obtain ⟨k, v⟩ := p
  obtain ⟨t, ht⟩ : ∃ t, pretty fl i (.obj ((k, v) :: m)) = ['{', '\n'] ++ t := by
    refine ⟨_, by simp only [pretty, prettyM_true, newline, List.cons_append, List.append_assoc,
      List.nil_append]; rfl⟩
  rw [List.append_nil, squeeze, List.append_nil, ht] at e
  have e2 : squeeze false (['{', '\n'] ++ t) = ['{'] ++ squeeze false t := by
    rw [List.cons_append, squeeze_keep _ (by decide) (by decide) (by decide) (by decide) (by decide),
      List.cons_append, squeeze, if_pos (Or.inr (Or.inl rfl))]
    rfl
  rw [e2] at e
  rw [← e, ht, utf8_append, utf8_append, List.length_append, List.length_append]
  have h1 : (utf8 ['{']).length = 1 := by decide
  have h2 : (utf8 ['{', '\n']).length = 2 := by decide
  have := utf8_sublist (squeeze_sublist false t)
  omega

theorem cost_prettyLength (fl : Nat → Str) : ∀ (v : Json) (i : Nat), Canon v →
    cost v + 1 ≤ 2 * (pretty fl i v).length := by
  intro v i h
  have := cost_length v h
  have e := squeeze_pretty fl v i [] h
  rw [List.append_nil, squeeze, List.append_nil] at e
  have := (squeeze_sublist false (pretty fl i v)).length_le
  rw [e] at this
  omega

theorem parseText_pretty (L : FloatLib) (fl : Nat → Str) (v : Json) (h : Canon v) (hd : depth v < 128) :
    parseText L (pretty fl 0 v) = .ok v := by
  have h1 := parseValue_pretty L fl v 0 (2 * (pretty fl 0 v).length + 2) 128 [] h
    (by have := cost_prettyLength fl v 0 h; omega) hd endsNumber_nil
  rw [List.append_nil] at h1
  unfold parseText
  rw [h1]
  rfl

end RustTuf.Props
