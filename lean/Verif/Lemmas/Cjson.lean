import Mathlib.Tactic.IntervalCases
import Verif.Lemmas.Paths
import Verif.Lemmas.StrOrder
import Verif.Model.Cjson

/-!
# Reading what `canonicalize` writes
-/

namespace RustTuf

/-! ### Strings -/

theorem char_eq_of_toNat {a b : Char} (h : a.toNat = b.toNat) : a = b := by
  apply Char.ext; apply UInt32.toNat.inj; exact h

theorem hexVal_hexDigit : ∀ n < 16, hexVal (hexDigit n) = some n := by decide

theorem hexVal_zero : hexVal '0' = some 0 := by decide

theorem strStep_escape (c : Char) (s : Str) : strStep (escapeChar c ++ s) = .ok (some c, s) := by
  unfold escapeChar
  split
  · rename_i h
    rw [char_eq_of_toNat (a := c) (b := '"') h]
    rfl
  split
  · rename_i h
    rw [char_eq_of_toNat (a := c) (b := '\\') h]
    rfl
  split
  · rename_i h
    rw [char_eq_of_toNat (a := c) (b := Char.ofNat 8) h]
    rfl
  split
  · rename_i h
    rw [char_eq_of_toNat (a := c) (b := Char.ofNat 12) h]
    rfl
  split
  · rename_i h
    rw [char_eq_of_toNat (a := c) (b := Char.ofNat 10) h]
    rfl
  split
  · rename_i h
    rw [char_eq_of_toNat (a := c) (b := Char.ofNat 13) h]
    rfl
  split
  · rename_i h
    rw [char_eq_of_toNat (a := c) (b := Char.ofNat 9) h]
    rfl
  split
  · rename_i h
    have hx : hex4 ('0' :: '0' :: hexDigit (c.toNat / 16) :: hexDigit (c.toNat % 16) :: s) =
        some (c.toNat, s) := by
      simp only [hex4, hexVal_zero, hexVal_hexDigit _ (show c.toNat / 16 < 16 by omega),
        hexVal_hexDigit _ (show c.toNat % 16 < 16 by omega)]
      congr 2
      omega
    have hu : unescapeU ('0' :: '0' :: hexDigit (c.toNat / 16) :: hexDigit (c.toNat % 16) :: s) =
        .ok (c, s) := by
      unfold unescapeU
      rw [hx]
      dsimp only
      rw [if_neg (by omega), if_neg (by omega), Char.ofNat_toNat]
    show strStep ('\\' :: 'u' :: '0' :: '0' :: hexDigit (c.toNat / 16) ::
      hexDigit (c.toNat % 16) :: s) = _
    have : strStep ('\\' :: 'u' :: '0' :: '0' :: hexDigit (c.toNat / 16) ::
      hexDigit (c.toNat % 16) :: s) = (match unescapeU ('0' :: '0' :: hexDigit (c.toNat / 16) ::
      hexDigit (c.toNat % 16) :: s) with
          | .error x => .error x
          | .ok (c, s) => .ok (some c, s)) := rfl
    rw [this, hu]
  · rename_i h1 h2 _ _ _ _ _ h3
    show strStep (c :: s) = _
    simp only [strStep]
    rw [if_neg h1, if_neg h2, if_neg h3]

theorem parseStrBody_write (t s : Str) (fuel : Nat) (h : t.length < fuel) :
    parseStrBody fuel (writeStrBody t ++ '"' :: s) = .ok (t, s) := by
  induction t generalizing fuel with
  | nil =>
    obtain ⟨f, rfl⟩ : ∃ f, fuel = f + 1 := ⟨fuel - 1, by simp at h; omega⟩
    rfl
  | cons c t ih =>
    obtain ⟨f, rfl⟩ : ∃ f, fuel = f + 1 := ⟨fuel - 1, by simp at h; omega⟩
    simp only [writeStrBody, parseStrBody, List.append_assoc, strStep_escape]
    rw [ih f (by simp at h; omega)]

theorem escapeChar_length (c : Char) : 1 ≤ (escapeChar c).length := by
  unfold escapeChar
  repeat' split
  all_goals simp

theorem writeStrBody_length (t : Str) : t.length ≤ (writeStrBody t).length := by
  induction t with
  | nil => simp
  | cons c t ih =>
    have := escapeChar_length c
    simp only [writeStrBody, List.length_cons, List.length_append]
    omega

theorem parseStr_write (t s : Str) : parseStr (writeStrBody t ++ '"' :: s) = .ok (t, s) := by
  refine parseStrBody_write t s _ ?_
  have := writeStrBody_length t
  simp only [List.length_append, List.length_cons]
  omega

/-! ### Numbers -/

/-- A text after which a number ends. -/
def EndsNumber (s : Str) : Prop :=
  ∀ c ∈ s.head?, isDigit c = false ∧ c ≠ '.' ∧ c ≠ 'e' ∧ c ≠ 'E'

theorem isDigit_decimal (n : Nat) : ∀ c ∈ decimal n, isDigit c = true := by
  intro c hc
  have := decimal_chars n c hc
  simp [isDigit, this]

theorem spanDigits_append (ds s : Str) (h : ∀ c ∈ ds, isDigit c = true)
    (hs : ∀ c ∈ s.head?, isDigit c = false) : spanDigits (ds ++ s) = (ds, s) := by
  induction ds with
  | nil =>
    cases s with
    | nil => rfl
    | cons c s => simp [spanDigits, hs c (by simp)]
  | cons d ds ih =>
    simp [spanDigits, h d (by simp), ih (fun c hc => h c (by simp [hc]))]

theorem digitsVal_append (a b : Str) (acc : Nat) :
    digitsVal acc (a ++ b) = digitsVal (digitsVal acc a) b := by
  induction a generalizing acc with
  | nil => rfl
  | cons c a ih => exact ih _

theorem digitChar_toNat : ∀ d < 10, (digitChar d).toNat - 48 = d := by decide

theorem digitsVal_digits (fuel n : Nat) (h : n < fuel) :
    digitsVal 0 (((digitsRev fuel n).reverse).map digitChar) = n := by
  induction fuel generalizing n with
  | zero => omega
  | succ fuel ih =>
    unfold digitsRev
    split
    · rename_i hn
      have : 0 * 10 + ((digitChar n).toNat - 48) = n := by rw [digitChar_toNat n hn]; omega
      exact this
    · rw [List.reverse_cons, List.map_append, digitsVal_append, ih (n / 10) (by omega)]
      have : n / 10 * 10 + ((digitChar (n % 10)).toNat - 48) = n := by
        rw [digitChar_toNat _ (show n % 10 < 10 by omega)]; omega
      exact this

theorem digitsVal_decimal (n : Nat) : digitsVal 0 (decimal n) = n := digitsVal_digits _ _ (by omega)

theorem digitChar_zero : ∀ d < 10, digitChar d = '0' → d = 0 := by decide

theorem digitsRev_getLast (fuel n : Nat) (h : n < fuel) (h0 : (digitsRev fuel n).getLast? = some 0) :
    n = 0 := by
  induction fuel generalizing n with
  | zero => omega
  | succ fuel ih =>
    unfold digitsRev at h0
    split at h0
    · simpa using h0
    · exfalso
      have hne : digitsRev fuel (n / 10) ≠ [] := by
        obtain ⟨f, rfl⟩ : ∃ f, fuel = f + 1 := ⟨fuel - 1, by omega⟩
        unfold digitsRev
        split <;> simp
      rw [List.getLast?_cons_of_ne_nil hne] at h0
      have := ih (n / 10) (by omega) h0
      omega

/-- A decimal number starts with a zero only if it is zero. -/
theorem decimal_head (n : Nat) (h : (decimal n).head? = some '0') : (decimal n).length = 1 := by
  unfold decimal at h
  rw [List.head?_map, List.head?_reverse] at h
  cases hl : (digitsRev (n + 1) n).getLast? with
  | none => rw [hl] at h; simp at h
  | some d =>
    rw [hl] at h
    have hd : digitChar d = '0' := by simpa using h
    have := digitChar_zero d (digitsRev_lt _ _ _ (List.mem_of_getLast? hl)) hd
    subst this
    have := digitsRev_getLast _ _ (by omega) hl
    subst this
    rfl

theorem numberTail_end (s : Str) (h : EndsNumber s) : numberTail s = .ok ([], s) := by
  cases s with
  | nil => rfl
  | cons c s =>
    obtain ⟨_, h1, h2, h3⟩ := h c (by simp)
    unfold numberTail
    split
    · rename_i heq
      cases heq
      exact absurd rfl h1
    · simp [h2, h3]

theorem parseNumber_decimal (L : FloatLib) (neg : Bool) (n : Nat) (s : Str) (h : EndsNumber s)
    (hn : if neg then 0 < n ∧ n ≤ 9223372036854775808 else n ≤ 18446744073709551615) :
    parseNumber L neg (decimal n ++ s) = .ok (.int (if neg then -(n : Int) else n), s) := by
  unfold parseNumber
  rw [spanDigits_append _ _ (isDigit_decimal n) fun c hc => (h c hc).1]
  dsimp only
  rw [if_neg, numberTail_end s h, digitsVal_decimal]
  · cases neg with
    | false =>
      have hn : n ≤ 18446744073709551615 := by simpa using hn
      simp [hn]
    | true =>
      have hn : 0 < n ∧ n ≤ 9223372036854775808 := by simpa using hn
      simp [hn]
  · rintro (h1 | ⟨h1, h2⟩)
    · exact decimal_ne_nil n (by simpa using h1)
    · exact h2 (decimal_head n h1)

/-! ### Values -/

namespace Json

mutual
/-- Values as `convert` returns them. -/
def Canon : Json → Prop
  | .null => True
  | .bool _ => True
  | .int i => i64u64 i = true
  | .float _ => False
  | .str _ => True
  | .arr l => CanonL l
  | .obj m => Ascending m ∧ CanonM m
def CanonL : List Json → Prop
  | [] => True
  | v :: l => Canon v ∧ CanonL l
def CanonM : List (Str × Json) → Prop
  | [] => True
  | p :: m => Canon p.2 ∧ CanonM m
end

mutual
/-- Nesting of arrays and objects. -/
def depth : Json → Nat
  | .arr l => depthL l + 1
  | .obj m => depthM m + 1
  | _ => 0
def depthL : List Json → Nat
  | [] => 0
  | v :: l => max (depth v) (depthL l)
def depthM : List (Str × Json) → Nat
  | [] => 0
  | p :: m => max (depth p.2) (depthM m)
end

mutual
/-- Fuel that suffices to read a value. -/
def cost : Json → Nat
  | .arr l => costL l + 1
  | .obj m => costM m + 1
  | _ => 1
def costL : List Json → Nat
  | [] => 0
  | v :: l => cost v + costL l + 1
def costM : List (Str × Json) → Nat
  | [] => 0
  | p :: m => cost p.2 + costM m + 1
end

/-- Characters with which a value can start. -/
def Starts (c : Char) : Prop :=
  c = 'n' ∨ c = 't' ∨ c = 'f' ∨ c = '"' ∨ c = '[' ∨ c = '{' ∨ c = '-' ∨ isDigit c = true

theorem decimal_cons (n : Nat) : ∃ c t, decimal n = c :: t ∧ isDigit c = true := by
  cases h : decimal n with
  | nil => exact absurd h (decimal_ne_nil n)
  | cons c t => exact ⟨c, t, rfl, isDigit_decimal n c (by simp [h])⟩

theorem write_cons (v : Json) (h : Canon v) : ∃ c t, write v = c :: t ∧ Starts c := by
  cases v with
  | null => exact ⟨'n', _, rfl, .inl rfl⟩
  | bool b =>
    cases b with
    | false => exact ⟨'f', _, rfl, .inr (.inr (.inl rfl))⟩
    | true => exact ⟨'t', _, rfl, .inr (.inl rfl)⟩
  | int i =>
    unfold write writeInt
    split
    · exact ⟨'-', _, rfl, by simp [Starts]⟩
    · obtain ⟨c, t, h1, h2⟩ := decimal_cons i.natAbs
      exact ⟨c, t, h1, by simp [Starts, h2]⟩
  | float b => exact absurd h (by simp [Canon])
  | str s => exact ⟨'"', writeStrBody s ++ ['"'], by simp only [write, writeStr], by simp [Starts]⟩
  | arr l => exact ⟨'[', writeL true l ++ [']'], by simp only [write], by simp [Starts]⟩
  | obj m => exact ⟨'{', writeM true m ++ ['}'], by simp only [write], by simp [Starts]⟩

theorem skipWs_cons {c : Char} (s : Str) (h1 : c ≠ ' ') (h2 : c ≠ '\n') (h3 : c ≠ '\t')
    (h4 : c ≠ '\r') : skipWs (c :: s) = c :: s := by
  simp [skipWs, h1, h2, h3, h4]

theorem skipWs_starts {c : Char} (s : Str) (h : Starts c) : skipWs (c :: s) = c :: s := by
  rcases h with rfl | rfl | rfl | rfl | rfl | rfl | rfl | h
  any_goals rfl
  refine skipWs_cons s ?_ ?_ ?_ ?_ <;> rintro rfl <;> exact absurd h (by decide)

theorem skipWs_write (v : Json) (h : Canon v) (s : Str) : skipWs (write v ++ s) = write v ++ s := by
  obtain ⟨c, t, h1, h2⟩ := write_cons v h
  rw [h1]
  exact skipWs_starts _ h2

theorem endsNumber_cons {c : Char} (s : Str) (h0 : isDigit c = false) (h1 : c ≠ '.') (h2 : c ≠ 'e')
    (h3 : c ≠ 'E') : EndsNumber (c :: s) := by
  intro x hx
  simp only [List.head?_cons, Option.mem_def, Option.some.injEq] at hx
  subst hx
  exact ⟨h0, h1, h2, h3⟩

theorem endsNumber_bracket (s : Str) : EndsNumber (']' :: s) :=
  endsNumber_cons s (by decide) (by decide) (by decide) (by decide)
theorem endsNumber_brace (s : Str) : EndsNumber ('}' :: s) :=
  endsNumber_cons s (by decide) (by decide) (by decide) (by decide)
theorem endsNumber_comma (s : Str) : EndsNumber (',' :: s) :=
  endsNumber_cons s (by decide) (by decide) (by decide) (by decide)
theorem endsNumber_nil : EndsNumber [] := by intro c hc; simp at hc

theorem writeL_false (v : Json) (l : List Json) :
    writeL false (v :: l) = ',' :: writeL true (v :: l) := by
  simp [writeL]

theorem writeM_false (p : Str × Json) (m : List (Str × Json)) :
    writeM false (p :: m) = ',' :: writeM true (p :: m) := by
  obtain ⟨k, v⟩ := p
  simp [writeM]

theorem parseValue_bracket (L : FloatLib) (fuel d : Nat) (r : Str) :
    parseValue L (fuel + 1) d ('[' :: r) =
      if d ≤ 1 then .error .encoding else
        match skipWs r with
        | ']' :: r => .ok (.arr [], r)
        | r =>
          match parseElems L fuel (d - 1) r with
          | .error e => .error e
          | .ok (l, r) => .ok (.arr l, r) := rfl

theorem parseValue_brace (L : FloatLib) (fuel d : Nat) (r : Str) :
    parseValue L (fuel + 1) d ('{' :: r) =
      if d ≤ 1 then .error .encoding else
        match skipWs r with
        | '}' :: r => .ok (.obj [], r)
        | r =>
          match parseMembers L fuel (d - 1) r with
          | .error e => .error e
          | .ok (m, r) => .ok (.obj m, r) := rfl

theorem parseValue_quote (L : FloatLib) (fuel d : Nat) (r : Str) :
    parseValue L (fuel + 1) d ('"' :: r) =
      match parseStr r with
      | .error e => .error e
      | .ok (t, r) => .ok (.str t, r) := rfl

theorem parseValue_minus (L : FloatLib) (fuel d : Nat) (r : Str) :
    parseValue L (fuel + 1) d ('-' :: r) = parseNumber L true r := rfl

/-- What `parseMembers` does after a name. -/
def afterKey (L : FloatLib) (fuel depth : Nat) (k : Str) (r : Str) :
    Except Err (List (Str × Json) × Str) :=
  match skipWs r with
  | ':' :: r =>
    match parseValue L fuel depth r with
    | .error e => .error e
    | .ok (v, r) =>
      match skipWs r with
      | '}' :: r => .ok ([(k, v)], r)
      | ',' :: r =>
        match parseMembers L fuel depth r with
        | .error e => .error e
        | .ok (m, r) => .ok ((k, v) :: m, r)
      | _ => .error .encoding
  | _ => .error .encoding

theorem parseMembers_quote (L : FloatLib) (fuel d : Nat) (r : Str) :
    parseMembers L (fuel + 1) d ('"' :: r) =
      match parseStr r with
      | .error e => .error e
      | .ok (k, r) => afterKey L fuel d k r := rfl

theorem membersAfterKey (L : FloatLib) (fuel d : Nat) (k r : Str) :
    (match (Except.ok (k, ':' :: r) : Except Err (Str × Str)) with
      | .error e => Except.error e
      | .ok (k, r) => afterKey L fuel d k r) =
    match parseValue L fuel d r with
    | .error e => .error e
    | .ok (v, r) =>
      match skipWs r with
      | '}' :: r => .ok ([(k, v)], r)
      | ',' :: r =>
        match parseMembers L fuel d r with
        | .error e => .error e
        | .ok (m, r) => .ok ((k, v) :: m, r)
      | _ => .error .encoding := rfl

theorem parseValue_digit (L : FloatLib) (fuel d : Nat) (c : Char) (r : Str)
    (h : isDigit c = true) : parseValue L (fuel + 1) d (c :: r) = parseNumber L false (c :: r) := by
  have hne : ∀ x : Char, isDigit x = false → c ≠ x := by
    rintro x hx rfl
    rw [h] at hx; cases hx
  simp only [parseValue]
  rw [skipWs_cons r (hne _ (by decide)) (hne _ (by decide)) (hne _ (by decide))
    (hne _ (by decide))]
  dsimp only
  rw [if_neg (hne _ (by decide)), if_neg (hne _ (by decide)), if_neg (hne _ (by decide)),
    if_neg (hne _ (by decide)), if_neg (hne _ (by decide)), if_neg (hne _ (by decide)),
    if_neg (hne _ (by decide)), if_pos h]

theorem starts_ne {c x : Char} (h : Starts c) (h1 : isDigit x = false)
    (h2 : x ≠ 'n' ∧ x ≠ 't' ∧ x ≠ 'f' ∧ x ≠ '"' ∧ x ≠ '[' ∧ x ≠ '{' ∧ x ≠ '-') : c ≠ x := by
  rintro rfl
  obtain ⟨a1, a2, a3, a4, a5, a6, a7⟩ := h2
  rcases h with h | h | h | h | h | h | h | h
  · exact a1 h
  · exact a2 h
  · exact a3 h
  · exact a4 h
  · exact a5 h
  · exact a6 h
  · exact a7 h
  · rw [h1] at h; cases h

mutual
/-- Reading a canonical text gives back the value. -/
theorem parseValue_write (L : FloatLib) : ∀ (v : Json) (fuel d : Nat) (s : Str), Canon v →
    cost v ≤ fuel → depth v < d → EndsNumber s → parseValue L fuel d (write v ++ s) = .ok (v, s)
  | v, 0, d, s, _, hf, _, _ => by cases v <;> simp [cost] at hf
  | .null, fuel + 1, d, s, _, _, _, _ => rfl
  | .bool true, fuel + 1, d, s, _, _, _, _ => rfl
  | .bool false, fuel + 1, d, s, _, _, _, _ => rfl
  | .float _, _, _, _, hc, _, _, _ => absurd hc (by simp [Canon])
  | .int i, fuel + 1, d, s, hc, hf, hd, hs => by
    have hi : -9223372036854775808 ≤ i ∧ i ≤ 18446744073709551615 := by
      simpa [Canon, i64u64] using hc
    simp only [write, writeInt]
    split
    · rw [List.cons_append, parseValue_minus,
        parseNumber_decimal L true _ s hs (by rw [if_pos rfl]; omega)]
      have : -(i.natAbs : Int) = i := by omega
      rw [if_pos rfl, this]
    · obtain ⟨c, t, h1, h2⟩ := decimal_cons i.natAbs
      have := parseNumber_decimal L false i.natAbs s hs
        (by rw [if_neg (by decide)]; omega)
      rw [h1, List.cons_append] at this ⊢
      rw [parseValue_digit L fuel d c _ h2, this]
      have : (i.natAbs : Int) = i := by omega
      rw [if_neg (by decide), this]
  | .str t, fuel + 1, d, s, _, _, _, _ => by
    simp only [write, writeStr, List.cons_append, List.append_assoc, List.nil_append]
    rw [parseValue_quote, parseStr_write]
  | .arr [], fuel + 1, d, s, _, hf, hd, _ => by
    simp only [write, writeL, List.cons_append, List.nil_append]
    rw [parseValue_bracket, if_neg (by simp only [depth] at hd; omega)]
    rfl
  | .arr (v :: l), fuel + 1, d, s, hc, hf, hd, _ => by
    simp only [write, List.cons_append, List.append_assoc, List.nil_append]
    simp only [depth] at hd
    rw [parseValue_bracket, if_neg (by omega)]
    simp only [Canon] at hc
    have hcv : Canon v := by simp only [CanonL] at hc; exact hc.1
    have hw : skipWs (writeL true (v :: l) ++ ']' :: s) = writeL true (v :: l) ++ ']' :: s := by
      simp only [writeL, if_true, List.nil_append, List.append_assoc]
      exact skipWs_write v hcv _
    have hne : ∀ r, writeL true (v :: l) ++ ']' :: s ≠ ']' :: r := by
      intro r h
      obtain ⟨c, t, h1, h2⟩ := write_cons v hcv
      simp only [writeL, if_true, List.nil_append, List.append_assoc, h1, List.cons_append] at h
      exact starts_ne h2 (by decide) (by decide) (List.cons.inj h).1
    have hp := parseElems_write L v l fuel (d - 1) s hc (by simp only [cost] at hf; omega) (by omega)
    rw [hw]
    split
    · rename_i h; exact absurd h (hne _)
    · rw [hp]
  | .obj [], fuel + 1, d, s, _, hf, hd, _ => by
    simp only [write, writeM, List.cons_append, List.nil_append]
    rw [parseValue_brace, if_neg (by simp only [depth] at hd; omega)]
    rfl
  | .obj (p :: m), fuel + 1, d, s, hc, hf, hd, _ => by
    simp only [write, List.cons_append, List.append_assoc, List.nil_append]
    simp only [depth] at hd
    rw [parseValue_brace, if_neg (by omega)]
    simp only [Canon] at hc
    have hw : ∃ r, writeM true (p :: m) ++ '}' :: s = '"' :: r := by
      obtain ⟨k, v⟩ := p
      exact ⟨_, by simp only [writeM, writeStr, if_true, List.nil_append, List.cons_append]; rfl⟩
    obtain ⟨r, hw⟩ := hw
    have hp := parseMembers_write L p m fuel (d - 1) s hc.2 (by simp only [cost] at hf; omega)
      (by omega)
    have hsk : skipWs (writeM true (p :: m) ++ '}' :: s) = writeM true (p :: m) ++ '}' :: s := by
      rw [hw]; rfl
    rw [hsk]
    split
    · rename_i h
      rw [hw] at h
      exact absurd (List.cons.inj h).1 (by decide)
    · rw [hp]
theorem parseElems_write (L : FloatLib) : ∀ (v : Json) (l : List Json) (fuel d : Nat) (s : Str),
    CanonL (v :: l) → costL (v :: l) ≤ fuel → depthL (v :: l) < d →
    parseElems L fuel d (writeL true (v :: l) ++ ']' :: s) = .ok (v :: l, s)
  | v, l, 0, d, s, _, hf, _ => by simp [costL] at hf
  | v, [], fuel + 1, d, s, hc, hf, hd => by
    simp only [writeL, if_true, List.nil_append, List.append_nil, parseElems]
    simp only [CanonL, costL, depthL] at hc hf hd
    rw [parseValue_write L v fuel d _ hc.1 (by omega) (by omega) (endsNumber_bracket s)]
    rfl
  | v, w :: l, fuel + 1, d, s, hc, hf, hd => by
    have e : writeL true (v :: w :: l) ++ ']' :: s =
        write v ++ ',' :: (writeL true (w :: l) ++ ']' :: s) := by
      have : writeL true (v :: w :: l) = write v ++ writeL false (w :: l) := by
        simp only [writeL, if_true, List.nil_append]
      rw [this, writeL_false, List.append_assoc]; rfl
    have hc1 : Canon v := by simp only [CanonL] at hc; exact hc.1
    have hc2 : CanonL (w :: l) := by simp only [CanonL] at hc ⊢; exact hc.2
    have hf1 : cost v + costL (w :: l) + 1 ≤ fuel + 1 := by
      simp only [costL] at hf ⊢; omega
    have hd1 : depth v < d ∧ depthL (w :: l) < d := by
      simp only [depthL] at hd ⊢; omega
    rw [e]
    simp only [parseElems]
    rw [parseValue_write L v fuel d _ hc1 (by omega) hd1.1 (endsNumber_comma _)]
    show (match parseElems L fuel d (writeL true (w :: l) ++ ']' :: s) with
      | .error e => Except.error e
      | .ok (l, r) => Except.ok (v :: l, r)) = _
    rw [parseElems_write L w l fuel d s hc2 (by omega) hd1.2]
theorem parseMembers_write (L : FloatLib) : ∀ (p : Str × Json) (m : List (Str × Json))
    (fuel d : Nat) (s : Str), CanonM (p :: m) → costM (p :: m) ≤ fuel → depthM (p :: m) < d →
    parseMembers L fuel d (writeM true (p :: m) ++ '}' :: s) = .ok (p :: m, s)
  | p, m, 0, d, s, _, hf, _ => by simp [costM] at hf
  | (k, v), [], fuel + 1, d, s, hc, hf, hd => by
    have e : writeM true [(k, v)] ++ '}' :: s =
        '"' :: (writeStrBody k ++ '"' :: ':' :: (write v ++ '}' :: s)) := by
      simp [writeM, writeStr]
    simp only [CanonM, costM, depthM] at hc hf hd
    rw [e, parseMembers_quote, parseStr_write, membersAfterKey]
    rw [parseValue_write L v fuel d _ hc.1 (by omega) (by omega) (endsNumber_brace s)]
    rfl
  | (k, v), q :: m, fuel + 1, d, s, hc, hf, hd => by
    have e : writeM true ((k, v) :: q :: m) ++ '}' :: s =
        '"' :: (writeStrBody k ++ '"' :: ':' :: (write v ++ ',' ::
          (writeM true (q :: m) ++ '}' :: s))) := by
      have : writeM true ((k, v) :: q :: m) = writeStr k ++ [':'] ++ write v ++
          writeM false (q :: m) := by
        rw [writeM, if_pos rfl, List.nil_append]
      rw [this, writeM_false]
      simp [writeStr]
    have hc1 : Canon v := by simp only [CanonM] at hc; exact hc.1
    have hc2 : CanonM (q :: m) := by simp only [CanonM] at hc ⊢; exact hc.2
    have hf1 : cost v + costM (q :: m) + 1 ≤ fuel + 1 := by
      simp only [costM] at hf ⊢; omega
    have hd1 : depth v < d ∧ depthM (q :: m) < d := by
      simp only [depthM] at hd ⊢; omega
    rw [e, parseMembers_quote, parseStr_write, membersAfterKey]
    rw [parseValue_write L v fuel d _ hc1 (by omega) hd1.1 (endsNumber_comma _)]
    show (match parseMembers L fuel d (writeM true (q :: m) ++ '}' :: s) with
      | .error e => Except.error e
      | .ok (m, r) => Except.ok ((k, v) :: m, r)) = _
    rw [parseMembers_write L q m fuel d s hc2 (by omega) hd1.2]
end

end Json

end RustTuf
