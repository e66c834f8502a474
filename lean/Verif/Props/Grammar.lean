import Verif.Spec.Grammar
import Verif.Lemmas.Cjson
import Verif.Lemmas.JsonTotal
import Verif.Props.Cjson
import Verif.Model.JsonEnv

/-! C114: documents are read as RFC 8259 says. -/

namespace RustTuf
open Spec

/-! ## White space -/

theorem skipWs_blank {a : Str} (h : Blank a) (s : Str) : skipWs (a ++ s) = skipWs s := by
  induction a with
  | nil => rfl
  | cons c a ih =>
    have hc := h c (by simp)
    rw [List.cons_append, skipWs, if_pos (by tauto)]
    exact ih fun x hx => h x (by simp [hx])

theorem skipWs_split (s : Str) : ∃ a, Blank a ∧ s = a ++ skipWs s := by
  induction s with
  | nil => exact ⟨[], by simp [Blank], rfl⟩
  | cons c s ih =>
    obtain ⟨a, ha, hs⟩ := ih
    rw [skipWs]
    split
    · rename_i h
      refine ⟨c :: a, ?_, by rw [List.cons_append, ← hs]⟩
      intro x hx
      rcases List.mem_cons.1 hx with rfl | hx
      · tauto
      · exact ha x hx
    · exact ⟨[], by simp [Blank], rfl⟩

theorem blank_of_skipWs {s : Str} (h : skipWs s = []) : Blank s := by
  obtain ⟨a, ha, hs⟩ := skipWs_split s
  rw [h, List.append_nil] at hs
  rw [hs]; exact ha

/-! ## Strings -/

theorem hexVal_iff (c : Char) (n : Nat) : hexVal c = some n ↔ HexOf c n := by
  have small : ∀ m < 103, ∀ n < 16, hexVal (Char.ofNat m) = some n ↔ HexOf (Char.ofNat m) n := by
    unfold HexOf
    decide +kernel
  have hc : c = Char.ofNat c.toNat := by simp
  constructor
  · intro h
    have : c.toNat < 103 ∧ n < 16 := by
      unfold hexVal at h
      split at h
      · cases h; omega
      · split at h
        · cases h; omega
        · split at h
          · cases h; omega
          · cases h
    rw [hc]
    rw [hc] at h
    exact (small _ this.1 _ this.2).1 h
  · intro h
    have lt : ∀ x ∈ "0123456789abcdef".toList ++ "0123456789ABCDEF".toList, x.toNat < 103 := by decide
    have : c.toNat < 103 ∧ n < 16 := by
      rcases h with h | h
      · obtain ⟨hn, _⟩ := List.getElem?_eq_some_iff.1 h
        exact ⟨lt c (List.mem_append_left _ (List.mem_of_getElem? h)), by simpa using hn⟩
      · obtain ⟨hn, _⟩ := List.getElem?_eq_some_iff.1 h
        exact ⟨lt c (List.mem_append_right _ (List.mem_of_getElem? h)), by simpa using hn⟩
    rw [hc]
    rw [hc] at h
    exact (small _ this.1 _ this.2).2 h

theorem hex4_iff (s r : Str) (n : Nat) : hex4 s = some (n, r) ↔ ∃ x, FourDigits x n ∧ s = x ++ r := by
  constructor
  · intro h
    unfold hex4 at h
    split at h
    · rename_i a b c d s
      split at h
      · rename_i i j k l h1 h2 h3 h4
        simp only [Option.some.injEq, Prod.mk.injEq] at h
        obtain ⟨rfl, rfl⟩ := h
        exact ⟨[a, b, c, d], ⟨a, b, c, d, i, j, k, l, rfl, (hexVal_iff _ _).1 h1, (hexVal_iff _ _).1 h2,
          (hexVal_iff _ _).1 h3, (hexVal_iff _ _).1 h4, by omega⟩, rfl⟩
      · cases h
    · cases h
  · rintro ⟨x, ⟨a, b, c, d, i, j, k, l, rfl, h1, h2, h3, h4, rfl⟩, rfl⟩
    simp only [List.cons_append, List.nil_append, hex4, (hexVal_iff _ _).2 h1, (hexVal_iff _ _).2 h2,
      (hexVal_iff _ _).2 h3, (hexVal_iff _ _).2 h4]
    congr 2
    omega

theorem stripPrefix_iff (p s r : Str) : stripPrefix p s = some r ↔ s = p ++ r := by
  induction p generalizing s with
  | nil => simp [stripPrefix]
  | cons c p ih =>
    cases s with
    | nil => simp [stripPrefix]
    | cons d s =>
      rw [stripPrefix]
      split
      · rename_i h; subst h; simp [ih]
      · rename_i h
        simp only [reduceCtorEq, List.cons_append, List.cons.injEq, false_iff, not_and]
        exact fun h' => absurd h'.symm h

theorem pair_value (m n : Nat) : (m - 0xD800) * 0x400 + (n - 0xDC00) + 0x10000 =
    0x10000 + 0x400 * (m - 0xD800) + (n - 0xDC00) := by
  rw [Nat.mul_comm, Nat.add_comm, Nat.add_assoc]

theorem unescapeU_iff (s r : Str) (c : Char) : unescapeU s = .ok (c, r) ↔
    ∃ x, CharText ('\\' :: 'u' :: x) c ∧ s = x ++ r := by
  constructor
  · intro h
    unfold unescapeU at h
    split at h
    · cases h
    · rename_i n s1 h1
      obtain ⟨x, hx, rfl⟩ := (hex4_iff _ _ _).1 h1
      split at h
      · cases h
      · split at h
        · split at h
          · cases h
          · rename_i s2 h2
            rw [(stripPrefix_iff _ _ _).1 h2]
            split at h
            · cases h
            · rename_i n2 s3 h3
              obtain ⟨y, hy, rfl⟩ := (hex4_iff _ _ _).1 h3
              split at h
              · simp only [Except.ok.injEq, Prod.mk.injEq] at h
                obtain ⟨rfl, rfl⟩ := h
                refine ⟨x ++ '\\' :: 'u' :: y, ?_, by simp⟩
                rw [pair_value]
                exact CharText.pair x y n n2 hx hy (by omega) (by omega) (by omega) (by omega)
              · cases h
        · cases h
          exact ⟨x, .unicode x n hx (by omega), rfl⟩
  · rintro ⟨x, h, rfl⟩
    generalize hz : '\\' :: 'u' :: x = z at h
    cases h with
    | plain c _ _ h3 => cases hz
    | short e n h =>
      simp only [List.cons.injEq, true_and] at hz
      obtain ⟨rfl, -⟩ := hz
      simp [shortEscapes] at h
    | unicode x n hx hn =>
      cases hz
      unfold unescapeU
      rw [(hex4_iff _ _ _).2 ⟨_, hx, rfl⟩]
      simp only
      rw [if_neg (by omega), if_neg (by omega)]
    | pair x y hi lo hx hy h1 h2 h3 h4 =>
      cases hz
      unfold unescapeU
      rw [show List.append x ('\\' :: 'u' :: y) ++ r = x ++ ('\\' :: 'u' :: y ++ r) from
        List.append_assoc _ _ _, (hex4_iff _ _ _).2 ⟨_, hx, rfl⟩]
      simp only
      rw [if_neg (by omega), if_pos (by omega)]
      have : stripPrefix ['\\', 'u'] ('\\' :: 'u' :: y ++ r) = some (y ++ r) :=
        (stripPrefix_iff _ _ _).2 rfl
      rw [this]
      simp only
      rw [(hex4_iff _ _ _).2 ⟨_, hy, rfl⟩]
      simp only
      rw [if_pos (by omega), pair_value]

theorem strStep_quote (s r : Str) : strStep s = .ok (none, r) ↔ s = '"' :: r := by
  constructor
  · intro h
    unfold strStep at h
    split at h
    · cases h
    · rename_i c s
      split at h
      · rename_i hc
        cases h
        rw [char_eq_of_toNat (a := c) (b := '"') hc]
      · split at h
        · split at h
          · cases h
          · repeat' split at h
            all_goals cases h
        · split at h <;> cases h
  · rintro rfl
    rfl

theorem strStep_char (s r : Str) (c : Char) : strStep s = .ok (some c, r) ↔
    ∃ x, CharText x c ∧ s = x ++ r := by
  constructor
  · intro h
    unfold strStep at h
    split at h
    · cases h
    · rename_i d s
      split at h
      · cases h
      · rename_i h1
        split at h
        · rename_i hd
          rw [char_eq_of_toNat (a := d) (b := '\\') hd]
          split at h
          · cases h
          · rename_i e s
            have key : ∀ n, (e, n) ∈ shortEscapes → c = Char.ofNat n → s = r →
                ∃ x, CharText x c ∧ '\\' :: e :: s = x ++ r := by
              rintro n hn rfl rfl
              exact ⟨['\\', e], .short e n hn, rfl⟩
            by_cases e1 : e = '"'
            · rw [if_pos e1] at h; cases h; exact key 0x22 (by simp [shortEscapes, e1]) rfl rfl
            rw [if_neg e1] at h
            by_cases e2 : e = '\\'
            · rw [if_pos e2] at h; cases h; exact key 0x5C (by simp [shortEscapes, e2]) rfl rfl
            rw [if_neg e2] at h
            by_cases e3 : e = '/'
            · rw [if_pos e3] at h; cases h; exact key 0x2F (by simp [shortEscapes, e3]) rfl rfl
            rw [if_neg e3] at h
            by_cases e4 : e = 'b'
            · rw [if_pos e4] at h; cases h; exact key 8 (by simp [shortEscapes, e4]) rfl rfl
            rw [if_neg e4] at h
            by_cases e5 : e = 'f'
            · rw [if_pos e5] at h; cases h; exact key 12 (by simp [shortEscapes, e5]) rfl rfl
            rw [if_neg e5] at h
            by_cases e6 : e = 'n'
            · rw [if_pos e6] at h; cases h; exact key 10 (by simp [shortEscapes, e6]) rfl rfl
            rw [if_neg e6] at h
            by_cases e7 : e = 'r'
            · rw [if_pos e7] at h; cases h; exact key 13 (by simp [shortEscapes, e7]) rfl rfl
            rw [if_neg e7] at h
            by_cases e8 : e = 't'
            · rw [if_pos e8] at h; cases h; exact key 9 (by simp [shortEscapes, e8]) rfl rfl
            rw [if_neg e8] at h
            by_cases e9 : e = 'u'
            · rw [if_pos e9] at h
              split at h
              · cases h
              · rename_i c' s' hu
                cases h
                obtain ⟨x, hx, rfl⟩ := (unescapeU_iff _ _ _).1 hu
                exact ⟨'\\' :: 'u' :: x, hx, by rw [e9]; rfl⟩
            rw [if_neg e9] at h
            cases h
        · rename_i h2
          split at h
          · cases h
          · cases h
            refine ⟨[c], .plain c (by omega) ?_ ?_, rfl⟩
            · rintro rfl; exact h1 rfl
            · rintro rfl; exact h2 rfl
  · rintro ⟨x, h, rfl⟩
    have hx := h
    cases h with
    | plain c h1 h2 h3 =>
      have a : c.toNat ≠ 0x22 := fun h => h2 (char_eq_of_toNat (b := '"') h)
      have b : c.toNat ≠ 0x5C := fun h => h3 (char_eq_of_toNat (b := '\\') h)
      simp only [List.cons_append, List.nil_append, strStep]
      rw [if_neg a, if_neg b, if_neg (by omega)]
    | short e n h =>
      simp only [shortEscapes, List.mem_cons, Prod.mk.injEq, List.not_mem_nil, or_false] at h
      rcases h with ⟨rfl, rfl⟩ | ⟨rfl, rfl⟩ | ⟨rfl, rfl⟩ | ⟨rfl, rfl⟩ | ⟨rfl, rfl⟩ | ⟨rfl, rfl⟩ |
        ⟨rfl, rfl⟩ | ⟨rfl, rfl⟩ <;> rfl
    | unicode x n h hn =>
      have := (unescapeU_iff (x ++ r) r _).2 ⟨x, hx, rfl⟩
      show (match unescapeU (x ++ r) with
        | .error x => Except.error x
        | .ok (c, s) => .ok (some c, s)) = _
      rw [this]
    | pair x y hi lo h1 h2 =>
      have := (unescapeU_iff (x ++ '\\' :: 'u' :: y ++ r) r _).2 ⟨x ++ '\\' :: 'u' :: y, hx, rfl⟩
      show (match unescapeU (x ++ '\\' :: 'u' :: y ++ r) with
        | .error x => Except.error x
        | .ok (c, s) => .ok (some c, s)) = _
      rw [this]

theorem parseStrBody_sound : ∀ (fuel : Nat) (s t r : Str), parseStrBody fuel s = .ok (t, r) →
    ∃ x, CharsText x t ∧ s = x ++ '"' :: r := by
  intro fuel
  induction fuel with
  | zero => intro s t r h; cases h
  | succ n ih =>
    intro s t r h
    rw [parseStrBody] at h
    split at h
    · cases h
    · rename_i s1 h1
      cases h
      exact ⟨[], .nil, (strStep_quote _ _).1 h1⟩
    · rename_i c s1 h1
      obtain ⟨x, hx, rfl⟩ := (strStep_char _ _ _).1 h1
      split at h
      · cases h
      · rename_i t' s2 h2
        cases h
        obtain ⟨y, hy, rfl⟩ := ih _ _ _ h2
        exact ⟨x ++ y, .cons hx hy, by simp⟩

theorem charText_length {x : Str} {c : Char} (h : CharText x c) : 1 ≤ x.length := by
  cases h <;> simp

theorem parseStrBody_complete {x t : Str} (h : CharsText x t) : ∀ (fuel : Nat) (r : Str), x.length < fuel →
    parseStrBody fuel (x ++ '"' :: r) = .ok (t, r) := by
  induction h with
  | nil =>
    intro fuel r hf
    obtain ⟨n, rfl⟩ : ∃ n, fuel = n + 1 := ⟨fuel - 1, by simp at hf; omega⟩
    rfl
  | @cons x t s c hx _ ih =>
    intro fuel r hf
    have := charText_length hx
    obtain ⟨n, rfl⟩ : ∃ n, fuel = n + 1 := ⟨fuel - 1, by omega⟩
    rw [parseStrBody, List.append_assoc, (strStep_char _ _ _).2 ⟨x, hx, rfl⟩]
    simp only
    rw [ih n r (by simp at hf; omega)]

theorem parseStr_iff (s t r : Str) : parseStr s = .ok (t, r) ↔
    ∃ x, CharsText x t ∧ s = x ++ '"' :: r := by
  constructor
  · exact parseStrBody_sound _ _ _ _
  · rintro ⟨x, hx, rfl⟩
    exact parseStrBody_complete hx _ _ (by simp only [List.length_append]; omega)

/-! ## Numbers -/

theorem isDigit_iff (c : Char) : isDigit c = true ↔ c ∈ "0123456789".toList := by
  have small : ∀ m < 58, isDigit (Char.ofNat m) = true ↔ Char.ofNat m ∈ "0123456789".toList := by decide
  have hc : c = Char.ofNat c.toNat := by simp
  constructor
  · intro h
    have : c.toNat < 58 := by simp [isDigit] at h; omega
    rw [hc] at h ⊢
    exact (small _ this).1 h
  · intro h
    have lt : ∀ x ∈ "0123456789".toList, x.toNat < 58 := by decide
    have := lt c h
    rw [hc] at h ⊢
    exact (small _ this).2 h

theorem digitsVal_cons (acc : Nat) (c : Char) (s : Str) :
    digitsVal acc (c :: s) = digitsVal (10 * acc + (c.toNat - '0'.toNat)) s := by
  have h0 : '0'.toNat = 48 := by decide
  have h : acc * 10 + (c.toNat - 48) = 10 * acc + (c.toNat - 48) := by omega
  rw [h0, ← h]
  rfl

theorem digitsVal_eq : ∀ (s : Str) (acc : Nat), digitsVal acc s =
    s.foldl (fun n c => 10 * n + (c.toNat - '0'.toNat)) acc
  | [], _ => rfl
  | c :: s, acc => by rw [digitsVal_cons, List.foldl_cons, digitsVal_eq s]

theorem spanDigits_spec (s : Str) : s = (spanDigits s).1 ++ (spanDigits s).2 ∧
    (∀ c ∈ (spanDigits s).1, isDigit c = true) ∧ ∀ c ∈ (spanDigits s).2.head?, isDigit c = false := by
  induction s with
  | nil => simp [spanDigits]
  | cons c s ih =>
    rw [spanDigits]
    split
    · rename_i h
      refine ⟨by rw [List.cons_append, ← ih.1], ?_, ih.2.2⟩
      intro x hx
      rcases List.mem_cons.1 hx with rfl | hx
      · exact h
      · exact ih.2.1 x hx
    · rename_i h
      simp [h]

theorem digits_of_span {s : Str} (h : ¬ (spanDigits s).1.isEmpty = true) : DigitsText (spanDigits s).1 :=
  ⟨by simpa using h, fun c hc => (isDigit_iff c).1 ((spanDigits_spec s).2.1 c hc)⟩

theorem span_of_digits {ds r : Str} (h : DigitsText ds) (hr : ∀ c ∈ r.head?, isDigit c = false) :
    spanDigits (ds ++ r) = (ds, r) :=
  spanDigits_append ds r (fun c hc => (isDigit_iff c).2 (h.2 c hc)) hr

theorem digits_not_empty {ds : Str} (h : DigitsText ds) : ds.isEmpty = false := by
  cases ds with
  | nil => exact absurd rfl h.1
  | cons => rfl

/-- The fraction of `numberTail`. -/
def fracPart (s : Str) : Except Err (Str × Str) :=
  match s with
  | '.' :: r =>
    if (spanDigits r).1.isEmpty then .error .encoding
    else .ok ('.' :: (spanDigits r).1, (spanDigits r).2)
  | _ => .ok ([], s)

/-- The exponent of `numberTail`, after the letter. -/
def expPart (f : Str) (c : Char) (sign r : Str) : Except Err (Str × Str) :=
  if (spanDigits r).1.isEmpty then .error .encoding
  else .ok (f ++ c :: sign ++ (spanDigits r).1, (spanDigits r).2)

/-- The exponent of `numberTail`. -/
def tailPart (f s : Str) : Except Err (Str × Str) :=
  match s with
  | c :: r =>
    if c = 'e' ∨ c = 'E' then
      match r with
      | d :: r' => if d = '+' ∨ d = '-' then expPart f c [d] r' else expPart f c [] r
      | [] => expPart f c [] []
    else .ok (f, s)
  | [] => .ok (f, s)

theorem numberTail_eq (s : Str) : numberTail s =
    match fracPart s with
    | .error e => .error e
    | .ok (f, s) => tailPart f s := by
  have key : ∀ frac : Except Err (Str × Str), (match frac with
      | .error e => .error e
      | .ok (f, s) =>
        match s with
        | c :: r =>
          if c = 'e' ∨ c = 'E' then
            let (sign, r) : Str × Str :=
              match r with
              | d :: r' => if d = '+' ∨ d = '-' then ([d], r') else ([], r)
              | [] => ([], [])
            if (spanDigits r).1.isEmpty then .error .encoding
            else .ok (f ++ c :: sign ++ (spanDigits r).1, (spanDigits r).2)
          else .ok (f, s)
        | [] => .ok (f, s) : Except Err (Str × Str)) =
      match frac with
      | .error e => .error e
      | .ok (f, s) => tailPart f s := by
    intro frac
    cases frac with
    | error e => rfl
    | ok x =>
      obtain ⟨f, s1⟩ := x
      cases s1 with
      | nil => rfl
      | cons c r =>
        unfold tailPart
        dsimp only
        split
        · cases r with
          | nil => rfl
          | cons d r' =>
            by_cases hd : d = '+' ∨ d = '-'
            · simp only [hd, if_true]; rfl
            · simp only [hd, if_false]; rfl
        · rfl
  unfold numberTail
  exact key (fracPart s)

theorem numberTail_sound {s t r : Str} (h : numberTail s = .ok (t, r)) :
    ∃ f e, FractionText f ∧ ExponentText e ∧ t = f ++ e ∧ s = t ++ r := by
  rw [numberTail_eq] at h
  have hf : ∀ f s', fracPart s = .ok (f, s') → FractionText f ∧ s = f ++ s' := by
    intro f s' h
    unfold fracPart at h
    split at h
    · split at h
      · cases h
      · rename_i hd
        cases h
        exact ⟨.inr ⟨_, digits_of_span hd, rfl⟩, by rw [List.cons_append, ← (spanDigits_spec _).1]⟩
    · cases h
      exact ⟨.inl rfl, rfl⟩
  have he : ∀ f c sign r t r', expPart f c sign r = .ok (t, r') →
      DigitsText (spanDigits r).1 ∧ t = f ++ (c :: sign ++ (spanDigits r).1) ∧ r' = (spanDigits r).2 := by
    intro f c sign r t r' h
    unfold expPart at h
    split at h
    · cases h
    · rename_i hd
      cases h
      exact ⟨digits_of_span hd, by simp, rfl⟩
  cases hfp : fracPart s with
  | error e => rw [hfp] at h; cases h
  | ok x =>
    obtain ⟨f, s'⟩ := x
    rw [hfp] at h
    obtain ⟨h1, rfl⟩ := hf _ _ hfp
    replace h : tailPart f s' = .ok (t, r) := h
    clear hf hfp
    cases s' with
    | nil =>
      cases h
      exact ⟨_, [], h1, .inl rfl, (List.append_nil _).symm, rfl⟩
    | cons c r1 =>
      by_cases hc : c = 'e' ∨ c = 'E'
      · cases r1 with
        | nil =>
          rw [tailPart, if_pos hc] at h
          obtain ⟨a, rfl, rfl⟩ := he _ _ _ _ _ _ h
          exact absurd rfl a.1
        | cons d r2 =>
          rw [tailPart, if_pos hc] at h
          split at h
          · rename_i hd
            obtain ⟨a, rfl, rfl⟩ := he _ _ _ _ _ _ h
            refine ⟨f, c :: [d] ++ (spanDigits r2).1, h1, .inr ⟨c, [d], _, hc, ?_, a, rfl⟩, rfl, ?_⟩
            · rcases hd with rfl | rfl
              · exact .inr (.inl rfl)
              · exact .inr (.inr rfl)
            · have := (spanDigits_spec r2).1
              simp only [List.append_assoc, List.cons_append, List.nil_append, ← this]
          · obtain ⟨a, rfl, rfl⟩ := he _ _ _ _ _ _ h
            refine ⟨f, c :: [] ++ (spanDigits (d :: r2)).1, h1, .inr ⟨c, [], _, hc, .inl rfl, a, rfl⟩, rfl, ?_⟩
            have := (spanDigits_spec (d :: r2)).1
            simp only [List.append_assoc, List.cons_append, List.nil_append, ← this]
      · have : tailPart f (c :: r1) = .ok (f, c :: r1) := by unfold tailPart; simp only [hc, if_false]
        rw [this] at h
        cases h
        exact ⟨_, [], h1, .inl rfl, (List.append_nil _).symm, rfl⟩

theorem tailPart_complete {f e r : Str} (he : ExponentText e) (hr : EndsNumber r) :
    tailPart f (e ++ r) = .ok (f ++ e, r) := by
  rcases he with rfl | ⟨c, sign, ds, hc, hs, hd, rfl⟩
  · rw [List.nil_append, List.append_nil]
    cases r with
    | nil => rfl
    | cons c r =>
      obtain ⟨_, _, h2, h3⟩ := hr c (by simp)
      simp [tailPart, h2, h3]
  · have fin : ∀ sg, expPart f c sg (ds ++ r) = .ok (f ++ (c :: sg ++ ds), r) := by
      intro sg
      unfold expPart
      rw [span_of_digits hd fun c hc => (hr c hc).1, digits_not_empty hd]
      simp
    have noSign : ∀ d, d ∈ ds → ¬ (d = '+' ∨ d = '-') := by
      rintro d hm (rfl | rfl)
      · exact absurd (hd.2 _ hm) (by decide)
      · exact absurd (hd.2 _ hm) (by decide)
    rcases hs with rfl | rfl | rfl
    · cases hx : ds with
      | nil => exact absurd hx hd.1
      | cons d ds' =>
        rw [show (c :: [] ++ d :: ds') ++ r = c :: d :: (ds' ++ r) from rfl, tailPart, if_pos hc,
          if_neg (noSign d (by rw [hx]; simp)), ← List.cons_append, ← hx, fin]
    · rw [show (c :: ['+'] ++ ds) ++ r = c :: '+' :: (ds ++ r) from rfl, tailPart, if_pos hc,
        if_pos (.inl rfl), fin]
    · rw [show (c :: ['-'] ++ ds) ++ r = c :: '-' :: (ds ++ r) from rfl, tailPart, if_pos hc,
        if_pos (.inr rfl), fin]

theorem exponent_head {e r : Str} (he : ExponentText e) (hr : EndsNumber r) :
    (∀ c ∈ (e ++ r).head?, isDigit c = false) ∧ ∀ c ∈ (e ++ r).head?, c ≠ '.' := by
  rcases he with rfl | ⟨c, sign, ds, hc, hs, hd, rfl⟩
  · exact ⟨fun c hc => (hr c hc).1, fun c hc => (hr c hc).2.1⟩
  · refine ⟨fun d h => ?_, fun d h => ?_⟩ <;>
    · simp only [List.cons_append, List.head?_cons, Option.mem_def, Option.some.injEq] at h
      subst h
      rcases hc with rfl | rfl <;> decide

theorem numberTail_complete {f e r : Str} (hf : FractionText f) (he : ExponentText e) (hr : EndsNumber r) :
    numberTail ((f ++ e) ++ r) = .ok (f ++ e, r) := by
  rw [numberTail_eq, List.append_assoc]
  obtain ⟨h1, h2⟩ := exponent_head he hr
  have : fracPart (f ++ (e ++ r)) = .ok (f, e ++ r) := by
    rcases hf with rfl | ⟨ds, hd, rfl⟩
    · rw [List.nil_append]
      unfold fracPart
      split
      · rename_i r' heq
        rw [heq] at h2
        exact absurd rfl (h2 '.' (by simp))
      · rfl
    · show (if (spanDigits (ds ++ (e ++ r))).1.isEmpty then Except.error Err.encoding
        else Except.ok ('.' :: (spanDigits (ds ++ (e ++ r))).1, (spanDigits (ds ++ (e ++ r))).2)) = _
      rw [span_of_digits hd h1, digits_not_empty hd]
      rfl
  rw [this]
  exact tailPart_complete he hr

theorem tail_head {f e r : Str} (hf : FractionText f) (he : ExponentText e) (hr : EndsNumber r) :
    ∀ c ∈ ((f ++ e) ++ r).head?, isDigit c = false := by
  rcases hf with rfl | ⟨ds, hd, rfl⟩
  · exact (exponent_head he hr).1
  · intro c hc
    simp only [List.cons_append, List.head?_cons, Option.mem_def, Option.some.injEq] at hc
    subst hc
    decide

theorem whole_digits {ds : Str} (h : WholeText ds) : DigitsText ds := by
  rcases h with rfl | h
  · exact ⟨by simp, by decide⟩
  · exact h.1

theorem whole_check {ds : Str} : (¬ (ds.isEmpty = true ∨ ds.head? = some '0' ∧ ds.length ≠ 1)) ∧
    (∀ c ∈ ds, isDigit c = true) ↔ WholeText ds := by
  constructor
  · rintro ⟨h, hd⟩
    rw [not_or] at h
    have hne : ds ≠ [] := by simpa using h.1
    by_cases h0 : ds.head? = some '0'
    · left
      have hl : ds.length = 1 := by
        by_contra hl
        exact h.2 ⟨h0, hl⟩
      match ds, hl, h0 with
      | [c], _, h0 => simpa using h0
    · exact .inr ⟨⟨hne, fun c hc => (isDigit_iff c).1 (hd c hc)⟩, h0⟩
  · intro h
    have hd := whole_digits h
    refine ⟨?_, fun c hc => (isDigit_iff c).2 (hd.2 c hc)⟩
    rw [digits_not_empty hd]
    rintro (h' | ⟨h1, h2⟩)
    · cases h'
    · rcases h with rfl | h
      · exact h2 rfl
      · exact h.2 h1

theorem parseNumber_sound {L : FloatLib} {neg : Bool} {s r : Str} {v : Json}
    (h : parseNumber L neg s = .ok (v, r)) :
    ∃ t, s = t ++ r ∧ NumberText L ((if neg then ['-'] else []) ++ t) v := by
  unfold parseNumber at h
  dsimp only at h
  split at h
  · cases h
  · rename_i hw
    have hw : WholeText (spanDigits s).1 := whole_check.1 ⟨hw, (spanDigits_spec s).2.1⟩
    split at h
    · cases h
    · rename_i tail r' ht
      obtain ⟨f, e, hf, he, rfl, hs⟩ := numberTail_sound ht
      have hs : s = ((spanDigits s).1 ++ (f ++ e)) ++ r' := by
        rw [List.append_assoc, ← hs]; exact (spanDigits_spec s).1
      have hv : digitsVal 0 (spanDigits s).1 = decimalValue (spanDigits s).1 := digitsVal_eq _ 0
      rw [hv] at h
      split at h
      · rename_i hc
        cases h
        obtain ⟨hc1, rfl, hc3⟩ := hc
        have : f ++ e = [] := by simpa using hc1
        rw [this, List.append_nil] at hs
        exact ⟨_, hs, .natural _ hw hc3⟩
      · rename_i hn1
        split at h
        · rename_i hc
          cases h
          obtain ⟨hc1, rfl, hc3, hc4⟩ := hc
          have : f ++ e = [] := by simpa using hc1
          rw [this, List.append_nil] at hs
          exact ⟨_, hs, .negative _ hw hc3 hc4⟩
        · rename_i hn2
          split at h
          · cases h
          · rename_i b hb
            cases h
            refine ⟨_, hs, ?_⟩
            rw [← List.append_assoc]
            refine .float _ _ f e b ?_ hw hf he ?_ ?_ hb
            · cases neg
              · exact .inl rfl
              · exact .inr rfl
            · rintro rfl rfl hneg
              cases neg with
              | true => cases hneg
              | false =>
                by_contra hlt
                exact hn1 ⟨rfl, rfl, by omega⟩
            · rintro rfl rfl hneg
              cases neg with
              | false => cases hneg
              | true =>
                by_contra hlt
                exact hn2 ⟨rfl, rfl, by omega, by omega⟩

/-- What `parseNumber` does with the sign, the digits and the rest of a number. -/
theorem parseNumber_parts (L : FloatLib) (neg : Bool) {ds f e r : Str} (hw : WholeText ds)
    (hf : FractionText f) (he : ExponentText e) (hr : EndsNumber r) :
    parseNumber L neg ((ds ++ (f ++ e)) ++ r) =
      if (f ++ e).isEmpty = true ∧ neg = false ∧ decimalValue ds ≤ 18446744073709551615 then
        .ok (.int (decimalValue ds), r)
      else if (f ++ e).isEmpty = true ∧ neg = true ∧ 0 < decimalValue ds ∧
          decimalValue ds ≤ 9223372036854775808 then .ok (.int (-(decimalValue ds : Int)), r)
      else
        match L.bits ((if neg then ['-'] else []) ++ ds ++ (f ++ e)) with
        | none => .error .encoding
        | some b => .ok (.float b, r) := by
  have hv : digitsVal 0 ds = decimalValue ds := digitsVal_eq _ 0
  unfold parseNumber
  rw [List.append_assoc, span_of_digits (whole_digits hw) (tail_head hf he hr)]
  dsimp only
  rw [if_neg (whole_check.2 hw).1, numberTail_complete hf he hr, hv]
  rfl

theorem parseNumber_complete {L : FloatLib} {t : Str} {v : Json} (h : NumberText L t v) :
    (∃ t', t = '-' :: t' ∧ ∀ r, EndsNumber r → parseNumber L true (t' ++ r) = .ok (v, r)) ∨
    (∃ c t', t = c :: t' ∧ isDigit c = true ∧
      ∀ r, EndsNumber r → parseNumber L false (t ++ r) = .ok (v, r)) := by
  have first : ∀ ds x, WholeText ds → ∃ c t', ds ++ x = c :: t' ∧ isDigit c = true := by
    intro ds x hw
    obtain ⟨h1, h2⟩ := whole_digits hw
    cases ds with
    | nil => exact absurd rfl h1
    | cons c ds => exact ⟨c, ds ++ x, rfl, (isDigit_iff c).2 (h2 c (by simp))⟩
  cases h with
  | natural _ hw hn =>
    obtain ⟨c, t', h1, h2⟩ := first t [] hw
    rw [List.append_nil] at h1
    refine .inr ⟨c, t', h1, h2, fun r hr => ?_⟩
    have := parseNumber_parts L false hw (.inl rfl) (.inl rfl) hr
    rw [if_pos ⟨rfl, rfl, hn⟩] at this
    simpa using this
  | negative ds hw h0 hn =>
    refine .inl ⟨ds, rfl, fun r hr => ?_⟩
    have := parseNumber_parts L true hw (.inl rfl) (.inl rfl) hr
    rw [if_neg (by simp), if_pos ⟨rfl, rfl, h0, hn⟩] at this
    simpa using this
  | float sign ds f e b hs hw hf he h1 h2 hb =>
    have empty : (f ++ e).isEmpty = true → f = [] ∧ e = [] := by simp
    rcases hs with rfl | rfl
    · obtain ⟨c, t', h3, h4⟩ := first ds (f ++ e) hw
      refine .inr ⟨c, t', h3, h4, fun r hr => ?_⟩
      rw [List.nil_append, parseNumber_parts L false hw hf he hr, if_neg, if_neg]
      · simp only [List.nil_append] at hb
        simp [hb]
      · simp
      · rintro ⟨x, -, y⟩
        have := h1 (empty x).1 (empty x).2 rfl
        omega
    · refine .inl ⟨ds ++ (f ++ e), rfl, fun r hr => ?_⟩
      rw [parseNumber_parts L true hw hf he hr, if_neg, if_neg]
      · simp only [if_true]
        rw [hb]
      · rintro ⟨x, -, y⟩
        have := h2 (empty x).1 (empty x).2 rfl
        omega
      · simp

/-! ## Values -/

theorem blank_append {a b : Str} (ha : Blank a) (hb : Blank b) : Blank (a ++ b) := by
  intro c hc
  rcases List.mem_append.1 hc with h | h
  · exact ha c h
  · exact hb c h

theorem elements_blank {L : FloatLib} {b t : Str} {l : List Json} (hb : Blank b) (h : ElementsText L t l) :
    ElementsText L (b ++ t) l := by
  cases h with
  | one ha hv hc => rw [← List.append_assoc]; exact .one (blank_append hb ha) hv hc
  | more ha hv hc hr => rw [← List.append_assoc]; exact .more (blank_append hb ha) hv hc hr

theorem members_blank {L : FloatLib} {b t : Str} {m : List (Str × Json)} (hb : Blank b)
    (h : MembersText L t m) : MembersText L (b ++ t) m := by
  cases h with
  | one ha hk h1 h2 hv h3 => rw [← List.append_assoc]; exact .one (blank_append hb ha) hk h1 h2 hv h3
  | more ha hk h1 h2 hv h3 hr =>
    rw [← List.append_assoc]; exact .more (blank_append hb ha) hk h1 h2 hv h3 hr

theorem parse_sound (L : FloatLib) : ∀ fuel : Nat,
    (∀ d s v r, 1 ≤ d → parseValue L fuel d s = .ok (v, r) →
      ∃ a t, Blank a ∧ ValueText L t v ∧ s = a ++ (t ++ r) ∧ nesting v < d) ∧
    (∀ d s l r, 1 ≤ d → parseElems L fuel d s = .ok (l, r) →
      ∃ t, ElementsText L t l ∧ s = t ++ ']' :: r ∧ nestingL l < d) ∧
    (∀ d s m r, 1 ≤ d → parseMembers L fuel d s = .ok (m, r) →
      ∃ t, MembersText L t m ∧ s = t ++ '}' :: r ∧ nestingM m < d) := by
  intro fuel
  induction fuel with
  | zero => refine ⟨?_, ?_, ?_⟩ <;> intro d s x r _ h <;> cases h
  | succ fuel ih =>
    obtain ⟨ihv, ihe, ihm⟩ := ih
    refine ⟨?_, ?_, ?_⟩
    · intro d s v r hd h
      obtain ⟨a, ha, hsplit⟩ := skipWs_split s
      rw [parseValue] at h
      cases hs : skipWs s with
      | nil => rw [hs] at h; cases h
      | cons c r0 =>
        rw [hs] at h hsplit
        subst hsplit
        clear hs
        dsimp only at h
        by_cases h1 : c = 'n'
        · rw [if_pos h1] at h
          subst h1
          split at h
          · cases h
          · rename_i r1 hr
            cases h
            rw [(stripPrefix_iff _ _ _).1 hr]
            exact ⟨a, _, ha, .null, rfl, hd⟩
        rw [if_neg h1] at h
        by_cases h2 : c = 't'
        · rw [if_pos h2] at h
          subst h2
          split at h
          · cases h
          · rename_i r1 hr
            cases h
            rw [(stripPrefix_iff _ _ _).1 hr]
            exact ⟨a, _, ha, .true, rfl, hd⟩
        rw [if_neg h2] at h
        by_cases h3 : c = 'f'
        · rw [if_pos h3] at h
          subst h3
          split at h
          · cases h
          · rename_i r1 hr
            cases h
            rw [(stripPrefix_iff _ _ _).1 hr]
            exact ⟨a, _, ha, .false, rfl, hd⟩
        rw [if_neg h3] at h
        by_cases h4 : c = '"'
        · rw [if_pos h4] at h
          subst h4
          split at h
          · cases h
          · rename_i t r1 hr
            cases h
            obtain ⟨x, hx, rfl⟩ := (parseStr_iff _ _ _).1 hr
            exact ⟨a, '"' :: x ++ ['"'], ha, .string ⟨x, hx, rfl⟩, by simp, hd⟩
        rw [if_neg h4] at h
        by_cases h5 : c = '['
        · rw [if_pos h5] at h
          subst h5
          by_cases h6 : d ≤ 1
          · rw [if_pos h6] at h; cases h
          rw [if_neg h6] at h
          obtain ⟨b, hb, hsb⟩ := skipWs_split r0
          split at h
          · rename_i r1 hr
            cases h
            rw [hr] at hsb
            subst hsb
            exact ⟨a, '[' :: b ++ [']'], ha, .emptyArray hb, by simp, by simp [nesting, nestingL]; omega⟩
          · split at h
            · cases h
            · rename_i l r2 he
              cases h
              obtain ⟨t, ht, e, hn⟩ := ihe _ _ _ _ (by omega) he
              have ht := elements_blank hb ht
              rw [e] at hsb
              subst hsb
              exact ⟨a, '[' :: (b ++ t) ++ [']'], ha, .array ht, by simp, by simp only [nesting]; omega⟩
        rw [if_neg h5] at h
        by_cases h7 : c = '{'
        · rw [if_pos h7] at h
          subst h7
          by_cases h6 : d ≤ 1
          · rw [if_pos h6] at h; cases h
          rw [if_neg h6] at h
          obtain ⟨b, hb, hsb⟩ := skipWs_split r0
          split at h
          · rename_i r1 hr
            cases h
            rw [hr] at hsb
            subst hsb
            exact ⟨a, '{' :: b ++ ['}'], ha, .emptyObject hb, by simp, by simp [nesting, nestingM]; omega⟩
          · split at h
            · cases h
            · rename_i l r2 he
              cases h
              obtain ⟨t, ht, e, hn⟩ := ihm _ _ _ _ (by omega) he
              have ht := members_blank hb ht
              rw [e] at hsb
              subst hsb
              exact ⟨a, '{' :: (b ++ t) ++ ['}'], ha, .object ht, by simp, by simp only [nesting]; omega⟩
        rw [if_neg h7] at h
        have num : ∀ t v, NumberText L t v → nesting v = 0 := by
          intro t v h
          cases h <;> rfl
        by_cases h8 : c = '-'
        · rw [if_pos h8] at h
          subst h8
          obtain ⟨t, rfl, ht⟩ := parseNumber_sound h
          exact ⟨a, '-' :: t, ha, .number ht, by simp, by rw [num _ _ ht]; omega⟩
        rw [if_neg h8] at h
        split at h
        · obtain ⟨t, e, ht⟩ := parseNumber_sound h
          rw [e]
          exact ⟨a, t, ha, .number ht, rfl, by rw [num _ _ ht]; omega⟩
        · cases h
    · intro d s l r hd h
      rw [parseElems] at h
      split at h
      · cases h
      · rename_i v s1 hv
        obtain ⟨a, t, ha, ht, rfl, hn⟩ := ihv _ _ _ _ hd hv
        obtain ⟨b, hb, hsb⟩ := skipWs_split s1
        split at h
        · rename_i r1 hr
          cases h
          rw [hr] at hsb
          subst hsb
          exact ⟨_, .one ha ht hb, by simp, by simp only [nestingL]; omega⟩
        · rename_i r1 hr
          split at h
          · cases h
          · rename_i l' r2 he
            cases h
            obtain ⟨t', ht', rfl, hn'⟩ := ihe _ _ _ _ hd he
            rw [hr] at hsb
            subst hsb
            exact ⟨_, .more ha ht hb ht', by simp, by simp only [nestingL]; omega⟩
        · cases h
    · intro d s m r hd h
      obtain ⟨a, ha, hsplit⟩ := skipWs_split s
      rw [parseMembers] at h
      split at h
      · rename_i r0 hr0
        rw [hr0] at hsplit
        subst hsplit
        split at h
        · cases h
        · rename_i k r1 hk
          obtain ⟨x, hx, rfl⟩ := (parseStr_iff _ _ _).1 hk
          obtain ⟨b, hb, hsb⟩ := skipWs_split r1
          split at h
          · rename_i r2 hr2
            rw [hr2] at hsb
            subst hsb
            split at h
            · cases h
            · rename_i v s1 hv
              obtain ⟨c, t, hc, ht, rfl, hn⟩ := ihv _ _ _ _ hd hv
              obtain ⟨e, he, hse⟩ := skipWs_split s1
              have hkey : StringText ('"' :: x ++ ['"']) k := ⟨x, hx, rfl⟩
              split at h
              · rename_i r3 hr3
                cases h
                rw [hr3] at hse
                subst hse
                exact ⟨_, .one ha hkey hb hc ht he, by simp, by simp only [nestingM]; omega⟩
              · rename_i r3 hr3
                split at h
                · cases h
                · rename_i m' r4 hm
                  cases h
                  obtain ⟨t', ht', rfl, hn'⟩ := ihm _ _ _ _ hd hm
                  rw [hr3] at hse
                  subst hse
                  exact ⟨_, .more ha hkey hb hc ht he ht', by simp, by simp only [nestingM]; omega⟩
              · cases h
          · cases h
      · cases h

theorem skipWs_idem (s : Str) : skipWs (skipWs s) = skipWs s := by
  obtain ⟨a, ha, hs⟩ := skipWs_split s
  have := skipWs_blank ha (skipWs s)
  rw [← hs] at this
  exact this.symm

theorem parseValue_blank {L : FloatLib} {fuel d : Nat} {a s : Str} (ha : Blank a) :
    parseValue L fuel d (a ++ s) = parseValue L fuel d s := by
  cases fuel with
  | zero => simp only [parseValue]
  | succ n => simp only [parseValue, skipWs_blank ha]

theorem parseElems_skip (L : FloatLib) (fuel d : Nat) (s : Str) :
    parseElems L fuel d (skipWs s) = parseElems L fuel d s := by
  cases fuel with
  | zero => simp only [parseElems]
  | succ n =>
    have : parseValue L n d (skipWs s) = parseValue L n d s := by
      cases n with
      | zero => simp only [parseValue]
      | succ n => simp only [parseValue, skipWs_idem]
    simp only [parseElems, this]

theorem parseMembers_skip (L : FloatLib) (fuel d : Nat) (s : Str) :
    parseMembers L fuel d (skipWs s) = parseMembers L fuel d s := by
  cases fuel with
  | zero => simp only [parseMembers]
  | succ n => simp only [parseMembers, skipWs_idem]

theorem endsNumber_blank {b r : Str} (h : Blank b) (hr : EndsNumber r) : EndsNumber (b ++ r) := by
  cases b with
  | nil => exact hr
  | cons c b =>
    intro d hd
    simp only [List.cons_append, List.head?_cons, Option.mem_def, Option.some.injEq] at hd
    subst hd
    rcases h c (by simp) with rfl | rfl | rfl | rfl <;> decide

theorem value_starts {L : FloatLib} {t : Str} {v : Json} (h : ValueText L t v) :
    ∃ c t', t = c :: t' ∧ Json.Starts c := by
  unfold Json.Starts
  cases h with
  | null => exact ⟨'n', "ull".toList, rfl, .inl rfl⟩
  | true => exact ⟨'t', "rue".toList, rfl, .inr (.inl rfl)⟩
  | false => exact ⟨'f', "alse".toList, rfl, .inr (.inr (.inl rfl))⟩
  | number h =>
    rcases parseNumber_complete h with ⟨t', rfl, _⟩ | ⟨c, t', rfl, hc, _⟩
    · exact ⟨_, _, rfl, by simp⟩
    · exact ⟨_, _, rfl, by simp [hc]⟩
  | string h =>
    obtain ⟨x, _, rfl⟩ := h
    exact ⟨_, _, rfl, by simp⟩
  | emptyArray => exact ⟨_, _, rfl, by simp⟩
  | array => exact ⟨_, _, rfl, by simp⟩
  | emptyObject => exact ⟨_, _, rfl, by simp⟩
  | object => exact ⟨_, _, rfl, by simp⟩

theorem skip_value {L : FloatLib} {a t : Str} {v : Json} (ha : Blank a) (h : ValueText L t v) (r : Str) :
    skipWs (a ++ (t ++ r)) = t ++ r := by
  obtain ⟨c, t', rfl, hc⟩ := value_starts h
  rw [skipWs_blank ha, List.cons_append, Json.skipWs_starts _ hc]

theorem elements_no_bracket {L : FloatLib} {t : Str} {l : List Json} (h : ElementsText L t l) (r r' : Str) :
    skipWs (t ++ r) ≠ ']' :: r' := by
  have key : ∀ {a t : Str} {v : Json}, Blank a → ValueText L t v → ∀ x, skipWs (a ++ (t ++ x)) ≠ ']' :: r' := by
    intro a t v ha hv x he
    rw [skip_value ha hv] at he
    obtain ⟨c, t', rfl, hc⟩ := value_starts hv
    simp only [List.cons_append, List.cons.injEq] at he
    exact Json.starts_ne hc (by decide) (by decide) he.1
  cases h with
  | one ha hv hb => simpa using key ha hv _
  | more ha hv hb hr => simpa using key ha hv _

theorem members_no_brace {L : FloatLib} {t : Str} {m : List (Str × Json)} (h : MembersText L t m) (r r' : Str) :
    skipWs (t ++ r) ≠ '}' :: r' := by
  have key : ∀ {a k s : Str}, Blank a → StringText k s → ∀ x, skipWs (a ++ (k ++ x)) ≠ '}' :: r' := by
    rintro a k s ha ⟨y, _, rfl⟩ x he
    rw [skipWs_blank ha] at he
    simp only [List.cons_append, Json.skipWs_cons _ (show '"' ≠ ' ' by decide) (show '"' ≠ '\n' by decide)
      (show '"' ≠ '\t' by decide) (show '"' ≠ '\r' by decide), List.cons.injEq] at he
    exact absurd he.1 (by decide)
  cases h with
  | one ha hk _ _ _ _ => simpa using key ha hk _
  | more ha hk _ _ _ _ _ => simpa using key ha hk _

theorem members_key {L : FloatLib} {k s b : Str} (hk : StringText k s) (hb : Blank b) (fuel d : Nat) (x : Str) :
    parseMembers L (fuel + 1) d (k ++ (b ++ ':' :: x)) =
      match parseValue L fuel d x with
      | .error e => .error e
      | .ok (v, r) =>
        match skipWs r with
        | '}' :: r => .ok ([(s, v)], r)
        | ',' :: r =>
          match parseMembers L fuel d r with
          | .error e => .error e
          | .ok (m, r) => .ok ((s, v) :: m, r)
        | _ => .error .encoding := by
  obtain ⟨y, hy, rfl⟩ := hk
  have e : '"' :: y ++ ['"'] ++ (b ++ ':' :: x) = '"' :: (y ++ '"' :: (b ++ ':' :: x)) := by simp
  rw [e, Json.parseMembers_quote, (parseStr_iff _ _ _).2 ⟨y, hy, rfl⟩]
  dsimp only
  unfold Json.afterKey
  rw [skipWs_blank hb]
  rfl

mutual
theorem parseValue_text {L : FloatLib} : ∀ {t : Str} {v : Json}, ValueText L t v →
    ∀ (fuel d : Nat) (a r : Str), Blank a → 2 * t.length ≤ fuel → nesting v < d → EndsNumber r →
      parseValue L fuel d (a ++ (t ++ r)) = .ok (v, r)
  | _, _, h, 0, d, a, r, ha, hf, hn, hr => by
    obtain ⟨c, t', rfl, _⟩ := value_starts h
    simp at hf
  | _, _, .null, fuel + 1, d, a, r, ha, hf, hn, hr => by
    rw [parseValue_blank ha]; rfl
  | _, _, .true, fuel + 1, d, a, r, ha, hf, hn, hr => by
    rw [parseValue_blank ha]; rfl
  | _, _, .false, fuel + 1, d, a, r, ha, hf, hn, hr => by
    rw [parseValue_blank ha]; rfl
  | t, v, .number h, fuel + 1, d, a, r, ha, hf, hn, hr => by
    rw [parseValue_blank ha]
    rcases parseNumber_complete h with ⟨t', rfl, hp⟩ | ⟨c, t', rfl, hc, hp⟩
    · rw [List.cons_append, Json.parseValue_minus]
      exact hp r hr
    · rw [List.cons_append, Json.parseValue_digit L fuel d c (t' ++ r) hc]
      exact hp r hr
  | _, _, .string h, fuel + 1, d, a, r, ha, hf, hn, hr => by
    obtain ⟨x, hx, rfl⟩ := h
    have : parseStr (x ++ '"' :: r) = .ok (_, r) := (parseStr_iff _ _ _).2 ⟨x, hx, rfl⟩
    have e : '"' :: x ++ ['"'] ++ r = '"' :: (x ++ '"' :: r) := by simp
    rw [parseValue_blank ha, e, Json.parseValue_quote, this]
  | _, _, .emptyArray (a := b) hb, fuel + 1, d, a, r, ha, hf, hn, hr => by
    have hd : ¬ d ≤ 1 := by simp only [nesting, nestingL] at hn; omega
    have e : '[' :: b ++ [']'] ++ r = '[' :: (b ++ ']' :: r) := by simp
    have hs : skipWs (b ++ ']' :: r) = ']' :: r := by rw [skipWs_blank hb]; rfl
    rw [parseValue_blank ha, e, Json.parseValue_bracket, if_neg hd, hs]
    rfl
  | _, _, .array (t := t) (l := l) h, fuel + 1, d, a, r, ha, hf, hn, hr => by
    have hd : ¬ d ≤ 1 := by simp only [nesting] at hn; omega
    have ih := parseElems_text h fuel (d - 1) r
      (by simp only [List.length_cons, List.length_append, List.length_nil] at hf; omega)
      (by simp only [nesting] at hn; omega)
    have e : '[' :: t ++ [']'] ++ r = '[' :: (t ++ ']' :: r) := by simp
    rw [parseValue_blank ha, e, Json.parseValue_bracket, if_neg hd]
    rw [← parseElems_skip] at ih
    split
    · rename_i r' heq
      exact absurd heq (elements_no_bracket h _ _)
    · rw [ih]
  | _, _, .emptyObject (a := b) hb, fuel + 1, d, a, r, ha, hf, hn, hr => by
    have hd : ¬ d ≤ 1 := by simp only [nesting, nestingM] at hn; omega
    have e : '{' :: b ++ ['}'] ++ r = '{' :: (b ++ '}' :: r) := by simp
    have hs : skipWs (b ++ '}' :: r) = '}' :: r := by rw [skipWs_blank hb]; rfl
    rw [parseValue_blank ha, e, Json.parseValue_brace, if_neg hd, hs]
    rfl
  | _, _, .object (t := t) (m := m) h, fuel + 1, d, a, r, ha, hf, hn, hr => by
    have hd : ¬ d ≤ 1 := by simp only [nesting] at hn; omega
    have ih := parseMembers_text h fuel (d - 1) r
      (by simp only [List.length_cons, List.length_append, List.length_nil] at hf; omega)
      (by simp only [nesting] at hn; omega)
    have e : '{' :: t ++ ['}'] ++ r = '{' :: (t ++ '}' :: r) := by simp
    rw [parseValue_blank ha, e, Json.parseValue_brace, if_neg hd]
    rw [← parseMembers_skip] at ih
    split
    · rename_i r' heq
      exact absurd heq (members_no_brace h _ _)
    · rw [ih]
theorem parseElems_text {L : FloatLib} : ∀ {t : Str} {l : List Json}, ElementsText L t l →
    ∀ (fuel d : Nat) (r : Str), 2 * t.length + 1 ≤ fuel → nestingL l < d →
      parseElems L fuel d (t ++ ']' :: r) = .ok (l, r)
  | _, _, h, 0, d, r, hf, hn => by omega
  | _, _, .one (a := a) (t := t) (b := b) ha hv hb, fuel + 1, d, r, hf, hn => by
    have ih := parseValue_text hv fuel d a (b ++ ']' :: r) ha
      (by simp only [List.length_append] at hf; omega) (by simp only [nestingL] at hn; omega)
      (endsNumber_blank hb (Json.endsNumber_bracket r))
    have e : a ++ (t ++ b) ++ ']' :: r = a ++ (t ++ (b ++ ']' :: r)) := by simp
    rw [parseElems, e, ih]
    dsimp only
    rw [skipWs_blank hb]
    rfl
  | _, _, .more (a := a) (t := t) (b := b) (r := r') ha hv hb hr, fuel + 1, d, r, hf, hn => by
    have ih := parseValue_text hv fuel d a (b ++ ',' :: (r' ++ ']' :: r)) ha
      (by simp only [List.length_append] at hf; omega) (by simp only [nestingL] at hn; omega)
      (endsNumber_blank hb (Json.endsNumber_comma _))
    have ih' := parseElems_text hr fuel d r
      (by simp only [List.length_append, List.length_cons] at hf; omega)
      (by simp only [nestingL] at hn; omega)
    have e : a ++ (t ++ (b ++ ',' :: r')) ++ ']' :: r = a ++ (t ++ (b ++ ',' :: (r' ++ ']' :: r))) := by simp
    rw [parseElems, e, ih]
    dsimp only
    rw [skipWs_blank hb]
    show (match parseElems L fuel d (r' ++ ']' :: r) with
      | .error e => Except.error e
      | .ok (l, r) => .ok (_ :: l, r)) = _
    rw [ih']
theorem parseMembers_text {L : FloatLib} : ∀ {t : Str} {m : List (Str × Json)}, MembersText L t m →
    ∀ (fuel d : Nat) (r : Str), 2 * t.length + 1 ≤ fuel → nestingM m < d →
      parseMembers L fuel d (t ++ '}' :: r) = .ok (m, r)
  | _, _, h, 0, d, r, hf, hn => by omega
  | _, _, .one (a := a) (k := k) (b := b) (c := c) (t := t) (d := d') (s := s) ha hk hb hc hv hd,
      fuel + 1, d, r, hf, hn => by
    have ih := parseValue_text hv fuel d c (d' ++ '}' :: r) hc
      (by simp only [List.length_append, List.length_cons] at hf; omega)
      (by simp only [nestingM] at hn; omega) (endsNumber_blank hd (Json.endsNumber_brace r))
    have e : a ++ (k ++ (b ++ ':' :: (c ++ (t ++ d')))) ++ '}' :: r =
      a ++ (k ++ (b ++ ':' :: (c ++ (t ++ (d' ++ '}' :: r))))) := by simp
    rw [e, ← parseMembers_skip, skipWs_blank ha, parseMembers_skip, members_key hk hb, ih]
    dsimp only
    rw [skipWs_blank hd]
    rfl
  | _, _, .more (a := a) (k := k) (b := b) (c := c) (t := t) (d := d') (r := r') (s := s)
      ha hk hb hc hv hd hr, fuel + 1, d, r, hf, hn => by
    have ih := parseValue_text hv fuel d c (d' ++ ',' :: (r' ++ '}' :: r)) hc
      (by simp only [List.length_append, List.length_cons] at hf; omega)
      (by simp only [nestingM] at hn; omega) (endsNumber_blank hd (Json.endsNumber_comma _))
    have ih' := parseMembers_text hr fuel d r
      (by simp only [List.length_append, List.length_cons] at hf; omega)
      (by simp only [nestingM] at hn; omega)
    have e : a ++ (k ++ (b ++ ':' :: (c ++ (t ++ (d' ++ ',' :: r'))))) ++ '}' :: r =
      a ++ (k ++ (b ++ ':' :: (c ++ (t ++ (d' ++ ',' :: (r' ++ '}' :: r)))))) := by simp
    rw [e, ← parseMembers_skip, skipWs_blank ha, parseMembers_skip, members_key hk hb, ih]
    dsimp only
    rw [skipWs_blank hd]
    show (match parseMembers L fuel d (r' ++ '}' :: r) with
      | .error e => Except.error e
      | .ok (m, r) => .ok (_ :: m, r)) = _
    rw [ih']
end

theorem utf8_fromUtf8 {b : Bytes} {s : Str} (h : fromUtf8 b = some s) : b = utf8 s := by
  unfold fromUtf8 at h
  cases hd : ByteArray.utf8Decode? b.toByteArray with
  | none => rw [hd] at h; cases h
  | some a =>
    rw [hd] at h
    simp only [Option.map_some, Option.some.injEq] at h
    have hs : (ByteArray.utf8Decode? b.toByteArray).isSome := by rw [hd]; rfl
    have := ByteArray.utf8Encode_get_utf8Decode? (h := hs)
    simp only [hd, Option.get_some, h] at this
    have e : (utf8 s).toByteArray = s.utf8Encode := by
      unfold List.utf8Encode utf8; rfl
    rw [← e] at this
    have := congrArg (fun a : ByteArray => a.data.toList) this
    simpa using this.symm

theorem jsonText_parses {L : FloatLib} {s : Str} {v : Json} (h : JsonText L s v) (d fuel : Nat)
    (hd : nesting v < d) (hf : 2 * s.length ≤ fuel) :
    ∃ r, Blank r ∧ parseValue L fuel d s = .ok (v, r) := by
  obtain ⟨a, t, b, ha, hv, hb, rfl⟩ := h
  refine ⟨b, hb, parseValue_text hv fuel d a b ha ?_ hd ?_⟩
  · simp only [List.length_append] at hf; omega
  · have := endsNumber_blank hb Json.endsNumber_nil
    rwa [List.append_nil] at this

/-! ## C114 -/

/-- **C114.** A text is read as a value if and only if the grammar of RFC 8259 derives the text with that
value, and the value is nested less than 128 levels deep. -/
theorem C114_texts (L : FloatLib) (s : Str) (v : Json) :
    parseText L s = .ok v ↔ JsonText L s v ∧ nesting v < 128 := by
  constructor
  · intro h
    unfold parseText at h
    split at h
    · cases h
    · rename_i w r hp
      split at h
      · rename_i he
        cases h
        obtain ⟨a, t, ha, hv, rfl, hn⟩ := (parse_sound L _).1 _ _ _ _ (by omega) hp
        exact ⟨⟨a, t, r, ha, hv, blank_of_skipWs (List.isEmpty_iff.1 he), rfl⟩, hn⟩
      · cases h
  · rintro ⟨h, hn⟩
    obtain ⟨r, hr, hp⟩ := jsonText_parses h 128 (2 * s.length + 2) hn (by omega)
    unfold parseText
    rw [hp]
    have : skipWs r = [] := by
      have := skipWs_blank hr []
      rwa [List.append_nil] at this
    simp [this]

/-- **C114.** The same for documents as they are fetched: they are read if and only if they are the UTF-8
form of a JSON text nested less than 128 levels deep, and then as what the grammar says. -/
theorem C114_documents (L : FloatLib) (b : Bytes) (v : Json) :
    parseJson L b = .ok v ↔ ∃ s, b = utf8 s ∧ JsonText L s v ∧ nesting v < 128 := by
  unfold parseJson
  constructor
  · intro h
    split at h
    · cases h
    · rename_i s hs
      exact ⟨s, utf8_fromUtf8 hs, (C114_texts L s v).1 h⟩
  · rintro ⟨s, rfl, h⟩
    rw [Props.fromUtf8_utf8]
    exact (C114_texts L s v).2 h

/-- **C114.** The grammar gives a text at most one meaning, so that any two readers that follow RFC 8259
and agree on floating point numbers read the same. -/
theorem C114_one_meaning (L : FloatLib) (s : Str) (v w : Json) (hv : JsonText L s v)
    (hw : JsonText L s w) : v = w := by
  obtain ⟨r, _, h⟩ := jsonText_parses hv (max (nesting v) (nesting w) + 1) (2 * s.length) (by omega) le_rfl
  obtain ⟨r', _, h'⟩ := jsonText_parses hw (max (nesting v) (nesting w) + 1) (2 * s.length) (by omega) le_rfl
  rw [h] at h'
  simp only [Except.ok.injEq, Prod.mk.injEq] at h'
  exact h'.1

/-- **C114.** Bytes that are not such a document are refused as wrongly encoded, whatever is to be read
from them. -/
theorem C114_others_are_refused {α : Type} (L : FloatLib) (f : Json → Option α) (b : Bytes)
    (h : ¬ ∃ s v, b = utf8 s ∧ JsonText L s v ∧ nesting v < 128) :
    fromSlice L f b = .error .encoding := by
  unfold fromSlice
  cases hp : parseJson L b with
  | error e => rw [parseJson_error hp]
  | ok v =>
    obtain ⟨s, h1, h2⟩ := (C114_documents L b v).1 hp
    exact absurd ⟨s, v, h1, h2⟩ h

/-- **C114.** What is read from bytes is decoded from the value that the grammar gives them. -/
theorem C114_decoded {α : Type} (L : FloatLib) (f : Json → Option α) (b : Bytes) (x : α) :
    fromSlice L f b = .ok x ↔
      ∃ s v, b = utf8 s ∧ JsonText L s v ∧ nesting v < 128 ∧ f v = some x := by
  unfold fromSlice
  constructor
  · intro h
    cases hp : parseJson L b with
    | error e => rw [hp] at h; cases h
    | ok v =>
      obtain ⟨s, h1, h2, h3⟩ := (C114_documents L b v).1 hp
      rw [hp] at h
      dsimp only at h
      cases hx : f v with
      | none => rw [hx] at h; cases h
      | some y => rw [hx] at h; cases h; exact ⟨s, v, h1, h2, h3, hx⟩
  · rintro ⟨s, v, h1, h2, h3, hx⟩
    rw [(C114_documents L b v).2 ⟨s, h1, h2, h3⟩]
    dsimp only
    rw [hx]

/-- **C114.** The canonical form of a value is a JSON text for that value. -/
theorem C114_canonical_form_is_json (L : FloatLib) (v : Json) (b : Bytes) (hd : nesting v < 128)
    (h : Json.canonicalize v = .ok b) : ∃ s, b = utf8 s ∧ JsonText L s v.normal := by
  obtain ⟨s, h1, h2, _⟩ := (C114_documents L b _).1 (Props.C68_canonical_bytes_read_back_normal L v b hd h)
  exact ⟨s, h1, h2⟩

/-- **C114.** A client accepts nothing but JSON texts as metadata. -/
theorem C114_accepted_metadata {M : Type} (X : ShimLib) (ringVerify : Scheme → Bytes → Bytes → Bytes → Bool)
    (sigOrder : Map KeyId Signature → List (KeyId × Signature)) (hperm : ∀ m, (sigOrder m).Perm m)
    (decode : Bytes → Except Err M) (raw : Bytes) (n : Nat) (keys : List PublicKey) (m : M)
    (h : verifySignatures (jsonEnv X ringVerify sigOrder hperm) decode raw n keys = .ok m) :
    ∃ s v, raw = utf8 s ∧ JsonText X.float s v ∧ nesting v < 128 := by
  by_contra hn
  have hp : (jsonEnv X ringVerify sigOrder hperm).parseSigned raw = .error .encoding :=
    C114_others_are_refused _ _ _ hn
  unfold verifySignatures at h
  rw [hp] at h
  dsimp only at h
  split at h <;> cases h

mutual
theorem nesting_value {L : FloatLib} : ∀ {t : Str} {v : Json}, ValueText L t v → nesting v < t.length
  | _, _, .null | _, _, .true | _, _, .false => by decide
  | _, _, .number h => by
    obtain ⟨c, t, e, _⟩ := value_starts (.number h)
    have hl := congrArg List.length e
    rw [List.length_cons] at hl
    have : ∀ {t v}, NumberText L t v → nesting v = 0 := by
      intro t v h
      cases h <;> rfl
    rw [this h]
    omega
  | _, _, .string h => by
    obtain ⟨x, _, rfl⟩ := h
    simp [nesting]
  | _, _, .emptyArray _ | _, _, .emptyObject _ => by simp [nesting, nestingL, nestingM]
  | _, _, .array h => by
    have := nesting_elements h
    simp only [nesting, List.length_append, List.length_cons, List.length_nil]; omega
  | _, _, .object h => by
    have := nesting_members h
    simp only [nesting, List.length_append, List.length_cons, List.length_nil]; omega
theorem nesting_elements {L : FloatLib} : ∀ {t : Str} {l : List Json}, ElementsText L t l →
    nestingL l ≤ t.length
  | _, _, .one _ h _ => by
    have := nesting_value h
    simp only [nestingL, List.length_append]; omega
  | _, _, .more _ h _ hr => by
    have := nesting_value h
    have := nesting_elements hr
    simp only [nestingL, List.length_append, List.length_cons]; omega
theorem nesting_members {L : FloatLib} : ∀ {t : Str} {m : List (Str × Json)}, MembersText L t m →
    nestingM m ≤ t.length
  | _, _, .one _ _ _ _ h _ => by
    have := nesting_value h
    simp only [nestingM, List.length_append, List.length_cons]; omega
  | _, _, .more _ _ _ _ h _ hr => by
    have := nesting_value h
    have := nesting_members hr
    simp only [nestingM, List.length_append, List.length_cons]; omega
end

/-- **C114.** Texts of at most 128 characters are never refused for their nesting. -/
theorem C114_short_texts (L : FloatLib) (s : Str) (v : Json) (hs : s.length ≤ 128) :
    parseText L s = .ok v ↔ JsonText L s v := by
  rw [C114_texts]
  refine ⟨fun h => h.1, fun h => ⟨h, ?_⟩⟩
  obtain ⟨a, t, b, _, hv, _, rfl⟩ := h
  have := nesting_value hv
  simp only [List.length_append] at hs
  omega

/-! ### Examples -/

namespace GrammarExample

def noFloats : FloatLib := ⟨fun _ => none⟩

/-- A text with white space, both kinds of escapes, a surrogate pair and a repeated member. -/
example : JsonText noFloats
    " { \"a\\n\" : [ -7 , true ,null],\r\n\"\\u00e9\\uD83D\\uDE00\":\"\\/\",\"a\\n\":{} } ".toList
    (.obj [("a\n".toList, .arr [.int (-7), .bool true, .null]), ("é😀".toList, .str "/".toList),
      ("a\n".toList, .obj [])]) :=
  ((C114_texts _ _ _).1 (by decide +kernel)).1

/-- Numbers that are not integers, or are too large, are what the parameter says. -/
example : JsonText ⟨fun s => if s = "1.5e3".toList then some 17 else none⟩ "[1.5e3]".toList
    (.arr [.float 17]) :=
  ((C114_texts _ _ _).1 (by decide +kernel)).1

/-- Texts that are not JSON are not read: a comma after the last element or member, a number that begins
with zero, half a surrogate pair, a line feed within a string, anything after the value, nothing at all. -/
example : ∀ s ∈ ["[1,]", "{\"a\":1,}", "01", "\"\\uD83D\"", "\"\n\"", "{} x", " ", "[1 2]", "'a'", "nul",
    "+1", "-", "1.", "{a:1}", "\"a"], ∀ v, ¬ JsonText noFloats s.toList v := by
  have h : ∀ s ∈ ["[1,]", "{\"a\":1,}", "01", "\"\\uD83D\"", "\"\n\"", "{} x", " ", "[1 2]", "'a'", "nul",
      "+1", "-", "1.", "{a:1}", "\"a"],
      s.toList.length ≤ 128 ∧ parseText noFloats s.toList = .error .encoding := by decide +kernel
  intro s hs v hv
  rw [← C114_short_texts _ _ _ (h s hs).1, (h s hs).2] at hv
  cases hv

end GrammarExample

end RustTuf
