import Verif.Spec.FilePath

/-! Lemmas about splitting and joining paths. -/

namespace RustTuf
open Spec

theorem splitOn_ne_nil (sep : Char) (s : Str) : splitOn sep s ≠ [] := by
  induction s with
  | nil => simp [splitOn]
  | cons c cs ih =>
    unfold splitOn
    split
    · simp
    · split <;> simp

theorem splitOn_cons_sep (sep : Char) (cs : Str) :
    splitOn sep (sep :: cs) = [] :: splitOn sep cs := by
  simp [splitOn]

theorem splitOn_cons_ne (sep c : Char) (cs : Str) (h : c ≠ sep) :
    ∃ x xs, splitOn sep cs = x :: xs ∧ splitOn sep (c :: cs) = (c :: x) :: xs := by
  cases hs : splitOn sep cs with
  | nil => exact absurd hs (splitOn_ne_nil sep cs)
  | cons x xs => exact ⟨x, xs, rfl, by simp [splitOn, h, hs]⟩

theorem splitOn_append (sep : Char) (a b : Str) :
    splitOn sep (a ++ sep :: b) = splitOn sep a ++ splitOn sep b := by
  induction a with
  | nil => simp [splitOn]
  | cons c cs ih =>
    by_cases h : c = sep
    · subst h
      rw [List.cons_append, splitOn_cons_sep, splitOn_cons_sep, ih]; rfl
    · obtain ⟨x, xs, e1, e2⟩ := splitOn_cons_ne sep c cs h
      obtain ⟨y, ys, e3, e4⟩ := splitOn_cons_ne sep c (cs ++ sep :: b) h
      rw [List.cons_append, e4, e2]
      rw [ih, e1] at e3
      simp only [List.cons_append, List.cons.injEq] at e3
      obtain ⟨rfl, rfl⟩ := e3
      rfl

theorem splitOn_of_not_mem (sep : Char) (s : Str) (h : sep ∉ s) : splitOn sep s = [s] := by
  induction s with
  | nil => rfl
  | cons c cs ih =>
    simp only [List.mem_cons, not_or] at h
    obtain ⟨x, xs, e1, e2⟩ := splitOn_cons_ne sep c cs (fun e => h.1 e.symm)
    rw [ih h.2] at e1
    cases e1
    exact e2

theorem mem_splitOn_no_sep (sep : Char) (s c : Str) (h : c ∈ splitOn sep s) : sep ∉ c := by
  induction s generalizing c with
  | nil => simp [splitOn] at h; subst h; simp
  | cons d ds ih =>
    by_cases hd : d = sep
    · subst hd
      rw [splitOn_cons_sep] at h
      rcases List.mem_cons.1 h with rfl | h
      · simp
      · exact ih c h
    · obtain ⟨x, xs, e1, e2⟩ := splitOn_cons_ne sep d ds hd
      rw [e2] at h
      rcases List.mem_cons.1 h with rfl | h
      · simp only [List.mem_cons, not_or]
        exact ⟨fun e => hd e.symm, ih x (by rw [e1]; simp)⟩
      · exact ih c (by rw [e1]; simp [h])

theorem mem_splitOn_subset (sep : Char) (s c : Str) (h : c ∈ splitOn sep s) : ∀ x ∈ c, x ∈ s := by
  induction s generalizing c with
  | nil => simp [splitOn] at h; subst h; simp
  | cons d ds ih =>
    by_cases hd : d = sep
    · subst hd
      rw [splitOn_cons_sep] at h
      rcases List.mem_cons.1 h with rfl | h
      · simp
      · intro x hx; simp [ih c h x hx]
    · obtain ⟨y, ys, e1, e2⟩ := splitOn_cons_ne sep d ds hd
      rw [e2] at h
      rcases List.mem_cons.1 h with rfl | h
      · intro x hx
        rcases List.mem_cons.1 hx with rfl | hx
        · simp
        · simp [ih y (by rw [e1]; simp) x hx]
      · intro x hx; simp [ih c (by rw [e1]; simp [h]) x hx]

theorem joinWith_splitOn (sep : Char) (s : Str) : joinWith sep (splitOn sep s) = s := by
  induction s with
  | nil => rfl
  | cons c cs ih =>
    by_cases h : c = sep
    · subst h
      rw [splitOn_cons_sep]
      cases hs : splitOn c cs with
      | nil => exact absurd hs (splitOn_ne_nil c cs)
      | cons x xs => rw [hs] at ih; simp [joinWith, ih]
    · obtain ⟨x, xs, e1, e2⟩ := splitOn_cons_ne sep c cs h
      rw [e2]
      rw [e1] at ih
      cases xs with
      | nil => simp [joinWith] at ih ⊢; exact ih
      | cons y ys => simp only [joinWith, List.cons_append] at ih ⊢; rw [ih]

theorem splitOn_injective (sep : Char) {a b : Str} (h : splitOn sep a = splitOn sep b) : a = b := by
  rw [← joinWith_splitOn sep a, ← joinWith_splitOn sep b, h]

theorem splitOn_joinWith (sep : Char) (l : List Str) (hne : l ≠ []) (h : ∀ c ∈ l, sep ∉ c) :
    splitOn sep (joinWith sep l) = l := by
  induction l with
  | nil => exact absurd rfl hne
  | cons c cs ih =>
    cases cs with
    | nil => exact splitOn_of_not_mem sep c (h c (by simp))
    | cons d ds =>
      have e : joinWith sep (c :: d :: ds) = c ++ sep :: joinWith sep (d :: ds) := rfl
      rw [e, splitOn_append, ih (by simp) (fun x hx => h x (by simp only [List.mem_cons] at hx ⊢; exact .inr hx)),
        splitOn_of_not_mem sep c (h c (by simp))]
      rfl

theorem dropLast_append_getLastD (l : List Str) (h : l ≠ []) : l.dropLast ++ [l.getLastD []] = l := by
  rw [List.getLastD_eq_getLast?, List.getLast?_eq_some_getLast h]
  exact List.dropLast_concat_getLast h

/-! ### Decimal numbers -/

theorem digitsRev_lt (fuel n d : Nat) (h : d ∈ digitsRev fuel n) : d < 10 := by
  induction fuel generalizing n with
  | zero => cases h
  | succ f ih =>
    unfold digitsRev at h
    split at h
    · simp at h; omega
    · rcases List.mem_cons.1 h with rfl | h
      · omega
      · exact ih _ h

/-- Value of a digit list, least significant first. -/
def valRev : List Nat → Nat
  | [] => 0
  | d :: ds => d + 10 * valRev ds

theorem valRev_digitsRev (fuel n : Nat) (h : n < fuel) : valRev (digitsRev fuel n) = n := by
  induction fuel generalizing n with
  | zero => omega
  | succ f ih =>
    unfold digitsRev
    split
    · simp [valRev]
    · simp only [valRev]
      rw [ih (n / 10) (by omega)]
      omega

theorem digitChar_inj : ∀ a < 10, ∀ b < 10, digitChar a = digitChar b → a = b := by decide

theorem map_inj_on {α β : Type} (f : α → β) (l l' : List α)
    (hf : ∀ a ∈ l, ∀ b ∈ l', f a = f b → a = b) (h : l.map f = l'.map f) : l = l' := by
  induction l generalizing l' with
  | nil => cases l' with
    | nil => rfl
    | cons => cases h
  | cons x xs ih =>
    cases l' with
    | nil => cases h
    | cons y ys =>
      simp only [List.map_cons, List.cons.injEq] at h
      rw [hf x (by simp) y (by simp) h.1,
        ih ys (fun a ha b hb => hf a (by simp [ha]) b (by simp [hb])) h.2]

theorem decimal_injective {m n : Nat} (h : decimal m = decimal n) : m = n := by
  unfold decimal at h
  have := map_inj_on digitChar _ _ (fun a ha b hb => digitChar_inj a
    (digitsRev_lt _ _ _ (List.mem_reverse.1 ha)) b (digitsRev_lt _ _ _ (List.mem_reverse.1 hb))) h
  have := List.reverse_inj.1 this
  rw [← valRev_digitsRev (m + 1) m (by omega), this, valRev_digitsRev (n + 1) n (by omega)]

theorem digitChar_range : ∀ d < 10, 48 ≤ (digitChar d).toNat ∧ (digitChar d).toNat ≤ 57 := by decide

theorem decimal_chars (n : Nat) (c : Char) (h : c ∈ decimal n) : 48 ≤ c.toNat ∧ c.toNat ≤ 57 := by
  unfold decimal at h
  obtain ⟨d, hd, rfl⟩ := List.mem_map.1 h
  exact digitChar_range d (digitsRev_lt _ _ _ (List.mem_reverse.1 hd))

theorem decimal_no (n : Nat) (c : Char) (h : c.toNat < 48 ∨ 57 < c.toNat) : c ∉ decimal n := by
  intro hm
  have := decimal_chars n c hm
  omega

theorem decimal_ne_nil (n : Nat) : decimal n ≠ [] := by
  intro h
  have : (digitsRev (n + 1) n) ≠ [] := by
    unfold digitsRev
    split <;> simp
  unfold decimal at h
  simp at h
  exact this h

/-! ### Hexadecimal -/

theorem hexDigit_inj : ∀ a < 16, ∀ b < 16, hexDigit a = hexDigit b → a = b := by decide
theorem hexDigit_range : ∀ d < 16, 48 ≤ (hexDigit d).toNat ∧ (hexDigit d).toNat ≤ 102 := by decide

theorem hexLower_injective {a b : Bytes} (h : hexLower a = hexLower b) : a = b := by
  induction a generalizing b with
  | nil =>
    cases b with
    | nil => rfl
    | cons y ys => simp [hexLower] at h
  | cons x xs ih =>
    cases b with
    | nil => simp [hexLower] at h
    | cons y ys =>
      simp only [hexLower, List.flatMap_cons, List.cons_append, List.nil_append, List.cons.injEq] at h
      have hx := x.toNat_lt
      have hy := y.toNat_lt
      have h1 := hexDigit_inj _ (by omega) _ (by omega) h.1
      have h2 := hexDigit_inj _ (by omega) _ (by omega) h.2.1
      have : x = y := UInt8.toNat_inj.1 (by omega)
      rw [this, ih h.2.2]

theorem hexLower_chars (bs : Bytes) (c : Char) (h : c ∈ hexLower bs) :
    48 ≤ c.toNat ∧ c.toNat ≤ 102 ∧ c ≠ '<' ∧ c ≠ '>' ∧ c ≠ '?' ∧ c ≠ ':' ∧ c ≠ '\\' := by
  unfold hexLower at h
  rw [List.mem_flatMap] at h
  obtain ⟨b, _, hc⟩ := h
  have hb := b.toNat_lt
  have key : ∀ d < 16, 48 ≤ (hexDigit d).toNat ∧ (hexDigit d).toNat ≤ 102 ∧ hexDigit d ≠ '<' ∧
      hexDigit d ≠ '>' ∧ hexDigit d ≠ '?' ∧ hexDigit d ≠ ':' ∧ hexDigit d ≠ '\\' := by decide
  simp only [List.mem_cons, List.not_mem_nil, or_false] at hc
  rcases hc with rfl | rfl
  · exact key _ (by omega)
  · exact key _ (by omega)

/-! ### Taking a prefix up to a separator apart -/

theorem append_sep_inj {sep : Char} {a a' b b' : Str} (ha : sep ∉ a) (ha' : sep ∉ a')
    (h : a ++ sep :: b = a' ++ sep :: b') : a = a' ∧ b = b' := by
  induction a generalizing a' with
  | nil =>
    cases a' with
    | nil => simpa using h
    | cons c cs => simp at h; exact absurd h.1 (by intro e; subst e; simp at ha')
  | cons c cs ih =>
    cases a' with
    | nil => simp at h; exact absurd h.1 (by rintro rfl; simp at ha)
    | cons d ds =>
      simp only [List.cons_append, List.cons.injEq] at h
      simp only [List.mem_cons, not_or] at ha ha'
      obtain ⟨rfl, rfl⟩ := ih ha.2 ha'.2 h.2
      exact ⟨by rw [h.1], rfl⟩

/-! ### safe_path -/

theorem illegalChars_iff (c : Char) : c ∈ illegalChars ↔
    c ∈ [':', '\\', '<', '>', '"', '|', '?', '*'] ∨ c.toNat < 0x20 ∨ c.toNat = 0x7f := by
  unfold illegalChars
  rw [List.mem_append, List.mem_append]
  constructor
  · rintro ((h | h) | h)
    · exact .inl h
    · obtain ⟨n, hn, rfl⟩ := List.mem_map.1 h
      have key : ∀ n ∈ List.range 0x20, (Char.ofNat n).toNat < 0x20 := by decide
      exact .inr (.inl (key n hn))
    · rw [List.mem_singleton] at h
      subst h
      right; right; decide
  · rintro (h | h | h)
    · exact .inl (.inl h)
    · refine .inl (.inr (List.mem_map.2 ⟨c.toNat, by simpa using h, by simp⟩))
    · right
      rw [List.mem_singleton, ← h]; simp

theorem safePath_ok_iff (s : Str) : safePath s = .ok () ↔
    s ≠ [] ∧ s.head? ≠ some '/' ∧ (∀ c ∈ s, c ∉ illegalChars) ∧
    ∀ comp ∈ splitOn '/' s, comp ≠ ['.'] ∧ comp ≠ ['.', '.'] ∧ lowercase comp ∉ deviceNames := by
  unfold safePath
  constructor
  · intro h
    split at h
    · cases h
    · split at h
      · cases h
      · split at h
        · cases h
        · split at h
          · cases h
          · rename_i h1 h2 h3 h4
            refine ⟨by simpa using h1, h2, ?_, ?_⟩
            · intro c hc hi
              simp only [List.any_eq_true, not_exists, not_and] at h3
              exact h3 c hi (by simpa using hc)
            · intro comp hcomp
              simp only [List.any_eq_true, not_exists, not_and] at h4
              have := h4 comp hcomp
              simp only [illegalComponents, Bool.or_eq_true, List.contains_eq_mem,
                decide_eq_true_eq, not_or] at this
              refine ⟨?_, ?_, this.2⟩
              · intro e; apply this.1; rw [e]; decide
              · intro e; apply this.1; rw [e]; decide
  · rintro ⟨h1, h2, h3, h4⟩
    have e1 : s.isEmpty = false := by cases s <;> simp_all
    have e3 : illegalChars.any (fun c => s.contains c) = false := by
      rw [List.any_eq_false]
      intro c hc hs
      exact h3 c (by simpa using hs) hc
    have e4 : (splitOn '/' s).any (fun comp =>
      illegalComponents.contains comp || deviceNames.contains (lowercase comp)) = false := by
      rw [List.any_eq_false]
      intro comp hcomp
      obtain ⟨a, b, c⟩ := h4 comp hcomp
      have d1 : ".".toList = ['.'] := by decide
      have d2 : "..".toList = ['.', '.'] := by decide
      simp [illegalComponents, a, b, c]
    rw [if_neg (by simp [e1]), if_neg h2, if_neg (by rw [e3]; simp), if_neg (by rw [e4]; simp)]

theorem toLower_not_upper (c : Char) (u : Char) (hu : u.isUpper = true) : c.toLower ≠ u := by
  rintro rfl
  by_cases hc : c.isUpper
  · have : ∀ n, 65 ≤ n → n ≤ 90 → (Char.ofNat n).toLower.isUpper = false := by
      intro n h1 h2
      have key : ∀ k < 26, (Char.ofNat (65 + k)).toLower.isUpper = false := by decide
      have := key (n - 65) (by omega)
      rwa [show 65 + (n - 65) = n by omega] at this
    have hr : 65 ≤ c.toNat ∧ c.toNat ≤ 90 := by
      simp only [Char.isUpper, decide_eq_true_eq] at hc
      exact ⟨hc.1, hc.2⟩
    have := this c.toNat hr.1 hr.2
    rw [Char.ofNat_toNat] at this
    rw [this] at hu; cases hu
  · have : c.toLower = c := by
      simp only [Char.isUpper, decide_eq_true_eq] at hc
      unfold Char.toLower
      split
      · rename_i h; exact absurd h (by simpa using hc)
      · rfl
    rw [this] at hu
    exact hc hu

/-- The device name check never fires: every listed name has an upper-case letter. -/
theorem lowercase_not_device (s : Str) : lowercase s ∉ deviceNames := by
  intro h
  have key : ∀ d ∈ deviceNames, ∃ u ∈ d, u.isUpper = true := by decide
  obtain ⟨u, hu, hup⟩ := key _ h
  unfold lowercase at hu
  obtain ⟨c, _, rfl⟩ := List.mem_map.1 hu
  exact toLower_not_upper c _ hup rfl

end RustTuf

namespace RustTuf
open Spec

/-! ### Path resolution -/

theorem pieces_eq (s : Str) : pieces s = splitOn '/' s := by
  unfold pieces
  induction s with
  | nil => rfl
  | cons c cs ih =>
    have e := List.splitOnP_cons_eq_if_modifyHead (p := fun x => x == '/') c cs
    have e0 : List.splitOn '/' (c :: cs) = List.splitOnP (fun x => x == '/') (c :: cs) := rfl
    have e1 : List.splitOn '/' cs = List.splitOnP (fun x => x == '/') cs := rfl
    rw [e0, e, ← e1, ih]
    by_cases h : c = '/'
    · subst h; simp [splitOn]
    · obtain ⟨x, xs, e2, e3⟩ := splitOn_cons_ne '/' c cs h
      rw [e2, e3]; simp [h]

theorem walk_append (d : List Str) (a b : List Str) : walk d (a ++ b) = walk (walk d a) b := by
  induction a generalizing d with
  | nil => rfl
  | cons c cs ih =>
    simp only [List.cons_append, walk]
    split
    · exact ih d
    · split <;> exact ih _

theorem walk_plain (d : List Str) (c : Str) (h1 : c ≠ ['.']) (h2 : c ≠ ['.', '.']) :
    walk d [c] = d ++ [c].filter (· ≠ []) := by
  by_cases h : c = []
  · subst h; simp [walk]
  · simp [walk, h, h1, h2]

theorem resolve_push (cwd : List Str) (base c : Str) (hs : '/' ∉ c) (h1 : c ≠ ['.'])
    (h2 : c ≠ ['.', '.']) :
    resolve cwd (pathPush base c) = resolve cwd base ++ [c].filter (· ≠ []) := by
  have hh : c.head? ≠ some '/' := by
    cases c with
    | nil => simp
    | cons x xs => simp at hs ⊢; exact fun e => hs.1 e.symm
  unfold pathPush
  rw [if_neg hh]
  cases hb : base.getLast? with
  | none =>
    have : base = [] := by simpa using hb
    subst this
    simp only [resolve, if_neg hh, pieces_eq, splitOn_of_not_mem _ _ hs, walk_plain cwd c h1 h2]
    simp [splitOn, walk]
  | some x =>
    have hne : base ≠ [] := by rintro rfl; simp at hb
    have e := List.dropLast_concat_getLast hne
    rw [List.getLast?_eq_some_getLast hne] at hb
    have hx : base.getLast hne = x := by injection hb
    rw [hx] at e
    simp only
    split
    · rename_i hx'
      subst hx'
      have hhead : (base ++ c).head? = base.head? := by cases base <;> simp at hne ⊢
      have p1 : pieces (base ++ c) = splitOn '/' base.dropLast ++ [c] := by
        rw [pieces_eq]
        conv => lhs; rw [← e]
        rw [List.append_assoc, List.singleton_append, splitOn_append, splitOn_of_not_mem _ _ hs]
      have p2 : pieces base = splitOn '/' base.dropLast ++ [[]] := by
        rw [pieces_eq]
        conv => lhs; rw [← e]
        rw [splitOn_append]; rfl
      have w : ∀ d, walk d (pieces base ) = walk d (splitOn '/' base.dropLast) := by
        intro d; rw [p2, walk_append]; simp [walk]
      unfold resolve
      rw [hhead, w, w, p1]
      split <;> rw [walk_append, walk_plain _ c h1 h2]
    · have hhead : (base ++ '/' :: c).head? = base.head? := by cases base <;> simp at hne ⊢
      unfold resolve
      rw [hhead, pieces_eq, pieces_eq, splitOn_append, splitOn_of_not_mem _ _ hs]
      split <;> rw [walk_append, walk_plain _ c h1 h2]

theorem resolve_extend (cwd : List Str) (comps : List Str) :
    ∀ base : Str, (∀ c ∈ comps, '/' ∉ c ∧ c ≠ ['.'] ∧ c ≠ ['.', '.']) →
    resolve cwd (pathExtend base comps) = resolve cwd base ++ comps.filter (· ≠ []) := by
  induction comps with
  | nil => intro base _; simp [pathExtend]
  | cons c cs ih =>
    intro base h
    have hc := h c (by simp)
    have e : pathExtend base (c :: cs) = pathExtend (pathPush base c) cs := rfl
    rw [e, ih _ (fun x hx => h x (by simp [hx])), resolve_push cwd base c hc.1 hc.2.1 hc.2.2,
      List.append_assoc, ← List.filter_append]
    rfl

/-! ### Accepted paths -/

theorem accepted_component {s : Str} (h : safePath s = .ok ()) {c : Str} (hc : c ∈ splitOn '/' s) :
    Harmless c := by
  obtain ⟨_, _, h3, h4⟩ := (safePath_ok_iff s).1 h
  have sub := mem_splitOn_subset '/' s c hc
  have hi : ∀ x ∈ c, ¬ (x ∈ [':', '\\', '<', '>', '"', '|', '?', '*'] ∨ x.toNat < 0x20 ∨
      x.toNat = 0x7f) := fun x hx hbad => h3 x (sub x hx) ((illegalChars_iff x).2 hbad)
  refine ⟨(h4 c hc).1, (h4 c hc).2.1, mem_splitOn_no_sep '/' s c hc, ?_, ?_, ?_⟩
  · intro hm; exact hi _ hm (.inl (by simp))
  · intro hm; exact hi _ hm (.inl (by simp))
  · intro x hx
    have := hi x hx
    simp only [not_or] at this
    omega

theorem prefixStr_chars (v : MetadataVersion) (x : Char) (h : x ∈ v.prefixStr) :
    x = '.' ∨ (48 ≤ x.toNat ∧ x.toNat ≤ 57) := by
  cases v with
  | none => cases h
  | number n =>
    simp only [MetadataVersion.prefixStr, List.mem_append, List.mem_singleton] at h
    rcases h with h | h
    · exact .inr (decimal_chars n x h)
    · exact .inl h

theorem metadata_name_harmless {c : Str} (hc : Harmless c) (v : MetadataVersion) :
    Harmless (v.prefixStr ++ c ++ ".json".toList) := by
  have mem : ∀ x, x ∈ v.prefixStr ++ c ++ ".json".toList →
      x ∈ c ∨ x ∈ ".json0123456789".toList := by
    intro x hx
    simp only [List.mem_append] at hx
    rcases hx with (hx | hx) | hx
    · right
      rcases prefixStr_chars v x hx with rfl | ⟨h1, h2⟩
      · decide
      · have key : ∀ k < 10, Char.ofNat (48 + k) ∈ ".json0123456789".toList := by decide
        have := key (x.toNat - 48) (by omega)
        rwa [show 48 + (x.toNat - 48) = x.toNat by omega, Char.ofNat_toNat] at this
    · exact .inl hx
    · right
      have key : ∀ y ∈ ".json".toList, y ∈ ".json0123456789".toList := by decide
      exact key x hx
  have hlen : 5 ≤ (v.prefixStr ++ c ++ ".json".toList).length := by
    have : ".json".toList.length = 5 := by decide
    simp only [List.length_append, this]; omega
  refine ⟨?_, ?_, ?_, ?_, ?_, ?_⟩
  · intro e; rw [e] at hlen; simp at hlen
  · intro e; rw [e] at hlen; simp at hlen
  · intro hm
    rcases mem _ hm with h | h
    · exact hc.noSlash h
    · revert h; decide
  · intro hm
    rcases mem _ hm with h | h
    · exact hc.noBackslash h
    · revert h; decide
  · intro hm
    rcases mem _ hm with h | h
    · exact hc.noColon h
    · revert h; decide
  · intro x hx
    rcases mem _ hx with h | h
    · exact hc.noControl x h
    · have key : ∀ y ∈ ".json0123456789".toList, 0x20 ≤ y.toNat ∧ y.toNat ≠ 0x7f := by decide
      exact key x h

theorem getLastD_mem {l : List Str} (h : l ≠ []) : l.getLastD [] ∈ l := by
  rw [List.getLastD_eq_getLast?, List.getLast?_eq_some_getLast h]
  exact List.getLast_mem h

theorem metadata_component {p : Str} (h : safePath p = .ok ()) (v : MetadataVersion) {c : Str}
    (hc : c ∈ MetadataPath.components p v) : Harmless c := by
  unfold MetadataPath.components at hc
  simp only [List.mem_append, List.mem_singleton] at hc
  rcases hc with hc | rfl
  · exact accepted_component h ((List.dropLast_sublist _).subset hc)
  · have := metadata_name_harmless (accepted_component h (getLastD_mem (splitOn_ne_nil '/' p))) v
    simpa [List.append_assoc] using this

/-- The first component of an accepted path is not empty. -/
theorem accepted_head {s : Str} (h : safePath s = .ok ()) :
    ∃ x xs, splitOn '/' s = x :: xs ∧ x ≠ [] := by
  obtain ⟨h1, h2, _, _⟩ := (safePath_ok_iff s).1 h
  cases s with
  | nil => exact absurd rfl h1
  | cons c cs =>
    have hc : c ≠ '/' := by simpa using h2
    obtain ⟨x, xs, _, e2⟩ := splitOn_cons_ne '/' c cs hc
    exact ⟨c :: x, xs, e2, by simp⟩

theorem digitChar_eq {d : Nat} (h : d < 10) : digitChar d = Nat.digitChar d := by
  revert d; decide

theorem hexDigit_eq {d : Nat} (h : d < 16) : hexDigit d = Nat.digitChar d := by
  revert d; decide

theorem toDigitsCore_digitsRev (fuel : Nat) : ∀ (n : Nat) (acc : List Char), n < fuel →
    Nat.toDigitsCore 10 fuel n acc = ((digitsRev fuel n).reverse).map digitChar ++ acc := by
  induction fuel with
  | zero => intro n acc h; omega
  | succ f ih =>
    intro n acc h
    unfold Nat.toDigitsCore digitsRev
    by_cases hn : n < 10
    · have : n / 10 = 0 := by omega
      simp [this, hn, digitChar_eq hn, Nat.mod_eq_of_lt hn]
    · have h0 : n / 10 ≠ 0 := by omega
      simp only [h0, if_false, if_neg hn, List.reverse_cons, List.map_append, List.map_cons, List.map_nil]
      rw [ih _ _ (by omega), digitChar_eq (Nat.mod_lt n (by decide))]
      simp

theorem decimal_eq (n : Nat) : decimal n = Spec.numberText n := by
  unfold decimal Spec.numberText Nat.toDigits
  rw [toDigitsCore_digitsRev _ _ _ (by omega)]
  simp

theorem hexLower_eq (bs : Bytes) : hexLower bs = Spec.hexText bs := by
  induction bs with
  | nil => rfl
  | cons b bs ih =>
    have hb := b.toNat_lt
    unfold hexLower Spec.hexText at *
    rw [List.flatMap_cons, List.flatMap_cons, ih, hexDigit_eq (by omega), hexDigit_eq (by omega)]

end RustTuf
