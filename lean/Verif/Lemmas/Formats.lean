import Verif.Model.Formats

/-!
# Lemmas on base64 and DER
-/

namespace RustTuf.Formats

theorem b64Val_sym : ∀ n, n < 64 → b64Val (b64Sym n) = some n := by decide

theorem b64Val_pad : b64Val '=' = none := by decide

theorem u8_eq {x : UInt8} {n : Nat} (h : n = x.toNat) : UInt8.ofNat n = x := by
  rw [h]
  exact UInt8.ofNat_toNat

theorem b64Decode_encode : ∀ b, b64Decode (b64Encode b) = some b := by
  intro b
  induction b using b64Encode.induct with
  | case1 => rfl
  | case2 a =>
    have ha := a.toNat_lt
    simp only [b64Encode, b64Decode, b64Block]
    rw [b64Val_sym _ (by omega), b64Val_sym _ (by omega), b64Val_pad]
    simp only
    rw [if_pos ⟨trivial, trivial, by omega⟩]
    simp only [List.append_nil, Option.some.injEq, List.cons.injEq, and_true]
    exact u8_eq (by omega)
  | case3 a b =>
    have ha := a.toNat_lt
    have hb := b.toNat_lt
    simp only [b64Encode, b64Decode, b64Block]
    rw [b64Val_sym _ (by omega), b64Val_sym _ (by omega), b64Val_sym _ (by omega), b64Val_pad]
    simp only
    rw [if_pos ⟨trivial, by omega⟩]
    simp only [List.append_nil, Option.some.injEq, List.cons.injEq, and_true]
    exact ⟨u8_eq (by omega), u8_eq (by omega)⟩
  | case4 a b c r ih =>
    have ha := a.toNat_lt
    have hb := b.toNat_lt
    have hc := c.toNat_lt
    simp only [b64Encode, b64Decode, b64Block]
    rw [b64Val_sym _ (by omega), b64Val_sym _ (by omega), b64Val_sym _ (by omega),
      b64Val_sym _ (by omega), ih]
    simp only [List.cons_append, List.nil_append, Option.some.injEq, List.cons.injEq, and_true]
    exact ⟨u8_eq (by omega), u8_eq (by omega), u8_eq (by omega)⟩

theorem b64Val_some {c : Char} {n : Nat} (h : b64Val c = some n) : n < 64 ∧ b64Sym n = c := by
  unfold b64Val at h
  simp only at h
  have hc : Char.ofNat c.toNat = c := Char.ofNat_toNat c
  split at h
  · cases h
    refine ⟨by omega, ?_⟩
    rw [b64Sym, if_pos (by omega), show 65 + (c.toNat - 65) = c.toNat by omega, hc]
  · split at h
    · cases h
      refine ⟨by omega, ?_⟩
      rw [b64Sym, if_neg (by omega), if_pos (by omega), show 71 + (c.toNat - 71) = c.toNat by omega, hc]
    · split at h
      · cases h
        refine ⟨by omega, ?_⟩
        rw [b64Sym, if_neg (by omega), if_neg (by omega), if_pos (by omega),
          show c.toNat + 4 - 4 = c.toNat by omega, hc]
      · split at h
        · cases h; rename_i e; exact ⟨by omega, e.symm⟩
        · split at h
          · cases h; rename_i e; exact ⟨by omega, e.symm⟩
          · cases h

theorem b64Block_some {a b c d : Char} {x : Bytes} (h : b64Block a b c d = some x) :
    b64Encode x = [a, b, c, d] := by
  unfold b64Block at h
  split at h
  · rename_i va vb ha hb
    obtain ⟨la, rfl⟩ := b64Val_some ha
    obtain ⟨lb, rfl⟩ := b64Val_some hb
    split at h
    · rename_i vc vd hc hd
      obtain ⟨lc, rfl⟩ := b64Val_some hc
      obtain ⟨ld, rfl⟩ := b64Val_some hd
      cases h
      simp only [b64Encode, UInt8.toNat_ofNat', List.cons.injEq, and_true]
      refine ⟨?_, ?_, ?_, ?_⟩ <;> congr 1 <;> omega
    · rename_i vc hc hd
      obtain ⟨lc, rfl⟩ := b64Val_some hc
      split at h
      · rename_i e
        obtain ⟨rfl, e⟩ := e
        cases h
        simp only [b64Encode, UInt8.toNat_ofNat', List.cons.injEq, and_true]
        refine ⟨?_, ?_, ?_⟩ <;> congr 1 <;> omega
      · cases h
    · split at h
      · rename_i e
        obtain ⟨rfl, rfl, e⟩ := e
        cases h
        simp only [b64Encode, UInt8.toNat_ofNat', List.cons.injEq, and_true]
        refine ⟨?_, ?_⟩ <;> congr 1 <;> omega
      · cases h
  · cases h

theorem b64Decode_cons (a b c d : Char) (s : Str) : b64Decode (a :: b :: c :: d :: s) =
    match b64Block a b c d, b64Decode s with
    | some x, some y => some (x ++ y)
    | _, _ => none := rfl

theorem b64Decode_append : ∀ (s : Str) (b : Bytes) (s' : Str) (b' : Bytes), b64Decode s = some b →
    b64Decode s' = some b' → b64Decode (s ++ s') = some (b ++ b')
  | [], b, s', b', h, h' => by cases h; exact h'
  | [_], _, _, _, h, _ => by simp [b64Decode] at h
  | [_, _], _, _, _, h, _ => by simp [b64Decode] at h
  | [_, _, _], _, _, _, h, _ => by simp [b64Decode] at h
  | a :: b :: c :: d :: s, x, s', b', h, h' => by
    rw [b64Decode_cons] at h
    split at h
    · rename_i u v hu hv
      cases h
      simp only [List.cons_append, b64Decode_cons, hu, b64Decode_append s _ _ _ hv h', List.append_assoc]
    · cases h

theorem b64Decode_parts : ∀ (s : Str) (b : Bytes), b64Decode s = some b →
    ∃ parts : List Bytes, parts.flatten = b ∧ (parts.map b64Encode).flatten = s
  | [], b, h => by cases h; exact ⟨[], rfl, rfl⟩
  | [_], _, h => by simp [b64Decode] at h
  | [_, _], _, h => by simp [b64Decode] at h
  | [_, _, _], _, h => by simp [b64Decode] at h
  | a :: b :: c :: d :: s, x, h => by
    rw [b64Decode_cons] at h
    split at h
    · rename_i u v hu hv
      cases h
      obtain ⟨parts, rfl, e⟩ := b64Decode_parts s v hv
      exact ⟨u :: parts, by simp, by simp [b64Block_some hu, e]⟩
    · cases h

theorem b64Decode_iff (s : Str) (b : Bytes) : b64Decode s = some b ↔
    ∃ parts : List Bytes, parts.flatten = b ∧ (parts.map b64Encode).flatten = s := by
  refine ⟨b64Decode_parts s b, ?_⟩
  rintro ⟨parts, rfl, rfl⟩
  induction parts with
  | nil => rfl
  | cons p ps ih => exact b64Decode_append _ _ _ _ (b64Decode_encode p) ih

/-! ### DER -/

theorem readLen_writeLen {n : Nat} (h : n ≤ 65535) (r : Bytes) :
    readLen (writeLen n ++ r) = some (n, r) := by
  unfold writeLen
  split
  · have e : (UInt8.ofNat n).toNat = n := by
      rw [UInt8.toNat_ofNat']; omega
    simp only [List.cons_append, List.nil_append, readLen]
    rw [if_pos (by rw [UInt8.lt_iff_toNat_lt, e]; simpa using by omega), e]
  · rw [lenBytes]
    split
    · have e : (UInt8.ofNat n).toNat = n := by
        rw [UInt8.toNat_ofNat']; omega
      simp only [List.cons_append, List.nil_append, readLen, List.length_cons, List.length_nil]
      rw [if_neg (by decide), if_pos (by decide), if_neg (by rw [e]; omega), e]
    · rw [lenBytes, if_pos (by omega)]
      have e1 : (UInt8.ofNat (n / 256)).toNat = n / 256 := by
        rw [UInt8.toNat_ofNat']; omega
      have e2 : (UInt8.ofNat (n % 256)).toNat = n % 256 := by
        rw [UInt8.toNat_ofNat']; omega
      simp only [List.cons_append, List.nil_append, readLen, List.length_cons, List.length_nil]
      rw [if_neg (by decide), if_neg (by decide), if_pos (by decide), e1, e2,
        if_neg (by omega)]
      simp only [Option.some.injEq, Prod.mk.injEq, and_true]
      omega

theorem readLen_some {b r : Bytes} {n : Nat} (h : readLen b = some (n, r)) :
    b = writeLen n ++ r ∧ n ≤ 65535 := by
  cases b with
  | nil => simp [readLen] at h
  | cons x b =>
    have hx := x.toNat_lt
    simp only [readLen] at h
    split at h
    · rename_i h1
      rw [UInt8.lt_iff_toNat_lt] at h1
      have h1 : x.toNat < 128 := h1
      cases h
      rw [writeLen, if_pos h1]
      exact ⟨by rw [UInt8.ofNat_toNat]; rfl, by omega⟩
    · split at h
      · rename_i h2
        cases b with
        | nil => simp at h
        | cons y b =>
          have hy := y.toNat_lt
          simp only at h
          split at h
          · cases h
          · rename_i h3
            cases h
            rw [writeLen, if_neg h3, lenBytes, if_pos (by omega), UInt8.ofNat_toNat, h2]
            exact ⟨rfl, by omega⟩
      · split at h
        · rename_i h2
          match b with
          | [] => simp at h
          | [_] => simp at h
          | y :: z :: b =>
            have hy := y.toNat_lt
            have hz := z.toNat_lt
            simp only at h
            split at h
            · cases h
            · rename_i h3
              cases h
              rw [writeLen, if_neg (by omega), lenBytes, if_neg (by omega), lenBytes,
                if_pos (by omega)]
              have e1 : (y.toNat * 256 + z.toNat) / 256 = y.toNat := by omega
              have e2 : (y.toNat * 256 + z.toNat) % 256 = z.toNat := by omega
              rw [e1, e2, UInt8.ofNat_toNat, UInt8.ofNat_toNat, h2]
              exact ⟨rfl, by omega⟩
        · cases h

theorem expectTag_element {tag : Tag} {v : Bytes} (h : v.length ≤ 65535) (r : Bytes) :
    expectTag tag (element tag v ++ r) = some (v, r) := by
  simp only [element, List.cons_append, expectTag, if_true, List.append_assoc]
  rw [readLen_writeLen h]
  simp [readBytes]

theorem expectTag_some {tag : Tag} {b v r : Bytes} (h : expectTag tag b = some (v, r)) :
    b = element tag v ++ r ∧ v.length ≤ 65535 := by
  cases b with
  | nil => simp [expectTag] at h
  | cons t b =>
    simp only [expectTag] at h
    split at h
    · rename_i ht
      split at h
      · cases h
      · rename_i n b' hn
        obtain ⟨h1, h2⟩ := readLen_some hn
        simp only [readBytes] at h
        split at h
        · rename_i hl
          cases h
          have e : (b'.take n).length = n := by rw [List.length_take]; omega
          refine ⟨?_, by omega⟩
          rw [element, e, ht, h1, List.cons_append, List.append_assoc, List.take_append_drop]
        · cases h
    · cases h

theorem readAll_some {α : Type} {f : Reader α} {b : Bytes} {a : α} (h : readAll f b = some a) :
    f b = some (a, []) := by
  unfold readAll at h
  split at h
  · rename_i x hx
    cases h
    exact hx
  · cases h

theorem readAll_eq {α : Type} {f : Reader α} {b : Bytes} {a : α} (h : f b = some (a, [])) :
    readAll f b = some a := by
  unfold readAll
  rw [h]

theorem nested_some {α : Type} {tag : Tag} {f : Reader α} {b r : Bytes} {a : α}
    (h : nested tag f b = some (a, r)) :
    ∃ v, b = element tag v ++ r ∧ v.length ≤ 65535 ∧ f v = some (a, []) := by
  unfold nested at h
  split at h
  · cases h
  · rename_i v b' hv
    obtain ⟨h1, h2⟩ := expectTag_some hv
    split at h
    · cases h
    · rename_i a' ha
      cases h
      exact ⟨v, h1, h2, readAll_some ha⟩

theorem nested_element {α : Type} {tag : Tag} {f : Reader α} {v : Bytes} {a : α}
    (hl : v.length ≤ 65535) (h : f v = some (a, [])) (r : Bytes) :
    nested tag f (element tag v ++ r) = some (a, r) := by
  unfold nested
  rw [expectTag_element hl]
  simp only
  rw [readAll_eq h]

theorem bitString_some {b r v : Bytes} (h : bitString b = some (v, r)) :
    b = element tagBitString (0 :: v) ++ r ∧ v.length + 1 ≤ 65535 := by
  obtain ⟨w, h1, h2, h3⟩ := nested_some h
  split at h3
  · cases h3
    exact ⟨h1, h2⟩
  · cases h3

theorem bitString_element {v : Bytes} (h : v.length + 1 ≤ 65535) (r : Bytes) :
    bitString (element tagBitString (0 :: v) ++ r) = some (v, r) :=
  nested_element (v := 0 :: v) h rfl r

theorem readAlgorithm_some {b r : Bytes} {t : KeyType} (h : readAlgorithm b = some (t, r)) :
    ∃ oid x, oidOfType t = some oid ∧ b = element tagOid oid ++ (element tagNull x ++ r) := by
  unfold readAlgorithm at h
  split at h
  · cases h
  · rename_i oid b1 h1
    obtain ⟨h1, -⟩ := expectTag_some h1
    split at h
    · cases h
    · rename_i t' ht
      split at h
      · cases h
      · rename_i x b2 h2
        obtain ⟨h2, -⟩ := expectTag_some h2
        cases h
        refine ⟨oid, x, ?_, by rw [h1, h2]⟩
        unfold typeOfOid at ht
        split at ht
        · rename_i ho
          cases ht
          rw [ho]
          rfl
        · split at ht
          · rename_i ho
            cases ht
            rw [ho]
            rfl
          · cases ht

theorem readAlgorithm_element {t : KeyType} {oid : Bytes} (h : oidOfType t = some oid) :
    readAlgorithm (element tagOid oid ++ element tagNull []) = some (t, []) := by
  cases t with
  | ed25519 => cases h; decide
  | rsa => cases h; decide
  | unknown s => cases h

theorem writeLen_length_mono {a b : Nat} (h : a ≤ b) (hb : b ≤ 65535) :
    (writeLen a).length ≤ (writeLen b).length := by
  have key : ∀ n, n ≤ 65535 → (writeLen n).length = if n < 128 then 1 else if n < 256 then 2 else 3 := by
    intro n hn
    unfold writeLen
    split
    · rfl
    · rw [lenBytes]
      split
      · rfl
      · rw [lenBytes, if_pos (by omega)]
        rfl
  rw [key a (by omega), key b hb]
  split <;> split <;> (try split) <;> (try split) <;> omega

theorem element_length_mono {tag tag' : Tag} {v w : Bytes} (h : v.length ≤ w.length)
    (hw : w.length ≤ 65535) : (element tag v).length ≤ (element tag' w).length := by
  have := writeLen_length_mono h hw
  simp only [element, List.length_cons, List.length_append]
  omega

/-- What the bytes of a key in the SPKI format look like. -/
theorem readSpki_some {d v : Bytes} {t : KeyType} (h : readSpki d = some (t, v)) :
    ∃ oid x, oidOfType t = some oid ∧
      d = element tagSequence (element tagSequence (element tagOid oid ++ element tagNull x) ++
        element tagBitString (0 :: v)) ∧
      (element tagSequence (element tagOid oid ++ element tagNull x) ++
        element tagBitString (0 :: v)).length ≤ 65535 := by
  obtain ⟨w, h1, h2, h3⟩ := nested_some (readAll_some h)
  split at h3
  · cases h3
  · rename_i t' b1 ht
    obtain ⟨a, h4, -, h6⟩ := nested_some ht
    obtain ⟨oid, x, h7, h8⟩ := readAlgorithm_some h6
    split at h3
    · cases h3
    · rename_i v' b2 hv
      obtain ⟨h9, -⟩ := bitString_some hv
      cases h3
      rw [List.append_nil] at h1 h8 h9
      refine ⟨oid, x, h7, ?_, ?_⟩
      · rw [h1, h4, h8, h9]
      · rw [h4, h8, h9] at h2
        exact h2

theorem readSpki_write {t : KeyType} {v oid : Bytes} (ho : oidOfType t = some oid)
    (hl : (element tagSequence (element tagOid oid ++ element tagNull []) ++
        element tagBitString (0 :: v)).length ≤ 65535) :
    readSpki (element tagSequence (element tagSequence (element tagOid oid ++ element tagNull []) ++
        element tagBitString (0 :: v))) = some (t, v) := by
  have hv : v.length + 1 ≤ 65535 := by
    simp only [List.length_append, element, List.length_cons] at hl
    omega
  have ha : (element tagOid oid ++ element tagNull []).length ≤ 65535 := by
    simp only [List.length_append, element, List.length_cons] at hl ⊢
    omega
  unfold readSpki
  apply readAll_eq
  have := nested_element (tag := tagSequence) (f := fun b =>
    match nested tagSequence readAlgorithm b with
    | none => none
    | some (t, b) =>
      match bitString b with
      | none => none
      | some (v, b) => some ((t, v), b)) (a := (t, v)) hl (by
        rw [nested_element ha (readAlgorithm_element ho)]
        simp only
        rw [← List.append_nil (element tagBitString _), bitString_element hv]) []
  rw [List.append_nil] at this
  exact this

end RustTuf.Formats
