import Mathlib.Tactic.Ring
import Verif.Lemmas.Formats
import Verif.Spec.Base64
import Verif.Spec.RoundTrip

/-!
# C79: the formats of keys
-/

namespace RustTuf.Props
open Spec RustTuf Formats

/-! ### base64 -/

theorem b64Sym_alphabet : ∀ n, n < 64 → base64Alphabet[n]?.getD '?' = b64Sym n := by decide

theorem IsBase64.append {a b : Bytes} {s t : Str} {ns : List Nat}
    (hs : s = ns.map (fun n => base64Alphabet[n]?.getD '?')) (hn : ∀ n ∈ ns, n < 64)
    (hl : ns.length % 4 = 0) (hb : ns.flatMap (bits 6) = a.flatMap (fun x => bits 8 x.toNat))
    (ht : IsBase64 b t) : IsBase64 (a ++ b) (s ++ t) := by
  obtain ⟨⟨ms, p, k, h1, h2, h3, h4, h5⟩, h6⟩ := ht
  refine ⟨⟨ns ++ ms, p, k, ?_, ?_, h3, h4, ?_⟩, ?_⟩
  · rw [hs, h1, List.map_append, List.append_assoc]
  · intro n h
    rcases List.mem_append.1 h with h | h
    · exact hn n h
    · exact h2 n h
  · rw [List.flatMap_append, List.flatMap_append, hb, h5, List.append_assoc]
  · rw [List.length_append, hs, List.length_map]
    omega

/-- **C79.** `b64Encode` is base64 for URLs with padding as RFC 4648 defines it. -/
theorem C79_base64 (b : Bytes) : IsBase64 b (b64Encode b) := by
  induction b using b64Encode.induct with
  | case1 => exact ⟨⟨[], 0, 0, rfl, by simp, by simp, by simp, rfl⟩, rfl⟩
  | case2 a =>
    have ha := a.toNat_lt
    refine ⟨⟨[a.toNat / 4, a.toNat % 4 * 16], 2, 4, ?_, ?_, by simp, by simp, ?_⟩, by simp [b64Encode]⟩
    · simp only [List.map_cons, List.map_nil]
      rw [b64Sym_alphabet _ (by omega), b64Sym_alphabet _ (by omega)]
      rfl
    · intro n hn
      simp only [List.mem_cons, List.not_mem_nil, or_false] at hn
      omega
    · simp only [List.flatMap_cons, List.flatMap_nil, bits, List.cons_append, List.nil_append,
        List.append_nil, List.replicate, List.cons.injEq, and_true]
      omega
  | case3 a b =>
    have ha := a.toNat_lt
    have hb := b.toNat_lt
    refine ⟨⟨[a.toNat / 4, a.toNat % 4 * 16 + b.toNat / 16, b.toNat % 16 * 4], 1, 2, ?_, ?_, by simp,
      by simp, ?_⟩, by simp [b64Encode]⟩
    · simp only [List.map_cons, List.map_nil]
      rw [b64Sym_alphabet _ (by omega), b64Sym_alphabet _ (by omega), b64Sym_alphabet _ (by omega)]
      rfl
    · intro n hn
      simp only [List.mem_cons, List.not_mem_nil, or_false] at hn
      omega
    · simp only [List.flatMap_cons, List.flatMap_nil, bits, List.cons_append, List.nil_append,
        List.append_nil, List.replicate, List.cons.injEq, and_true]
      omega
  | case4 a b c r ih =>
    have ha := a.toNat_lt
    have hb := b.toNat_lt
    have hc := c.toNat_lt
    refine IsBase64.append (a := [a, b, c]) (b := r)
      (ns := [a.toNat / 4, a.toNat % 4 * 16 + b.toNat / 16, b.toNat % 16 * 4 + c.toNat / 64,
        c.toNat % 64])
      (s := [b64Sym (a.toNat / 4), b64Sym (a.toNat % 4 * 16 + b.toNat / 16),
        b64Sym (b.toNat % 16 * 4 + c.toNat / 64), b64Sym (c.toNat % 64)]) ?_ ?_ (by simp) ?_ ih
    · simp only [List.map_cons, List.map_nil]
      rw [b64Sym_alphabet _ (by omega), b64Sym_alphabet _ (by omega), b64Sym_alphabet _ (by omega),
        b64Sym_alphabet _ (by omega)]
    · intro n hn
      simp only [List.mem_cons, List.not_mem_nil, or_false] at hn
      omega
    · simp only [List.flatMap_cons, List.flatMap_nil, bits, List.cons_append, List.nil_append,
        List.append_nil, List.cons.injEq, and_true]
      omega

-- A test vector of RFC 4648, and a symbol that differs from ordinary base64.
example : b64Encode "fooba".toUTF8.toList = "Zm9vYmE=".toList ∧ b64Encode [251, 255] = "-_8=".toList :=
  by decide +kernel

theorem bits_length (n x : Nat) : (bits n x).length = n := by
  induction n with
  | zero => rfl
  | succ n ih => simp [bits, ih]

theorem bits_flatMap_length {α : Type} (n : Nat) (f : α → Nat) (l : List α) :
    (l.flatMap fun x => bits n (f x)).length = n * l.length := by
  induction l with
  | nil => simp
  | cons a l ih => simp only [List.flatMap_cons, List.length_append, ih, bits_length, List.length_cons]; ring

theorem bits_inj : ∀ a, a < 64 → ∀ b, b < 64 → bits 6 a = bits 6 b → a = b := by decide +kernel

theorem groups_inj : ∀ l l' : List Nat, (∀ n ∈ l, n < 64) → (∀ n ∈ l', n < 64) → l.length = l'.length →
    l.flatMap (bits 6) = l'.flatMap (bits 6) → l = l'
  | [], [], _, _, _, _ => rfl
  | [], _ :: _, _, _, h, _ => by simp at h
  | _ :: _, [], _, _, h, _ => by simp at h
  | a :: l, b :: l', h1, h2, h3, h4 => by
    simp only [List.flatMap_cons] at h4
    obtain ⟨e1, e2⟩ := List.append_inj h4 (by rw [bits_length, bits_length])
    rw [bits_inj a (h1 a (by simp)) b (h2 b (by simp)) e1,
      groups_inj l l' (fun n hn => h1 n (by simp [hn])) (fun n hn => h2 n (by simp [hn])) (by simpa using h3) e2]

/-- Bytes have one base64 text. -/
theorem isBase64_unique {b : Bytes} {s s' : Str} (h : IsBase64 b s) (h' : IsBase64 b s') : s = s' := by
  obtain ⟨⟨ns, p, k, rfl, h1, h2, h3, h4⟩, h5⟩ := h
  obtain ⟨⟨ns', p', k', rfl, h1', h2', h3', h4'⟩, h5'⟩ := h'
  have l := congrArg List.length h4
  have l' := congrArg List.length h4'
  have e : ∀ ns : List Nat, (ns.flatMap (bits 6)).length = 6 * ns.length := fun ns => bits_flatMap_length 6 id ns
  rw [List.length_append, List.length_replicate, e, bits_flatMap_length] at l l'
  have hlen : ns.length = ns'.length := by omega
  have hk : k = k' := by omega
  subst hk
  rw [groups_inj ns ns' h1 h1' hlen (by rw [h4, h4'])] at *
  rw [List.length_append, List.length_replicate, List.length_map] at h5 h5'
  rw [show p = p' by omega]

/-- **C79.** Exactly the concatenations of base64 texts are read, and they are read as the concatenation
of what they stand for. (The library allows padding between them.) -/
theorem C79_base64_read (s : Str) (b : Bytes) : b64Decode s = some b ↔
    ∃ parts : List (Bytes × Str), (∀ p ∈ parts, IsBase64 p.1 p.2) ∧
      (parts.map Prod.fst).flatten = b ∧ (parts.map Prod.snd).flatten = s := by
  rw [b64Decode_iff]
  constructor
  · rintro ⟨parts, rfl, rfl⟩
    refine ⟨parts.map fun p => (p, b64Encode p), ?_, ?_, ?_⟩
    · intro p hp
      obtain ⟨q, _, rfl⟩ := List.mem_map.1 hp
      exact C79_base64 q
    · simp [Function.comp_def]
    · simp [Function.comp_def]
  · rintro ⟨parts, h, rfl, rfl⟩
    refine ⟨parts.map Prod.fst, rfl, ?_⟩
    congr 1
    rw [List.map_map]
    refine List.map_congr_left fun p hp => ?_
    exact isBase64_unique (C79_base64 p.1) (h p hp)

/-! ### SPKI -/

variable (F : FloatLib) (H : Bytes → Bytes)

theorem writeLen_pos (n : Nat) : 1 ≤ (writeLen n).length := by
  unfold writeLen
  split <;> simp

/-- **C79.** What the theorems on publishing and key IDs assume of the key formats holds of base64 and
of the SPKI format as read and written by the code. -/
theorem C79_laws : Laws (lib F H) where
  base64 := b64Decode_encode
  spki := by
    intro t v d h
    obtain ⟨oid, x, h1, -, h3⟩ := readSpki_some h
    refine ⟨_, by show writeSpki t v = some _; rw [writeSpki, h1], readSpki_write h1 ?_⟩
    have e1 : (element tagNull []).length ≤ (element tagNull x).length := by
      simp only [element, List.length_cons, List.length_append]
      have e : (writeLen ([] : Bytes).length).length = 1 := rfl
      have h4 := writeLen_pos x.length
      rw [e]
      simp only [List.length_nil]
      omega
    have e2 := element_length_mono (tag := tagSequence) (tag' := tagSequence)
      (v := element tagOid oid ++ element tagNull []) (w := element tagOid oid ++ element tagNull x)
      (by simp only [List.length_append]; omega)
      (by
        simp only [List.length_append] at h3 ⊢
        rw [element, List.length_cons, List.length_append, List.length_append] at h3
        omega)
    simp only [List.length_append] at h3 ⊢
    omega

theorem writeLen_length {n : Nat} (h : 256 ≤ n) : 3 ≤ (writeLen n).length := by
  rw [writeLen, if_neg (by omega), lenBytes, if_neg (by omega)]
  simp only [List.length_cons, List.length_append, List.length_nil]
  have : lenBytes (n / 256) ≠ [] := by
    rw [lenBytes]
    split <;> simp
  have := List.length_pos_iff.2 this
  omega

theorem spki_length (oid v : Bytes) (ho : oid = rsaOid) :
    (element tagSequence (element tagOid oid ++ element tagNull []) ++
      element tagBitString (0 :: v)).length = 17 + (writeLen (v.length + 1)).length + v.length := by
  subst ho
  rw [List.length_append, show (element tagSequence (element tagOid rsaOid ++ element tagNull [])).length
    = 15 from rfl]
  simp only [element, List.length_cons, List.length_append]
  omega

/-- **C79.** Exactly the RSA keys of at most 65515 bytes can be published. (A key for moduli of 16384
bits has about 2060 bytes.) -/
theorem C79_rsa_keys (v : Bytes) : SpkiReadable (lib F H) .rsa v ↔ v.length ≤ 65515 := by
  constructor
  · rintro ⟨d, -, h⟩
    obtain ⟨oid, x, h1, -, h3⟩ := readSpki_some h
    have ho : rsaOid = oid := Option.some.inj h1
    rw [← ho] at h3
    simp only [element, List.length_cons, List.length_append] at h3
    have h4 := writeLen_pos x.length
    have e1 : (writeLen rsaOid.length).length = 1 := rfl
    have e2 : rsaOid.length = 9 := rfl
    have h8 := writeLen_pos ((writeLen rsaOid.length).length + rsaOid.length + 1 +
      ((writeLen x.length).length + x.length + 1))
    by_cases h6 : v.length < 255
    · omega
    · have h7 := writeLen_length (n := v.length + 1) (by omega)
      omega
  · intro h
    refine ⟨_, rfl, readSpki_write rfl ?_⟩
    rw [spki_length _ _ rfl]
    have := writeLen_length_mono (a := v.length + 1) (b := 65516) (by omega) (by omega)
    rw [show (writeLen 65516).length = 3 by decide +kernel] at this
    omega

-- Both directions of `C79_rsa_keys`.
example : SpkiReadable (lib F H) .rsa (List.replicate 300 1) :=
  (C79_rsa_keys F H _).2 (by rw [List.length_replicate]; omega)
example (n : Nat) (h : 65515 < n) : ¬ SpkiReadable (lib F H) .rsa (List.replicate n 1) := fun e => by
  have := (C79_rsa_keys F H _).1 e
  rw [List.length_replicate] at this
  omega

/-- **C79.** Which keys can be listed in metadata. -/
theorem C79_good_keys (k : PublicKey) : GoodKey (lib F H) k ↔
    calculateKeyId (lib F H) k.typ k.scheme k.keyidHashAlgorithms k.value = some k.keyId ∧
      ((k.typ = .ed25519 ∧ k.scheme = .ed25519 ∧ k.value.length = 32) ∨
        (k.typ = .rsa ∧ k.value.length ≤ 65515)) := by
  constructor
  · rintro ⟨h1, h2⟩
    exact ⟨h1, h2.imp_right fun h => ⟨h.1, (C79_rsa_keys F H _).1 h.2⟩⟩
  · rintro ⟨h1, h2⟩
    exact ⟨h1, h2.imp_right fun h => ⟨h.1, (C79_rsa_keys F H _).2 h.2⟩⟩

/-- **C79.** Two byte strings that are read as the same key differ at most in the content of the
`NULL` that stands for the parameters, which the reader ignores. -/
theorem C79_spki_form (d v : Bytes) (t : KeyType) (h : (lib F H).readSpki d = some (t, v)) :
    ∃ oid params, oidOfType t = some oid ∧
      d = element 0x30 (element 0x30 (element 0x06 oid ++ element 0x05 params) ++
        element 0x03 (0 :: v)) := by
  obtain ⟨oid, x, h1, h2, -⟩ := readSpki_some h
  exact ⟨oid, x, h1, h2⟩

-- The parameters are ignored: the same key with content in the `NULL`.
example : readSpki (element 0x30 (element 0x30 (element 0x06 ed25519Oid ++ element 0x05 [1, 2]) ++
    element 0x03 [0, 7])) = some (.ed25519, [7]) := by decide +kernel

end RustTuf.Props
