import Verif.Lemmas.Der
import Verif.Props.Formats

/-!
# C81: private keys and their public keys
-/

namespace RustTuf.Props
open Spec RustTuf Formats Keys

theorem element_length_le {tag : Tag} {v : Bytes} : v.length + 2 ≤ (element tag v).length := by
  have := writeLen_pos v.length
  simp only [element, List.length_cons, List.length_append]
  omega

theorem intBytes_zero {w : Bytes} (h : IntBytes 0 w) : w = [0] := by
  rcases h.head with h1 | h1
  · have := bigEndian_pos h.nonempty h1
    rw [h.value] at this
    omega
  · exact h1

theorem smallInteger_zero {b r : Bytes} (h : DerInteger 0 b) (hl : b.length ≤ 65535) :
    smallInteger (b ++ r) = some (0, r) := by
  obtain ⟨w, h1, h2⟩ := derInteger_read (min := 0) h hl (by omega) (by omega) r
  unfold smallInteger
  rw [h1, intBytes_zero h2]

theorem smallInteger_some {b r : Bytes} (h : smallInteger b = some (0, r)) :
    ∃ i, b = i ++ r ∧ DerInteger 0 i := by
  unfold smallInteger at h
  split at h
  · rename_i x b' hx
    cases h
    obtain ⟨n, i, h1, -, h3, h4, -⟩ := nonnegativeInteger_some hx
    have : n = 0 := by rw [← h4.value]; rfl
    subst this
    exact ⟨i, h1, h3⟩
  · cases h

theorem readRsaAlgorithm_tlv {oid par null : Bytes} (h1 : Tlv 0x06 rsaOid oid) (h2 : Tlv 0x05 null par)
    (hl : null.length ≤ 65535) : readRsaAlgorithm (oid ++ par) = some ((), []) := by
  rw [tlv_unique h1, tlv_unique h2]
  unfold readRsaAlgorithm
  rw [show (6 : UInt8) = tagOid from rfl, expectTag_element (by decide)]
  simp only [ne_eq, not_true_eq_false, if_false]
  have := expectTag_element (tag := tagNull) hl []
  rw [List.append_nil] at this
  rw [show (5 : UInt8) = tagNull from rfl, this]

theorem readRsaAlgorithm_some {b r : Bytes} (h : readRsaAlgorithm b = some ((), r)) :
    ∃ oid par null, b = oid ++ par ++ r ∧ Tlv 0x06 rsaOid oid ∧ Tlv 0x05 null par := by
  unfold readRsaAlgorithm at h
  split at h
  · cases h
  · rename_i o b1 h1
    obtain ⟨h2, h3⟩ := expectTag_some h1
    split at h
    · cases h
    · rename_i h4
      have h4 : o = rsaOid := Classical.not_not.1 h4
      subst h4
      split at h
      · cases h
      · rename_i null b2 h5
        obtain ⟨h6, h7⟩ := expectTag_some h5
        cases h
        exact ⟨_, _, _, by rw [h2, h6, List.append_assoc]; rfl, tlv_element h3, tlv_element h7⟩

/-- What the key extracted from an integer looks like next to the integer it was read from. -/
theorem writePositive_eq {n : Nat} {i w : Bytes} (hi : DerInteger n i) (hw : IntBytes n w) (hp : 0 < n)
    (hl : i.length ≤ 65535) : writePositive w = i := by
  obtain ⟨v, h1, h2⟩ := derInteger_read (min := 1) hi hl hp (by omega) []
  have hv : v = w := by
    have e : ∀ {u : Bytes}, IntBytes n u → u = lenBytes n := by
      intro u hu
      rcases hu.head with e1 | e1
      · rw [← hu.value, lenBytes_bigEndian hu.nonempty e1]
      · rw [← hu.value, e1] at hp
        simp [bigEndian] at hp
    rw [e h2, e hw]
  subst hv
  obtain ⟨c, h3, h4⟩ := hi
  have e := tlv_unique h4
  subst e
  have hc : c.length ≤ 65533 := by
    have := element_length_le (tag := 2) (v := c)
    omega
  have hwl : v.length < 65535 := by
    rw [List.append_nil] at h1
    unfold nonnegativeInteger at h1
    have := expectTag_element (tag := tagInteger) (v := c) (by omega) []
    rw [List.append_nil] at this
    rw [show (2 : UInt8) = tagInteger from rfl, this] at h1
    simp only at h1
    split at h1
    · cases h1
    · rename_i w' hw'
      cases h1
      have : v.length ≤ c.length := by
        match c, hw' with
        | [x], hw' =>
          simp only [stripInteger] at hw'
          split at hw'
          · cases hw'
          · split at hw'
            · cases hw'
            · cases hw'; simp
        | x :: y :: c, hw' =>
          simp only [stripInteger] at hw'
          split at hw'
          · split at hw'
            · cases hw'
            · cases hw'; simp
          · split at hw'
            · cases hw'
            · cases hw'; simp
      omega
  exact derInteger_unique (derInteger_write h2 hp hwl) ⟨c, h3, h4⟩

theorem readRsaKey_of {n e : Nat} {v bn be rest : Bytes} (hn : 0 < n) (he : 0 < e)
    (hv : DerInteger 0 v) (h1 : DerInteger n bn) (h2 : DerInteger e be)
    (hl : (v ++ bn ++ be ++ rest).length ≤ 65535) :
    readRsaKey (v ++ bn ++ be ++ rest) = some (element 0x30 (bn ++ be), []) := by
  simp only [List.length_append] at hl
  obtain ⟨wn, h3, h4⟩ := derInteger_read (min := 1) h1 (by omega) hn (by omega) (be ++ rest)
  obtain ⟨we, h5, h6⟩ := derInteger_read (min := 1) h2 (by omega) he (by omega) rest
  unfold readRsaKey
  rw [List.append_assoc, List.append_assoc, smallInteger_zero hv (by omega)]
  simp only [ne_eq, not_true_eq_false, if_false, positiveInteger, h3, h5]
  rw [writePkcs1, writePositive_eq h1 h4 hn (by omega), writePositive_eq h2 h6 he (by omega)]
  rfl

theorem readRsaKey_some {b p r : Bytes} (h : readRsaKey b = some (p, r)) (hl : b.length ≤ 65535) :
    ∃ n e v bn be rest, 0 < n ∧ 0 < e ∧ DerInteger 0 v ∧ DerInteger n bn ∧ DerInteger e be ∧
      b = v ++ bn ++ be ++ rest ∧ p = element 0x30 (bn ++ be) := by
  unfold readRsaKey at h
  split at h
  · cases h
  · rename_i x b1 h1
    split at h
    · cases h
    · rename_i hx
      have hx : x = 0 := Classical.not_not.1 hx
      subst hx
      obtain ⟨v, h2, h3⟩ := smallInteger_some h1
      split at h
      · cases h
      · rename_i wn b2 h4
        obtain ⟨n, bn, h5, -, h7, h8, h9⟩ := nonnegativeInteger_some h4
        split at h
        · cases h
        · rename_i we b3 h10
          obtain ⟨e, be, h11, -, h13, h14, h15⟩ := nonnegativeInteger_some h10
          cases h
          have hn := h9 (Nat.le_refl _)
          have he := h15 (Nat.le_refl _)
          subst h11 h5 h2
          simp only [List.length_append] at hl
          refine ⟨n, e, v, bn, be, b3, hn, he, h3, h7, h13, by simp only [List.append_assoc], ?_⟩
          rw [writePkcs1, writePositive_eq h7 h8 hn (by omega), writePositive_eq h13 h14 he (by omega)]
          rfl

theorem tlv_length {tag : UInt8} {v b : Bytes} (h : Tlv tag v b) : v.length + 2 ≤ b.length := by
  rw [tlv_unique h]
  exact element_length_le

/-- **C81.** From an RSA private key in the PKCS#8 format, the public key with the same modulus and
exponent is extracted. -/
theorem C81_extract (n e : Nat) (null d : Bytes) (h : Pkcs8Rsa n e null d) (hn : 0 < n) (he : 0 < e)
    (hl : d.length ≤ 65535) : ∃ p, extractRsaPublic d = some p ∧ RsaPublicKey n e p := by
  obtain ⟨v, oid, par, alg, key, octets, h1, h2, h3, h4, ⟨v', bn, be, rest, h5, h6, h7, h8⟩, h9, h10⟩ := h
  have l1 := tlv_length h10
  have l2 := tlv_length h9
  have l3 := tlv_length h8
  have l4 := tlv_length h4
  have l5 := tlv_length h3
  have l6 := l1
  have l7 := l4
  simp only [List.length_append] at l6 l7
  have l8 := l3
  simp only [List.length_append] at l8
  refine ⟨element 0x30 (bn ++ be), ?_, bn, be, h6, h7, tlv_element (by rw [List.length_append]; omega)⟩
  apply readAll_eq
  rw [← List.append_nil d, tlv_unique h10]
  apply nested_element (tag := tagSequence) (by omega)
  unfold readPkcs8
  rw [List.append_assoc, smallInteger_zero h1 (by omega)]
  simp only [ne_eq, not_true_eq_false, if_false]
  rw [tlv_unique h4, show (0x30 : UInt8) = tagSequence from rfl, nested_element (tag := tagSequence) (by omega)
    (readRsaAlgorithm_tlv h2 h3 (by omega))]
  simp only
  rw [← List.append_nil octets, tlv_unique h9]
  apply nested_element (tag := tagOctetString) (by omega)
  rw [← List.append_nil key, tlv_unique h8]
  exact nested_element (tag := tagSequence) (by omega) (readRsaKey_of hn he h5 h6 h7 (by omega)) []

/-- **C81.** Only from such keys is a public key extracted, and always the one with the same modulus
and exponent. It can be listed in metadata (`C79_rsa_keys`). -/
theorem C81_extract_only (d p : Bytes) (h : extractRsaPublic d = some p) :
    ∃ n e null, 0 < n ∧ 0 < e ∧ Pkcs8Rsa n e null d ∧ RsaPublicKey n e p ∧ p.length ≤ 65515 := by
  obtain ⟨b, h1, h2, h3⟩ := nested_some (readAll_some h)
  unfold readPkcs8 at h3
  split at h3
  · cases h3
  · rename_i x b1 h4
    split at h3
    · cases h3
    · rename_i hx
      have hx : x = 0 := Classical.not_not.1 hx
      subst hx
      obtain ⟨v, h5, h6⟩ := smallInteger_some h4
      split at h3
      · cases h3
      · rename_i u b2 h7
        obtain ⟨a, h8, h9, h10⟩ := nested_some h7
        obtain ⟨oid, par, null, h11, h12, h13⟩ := readRsaAlgorithm_some h10
        obtain ⟨k, h14, h15, h16⟩ := nested_some h3
        obtain ⟨c, h17, h18, h19⟩ := nested_some h16
        obtain ⟨n, e, v', bn, be, rest, hn, he, h20, h21, h22, h23, h24⟩ := readRsaKey_some h19 h18
        rw [List.append_nil] at h1 h11 h14 h17
        have l1 := element_length_le (tag := tagOctetString) (v := k)
        have l2 := element_length_le (tag := tagSequence) (v := c)
        have l3 := element_length_le (tag := tagSequence) (v := a)
        have l4 := tlv_length h12
        have l5 : rsaOid.length = 9 := rfl
        have l6 := tlv_length h13
        have l7 : 3 ≤ v.length := by
          obtain ⟨y, hy, hy'⟩ := h6
          have := tlv_length hy'
          obtain ⟨z, r, hz, -⟩ := hy.clear
          rw [hz, List.length_cons] at this
          omega
        have l9 : 3 ≤ v'.length := by
          obtain ⟨y, hy, hy'⟩ := h20
          have := tlv_length hy'
          obtain ⟨z, r, hz, -⟩ := hy.clear
          rw [hz, List.length_cons] at this
          omega
        have l8 : (bn ++ be).length ≤ 65510 := by
          rw [h5, h8, h14] at h2
          rw [← h17, h23] at l2
          have l10 : a.length = oid.length + par.length := by rw [h11, List.length_append]
          simp only [List.length_append] at h2 l2 l3 ⊢
          omega
        refine ⟨n, e, null, hn, he, ⟨v, oid, par, element tagSequence a, k, _, h6, h12, h13, ?_,
          ⟨v', bn, be, rest, h20, h21, h22, ?_⟩, tlv_element h15, ?_⟩, ⟨bn, be, h21, h22, ?_⟩, ?_⟩
        · rw [← h11]; exact tlv_element h9
        · rw [h17, ← h23]; exact tlv_element h18
        · have e : v ++ element tagSequence a ++ element 4 k = b := by
            rw [h5, h8, h14, List.append_assoc]; rfl
          rw [e, h1]; exact tlv_element h2
        · rw [h24]; exact tlv_element (by omega)
        · have := writeLen_length_mono (a := (bn ++ be).length) (b := 65535) (by omega) (by omega)
          rw [show (writeLen 65535).length = 3 by decide +kernel] at this
          rw [h24]
          simp only [element, List.length_cons, List.length_append] at this l8 ⊢
          omega

theorem tlv_split {tag : UInt8} {v v' b b' r r' : Bytes} (h : Tlv tag v b) (h' : Tlv tag v' b')
    (hl : b.length ≤ 65535) (hl' : b'.length ≤ 65535) (e : b ++ r = b' ++ r') : v = v' ∧ r = r' := by
  have l1 := tlv_length h
  have l2 := tlv_length h'
  have e0 := expectTag_element (tag := tag) (v := v) (by omega) r
  have e1 := expectTag_element (tag := tag) (v := v') (by omega) r'
  rw [← tlv_unique h] at e0
  rw [← tlv_unique h', ← e, e0] at e1
  exact Prod.mk.inj (Option.some.inj e1)

theorem derInteger_split {n n' : Nat} {b b' r r' : Bytes} (h : DerInteger n b) (h' : DerInteger n' b')
    (hl : b.length ≤ 65535) (hl' : b'.length ≤ 65535) (e : b ++ r = b' ++ r') : n = n' ∧ r = r' := by
  obtain ⟨c, h1, h2⟩ := h
  obtain ⟨c', h1', h2'⟩ := h'
  obtain ⟨h3, h4⟩ := tlv_split h2 h2' hl hl' e
  exact ⟨by rw [← h1.value, ← h1'.value, h3], h4⟩

/-- **C81.** Modulus and exponent determine the bytes of a public key and the other way round. -/
theorem C81_public_key_unique (n e : Nat) (p : Bytes) (h : RsaPublicKey n e p) :
    (∀ p', RsaPublicKey n e p' → p' = p) ∧
    (p.length ≤ 65535 → ∀ n' e', RsaPublicKey n' e' p → n' = n ∧ e' = e) := by
  obtain ⟨bn, be, h1, h2, h3⟩ := h
  constructor
  · rintro p' ⟨bn', be', h1', h2', h3'⟩
    rw [tlv_unique h3, tlv_unique h3', derInteger_unique h1 h1', derInteger_unique h2 h2']
  · rintro hl n' e' ⟨bn', be', h1', h2', h3'⟩
    have l1 := tlv_length h3
    have l2 := tlv_length h3'
    simp only [List.length_append] at l1 l2
    obtain ⟨e1, -⟩ := tlv_split (r := []) (r' := []) h3' h3 hl hl rfl
    obtain ⟨e2, e3⟩ := derInteger_split h1' h1 (by omega) (by omega) e1
    obtain ⟨e4, -⟩ := derInteger_split (r := []) (r' := []) h2' h2 (by omega) (by omega) (by rw [e3])
    exact ⟨e2, e4⟩

/-- **C81.** A private key has one modulus and one exponent. -/
theorem C81_private_key_unique (n e n' e' : Nat) (null null' d : Bytes) (hl : d.length ≤ 65535)
    (h : Pkcs8Rsa n e null d) (h' : Pkcs8Rsa n' e' null' d) : n = n' ∧ e = e' := by
  obtain ⟨v, oid, par, alg, key, octets, h1, h2, h3, h4, ⟨w, bn, be, rest, h5, h6, h7, h8⟩, h9, h10⟩ := h
  obtain ⟨v', oid', par', alg', key', octets', g1, g2, g3, g4,
    ⟨w', bn', be', rest', g5, g6, g7, g8⟩, g9, g10⟩ := h'
  have l1 := tlv_length h10
  have l2 := tlv_length h9
  have l3 := tlv_length h8
  have k1 := tlv_length g10
  have k2 := tlv_length g9
  have k3 := tlv_length g8
  simp only [List.length_append] at l1 l2 l3 k1 k2 k3
  obtain ⟨e1, -⟩ := tlv_split (r := []) (r' := []) h10 g10 hl hl rfl
  rw [List.append_assoc, List.append_assoc] at e1
  obtain ⟨-, e2⟩ := derInteger_split h1 g1 (by omega) (by omega) e1
  obtain ⟨-, e3⟩ := tlv_split h4 g4 (by omega) (by omega) e2
  obtain ⟨e4, -⟩ := tlv_split (r := []) (r' := []) h9 g9 (by omega) (by omega) (by rw [e3])
  obtain ⟨e5, -⟩ := tlv_split (r := []) (r' := []) h8 g8 (by omega) (by omega) (by rw [e4])
  simp only [List.append_assoc] at e5
  obtain ⟨-, e6⟩ := derInteger_split h5 g5 (by omega) (by omega) e5
  obtain ⟨e7, e8⟩ := derInteger_split h6 g6 (by omega) (by omega) e6
  obtain ⟨e9, -⟩ := derInteger_split h7 g7 (by omega) (by omega) e8
  exact ⟨e7, e9⟩

/-! ### Example -/

namespace PrivateKeyExample

theorem zero : DerInteger 0 [2, 1, 0] :=
  ⟨[0], ⟨rfl, ⟨0, [], rfl, by decide⟩, by simp⟩, tlv_element (by decide)⟩
theorem modulus : DerInteger 36001 [2, 3, 0, 140, 161] :=
  ⟨[0, 140, 161], ⟨by decide, ⟨0, _, rfl, by decide⟩, by intro y r h; cases h; decide⟩,
    tlv_element (by decide)⟩
theorem exponent : DerInteger 17 [2, 1, 17] :=
  ⟨[17], ⟨by decide, ⟨17, [], rfl, by decide⟩, by simp⟩, tlv_element (by decide)⟩

/-- The key with modulus 36001 and exponent 17; one private number follows. -/
def der : Bytes :=
  [48, 36, 2, 1, 0, 48, 13, 6, 9, 42, 134, 72, 134, 247, 13, 1, 1, 1, 5, 0,
    4, 16, 48, 14, 2, 1, 0, 2, 3, 0, 140, 161, 2, 1, 17, 2, 1, 1]

-- Hypotheses of `C81_extract`, `C81_extract_only` and both uniqueness theorems.
theorem pkcs8 : Pkcs8Rsa 36001 17 [] der :=
  ⟨_, _, _, _, _, _, zero, tlv_element (by decide), tlv_element (by decide), tlv_element (by decide),
    ⟨_, _, _, [2, 1, 1], zero, modulus, exponent, tlv_element (by decide)⟩, tlv_element (by decide),
    tlv_element (by decide)⟩

theorem extracted : extractRsaPublic der = some [48, 8, 2, 3, 0, 140, 161, 2, 1, 17] := by decide +kernel

example : RsaPublicKey 36001 17 [48, 8, 2, 3, 0, 140, 161, 2, 1, 17] := by
  obtain ⟨p, h1, h2⟩ := C81_extract 36001 17 [] der pkcs8 (by omega) (by omega) (by decide)
  rw [extracted] at h1
  cases h1
  exact h2

end PrivateKeyExample

end RustTuf.Props
