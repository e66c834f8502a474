import Verif.Model.Keys
import Verif.Lemmas.Formats
import Verif.Spec.Der
import Mathlib.Data.List.Induction
import Mathlib.Data.List.Basic

/-!
# Lemmas on DER
-/

namespace RustTuf.Props
open Spec RustTuf Formats Keys

theorem bigEndian_concat (b : Bytes) (x : UInt8) : bigEndian (b ++ [x]) = bigEndian b * 256 + x.toNat := by
  simp [bigEndian]

theorem bigEndian_lenBytes (n : Nat) : bigEndian (lenBytes n) = n := by
  induction n using lenBytes.induct with
  | case1 n h =>
    rw [lenBytes, if_pos h]
    simp only [bigEndian, List.foldl_cons, List.foldl_nil, Nat.zero_mul, Nat.zero_add, UInt8.toNat_ofNat']
    omega
  | case2 n h ih =>
    rw [lenBytes, if_neg h, bigEndian_concat, ih, UInt8.toNat_ofNat']
    omega

theorem lenBytes_ne_nil (n : Nat) : lenBytes n ≠ [] := by
  rw [lenBytes]
  split <;> simp

theorem lenBytes_head {n : Nat} (h : 0 < n) : (lenBytes n).head? ≠ some 0 := by
  induction n using lenBytes.induct with
  | case1 n h' =>
    rw [lenBytes, if_pos h']
    simp only [List.head?_cons, ne_eq, Option.some.injEq]
    intro e
    have := congrArg UInt8.toNat e
    rw [UInt8.toNat_ofNat'] at this
    simp at this
    omega
  | case2 n h' ih =>
    rw [lenBytes, if_neg h', List.head?_append_of_ne_nil _ (lenBytes_ne_nil _)]
    exact ih (by omega)

theorem bigEndian_pos {b : Bytes} (hb : b ≠ []) (h : b.head? ≠ some 0) : 0 < bigEndian b := by
  induction b using List.reverseRecOn with
  | nil => exact absurd rfl hb
  | append_singleton b x ih =>
    rw [bigEndian_concat]
    by_cases e : b = []
    · subst e
      simp only [List.nil_append, List.head?_cons, ne_eq, Option.some.injEq] at h
      have : x.toNat ≠ 0 := fun e => h (UInt8.toNat_inj.1 e)
      omega
    · rw [List.head?_append_of_ne_nil _ e] at h
      have := ih e h
      omega

/-- Bytes without a leading zero are determined by the number. -/
theorem lenBytes_bigEndian {b : Bytes} (hb : b ≠ []) (h : b.head? ≠ some 0) :
    lenBytes (bigEndian b) = b := by
  induction b using List.reverseRecOn with
  | nil => exact absurd rfl hb
  | append_singleton b x ih =>
    have hx := x.toNat_lt
    rw [bigEndian_concat]
    by_cases e : b = []
    · subst e
      simp only [bigEndian, List.foldl_nil, Nat.zero_mul, Nat.zero_add, List.nil_append]
      rw [lenBytes, if_pos (by omega), UInt8.ofNat_toNat]
    · rw [List.head?_append_of_ne_nil _ e] at h
      have hp := bigEndian_pos e h
      rw [lenBytes, if_neg (by omega)]
      have e1 : (bigEndian b * 256 + x.toNat) / 256 = bigEndian b := by omega
      have e2 : (bigEndian b * 256 + x.toNat) % 256 = x.toNat := by omega
      rw [e1, e2, ih e h, UInt8.ofNat_toNat]

/-! ### Elements -/

theorem lenBytes_small {n : Nat} (h : (lenBytes n).length < 128) :
    (UInt8.ofNat (128 + (lenBytes n).length)).toNat = 128 + (lenBytes n).length := by
  rw [UInt8.toNat_ofNat']
  omega

theorem lenBytes_length {n : Nat} (h : n ≤ 65535) : (lenBytes n).length ≤ 2 := by
  rw [lenBytes]
  split
  · simp
  · rw [lenBytes, if_pos (by omega)]
    simp

theorem derLength_write {n : Nat} (h : n ≤ 65535) : DerLength n (writeLen n) := by
  unfold writeLen
  split
  · exact .inl ⟨by assumption, _, rfl, by rw [UInt8.toNat_ofNat']; omega⟩
  · exact .inr ⟨by omega, _, _, rfl, lenBytes_small (by have := lenBytes_length h; omega),
      bigEndian_lenBytes _, lenBytes_head (by omega)⟩

theorem derLength_unique {n : Nat} {l : Bytes} (h : DerLength n l) : l = writeLen n := by
  rcases h with ⟨h1, x, rfl, h2⟩ | ⟨h1, x, b, rfl, h2, h3, h4⟩
  · rw [writeLen, if_pos h1, ← h2, UInt8.ofNat_toNat]
  · have hb : b ≠ [] := by
      rintro rfl
      simp [bigEndian] at h3
      omega
    have e := lenBytes_bigEndian hb h4
    rw [h3] at e
    rw [writeLen, if_neg (by omega), e, ← h2, UInt8.ofNat_toNat]

theorem tlv_element {tag : UInt8} {v : Bytes} (h : v.length ≤ 65535) : Tlv tag v (element tag v) :=
  ⟨_, derLength_write h, rfl⟩

theorem tlv_unique {tag : UInt8} {v b : Bytes} (h : Tlv tag v b) : b = element tag v := by
  obtain ⟨l, h1, h2⟩ := h
  rw [h2, derLength_unique h1]
  rfl

/-! ### Integers -/

/-- The bytes that `nonnegative_integer` returns. -/
structure IntBytes (n : Nat) (w : Bytes) : Prop where
  value : bigEndian w = n
  nonempty : w ≠ []
  head : w.head? ≠ some 0 ∨ w = [0]

theorem bigEndian_zero (w : Bytes) : bigEndian (0 :: w) = bigEndian w := by
  simp [bigEndian]

theorem stripInteger_some {min : Nat} {v w : Bytes} (h : stripInteger min v = some w) :
    ∃ n, DerNat n v ∧ IntBytes n w ∧ (min ≤ 1 → min ≤ n) := by
  match v with
  | [] => cases h
  | [x] =>
    simp only [stripInteger] at h
    split at h
    · cases h
    · split at h
      · cases h
      · cases h
        have e : bigEndian [x] = x.toNat := by simp [bigEndian]
        refine ⟨x.toNat, ⟨e, ⟨x, [], rfl, by omega⟩, ?_⟩, ⟨e, by simp, ?_⟩, by omega⟩
        · intro y r hr
          simp at hr
        · by_cases hx : x = 0
          · exact .inr (by rw [hx])
          · exact .inl (by simp [hx])
  | x :: y :: v =>
    simp only [stripInteger] at h
    split at h
    · rename_i hx
      subst hx
      split at h
      · cases h
      · cases h
        have hy : y ≠ 0 := by rintro rfl; simp_all
        have e := bigEndian_pos (b := y :: v) (by simp) (by simp [hy])
        exact ⟨_, ⟨bigEndian_zero _, ⟨0, _, rfl, by decide⟩, by
          intro z r hr; cases hr; omega⟩, ⟨rfl, by simp, .inl (by simp [hy])⟩, by omega⟩
    · rename_i hx
      split at h
      · cases h
      · cases h
        have e := bigEndian_pos (b := x :: y :: v) (by simp) (by simp [hx])
        exact ⟨_, ⟨rfl, ⟨x, _, rfl, by omega⟩, by
          intro z r hr; cases hr; exact absurd rfl hx⟩, ⟨rfl, by simp, .inl (by simp [hx])⟩, by omega⟩

theorem stripInteger_derNat {min n : Nat} {v : Bytes} (h : DerNat n v) (hm : min ≤ n) (h1 : min ≤ 1) :
    ∃ w, stripInteger min v = some w ∧ IntBytes n w := by
  have key : ∃ w, stripInteger min v = some w := by
    obtain ⟨x, r, rfl, hx⟩ := h.clear
    cases r with
    | nil =>
      have e : bigEndian [x] = x.toNat := by simp [bigEndian]
      rw [h.value] at e
      exact ⟨[x], by rw [stripInteger, if_neg (by omega), if_neg (by omega)]⟩
    | cons y r =>
      rw [stripInteger]
      split
      · rename_i h0
        subst h0
        have := h.short y r rfl
        exact ⟨_, by rw [if_neg (by omega)]⟩
      · exact ⟨_, by rw [if_neg (by omega)]⟩
  obtain ⟨w, hw⟩ := key
  obtain ⟨n', h2, h3, -⟩ := stripInteger_some hw
  have : n' = n := by rw [← h2.value, h.value]
  subst this
  exact ⟨w, hw, h3⟩

theorem derInteger_read {min n : Nat} {b : Bytes} (h : DerInteger n b) (hl : b.length ≤ 65535)
    (hm : min ≤ n) (h1 : min ≤ 1) (r : Bytes) :
    ∃ w, nonnegativeInteger min (b ++ r) = some (w, r) ∧ IntBytes n w := by
  obtain ⟨c, h2, h3⟩ := h
  have e := tlv_unique h3
  subst e
  obtain ⟨w, h4, h5⟩ := stripInteger_derNat h2 hm h1
  refine ⟨w, ?_, h5⟩
  have : c.length ≤ 65535 := by
    simp only [element, List.length_cons, List.length_append] at hl
    omega
  unfold nonnegativeInteger
  rw [show (2 : UInt8) = tagInteger from rfl, expectTag_element this]
  simp only [h4]

theorem nonnegativeInteger_some {min : Nat} {b w r : Bytes}
    (h : nonnegativeInteger min b = some (w, r)) :
    ∃ n i, b = i ++ r ∧ i.length ≤ 65539 ∧ DerInteger n i ∧ IntBytes n w ∧ (min ≤ 1 → min ≤ n) := by
  unfold nonnegativeInteger at h
  split at h
  · cases h
  · rename_i v b' hv
    obtain ⟨h1, h2⟩ := expectTag_some hv
    split at h
    · cases h
    · rename_i w' hw
      cases h
      obtain ⟨n, h3, h4, h5⟩ := stripInteger_some hw
      refine ⟨n, _, h1, ?_, ⟨v, h3, tlv_element h2⟩, h4, h5⟩
      have := writeLen_length_mono h2 (Nat.le_refl _)
      rw [show (writeLen 65535).length = 3 by decide +kernel] at this
      simp only [element, List.length_cons, List.length_append]
      omega

theorem derInteger_write {n : Nat} {w : Bytes} (h : IntBytes n w) (hp : 0 < n)
    (hl : w.length < 65535) : DerInteger n (writePositive w) := by
  have hw : w.head? ≠ some 0 := by
    rcases h.head with h1 | h1
    · exact h1
    · rw [← h.value, h1] at hp
      simp [bigEndian] at hp
  refine ⟨_, ?_, tlv_element ?_⟩
  · obtain ⟨x, r, rfl⟩ : ∃ x r, w = x :: r := by
      cases w with
      | nil => exact absurd rfl h.nonempty
      | cons x r => exact ⟨x, r, rfl⟩
    rw [List.headD_cons]
    by_cases hx : 128 ≤ x.toNat
    · rw [if_pos hx]
      refine ⟨by rw [bigEndian_zero, h.value], ⟨0, _, rfl, by decide⟩, ?_⟩
      intro y r hr
      cases hr
      assumption
    · rw [if_neg hx]
      refine ⟨h.value, ⟨x, r, rfl, by omega⟩, ?_⟩
      intro y r hr
      cases hr
      simp at hw
  · split
    · rw [List.length_cons]; omega
    · omega

theorem derNat_unique {n : Nat} {b c : Bytes} (h : DerNat n b) (h' : DerNat n c) : b = c := by
  obtain ⟨v, h1, h2⟩ := stripInteger_derNat (min := 0) h (by omega) (by omega)
  obtain ⟨w, h3, h4⟩ := stripInteger_derNat (min := 0) h' (by omega) (by omega)
  have hvw : v = w := by
    rcases h2.head with e1 | e1 <;> rcases h4.head with e2 | e2
    · rw [← lenBytes_bigEndian h2.nonempty e1, ← lenBytes_bigEndian h4.nonempty e2, h2.value, h4.value]
    · have := bigEndian_pos h2.nonempty e1
      rw [h2.value, ← h4.value, e2] at this
      simp [bigEndian] at this
    · have := bigEndian_pos h4.nonempty e2
      rw [h4.value, ← h2.value, e1] at this
      simp [bigEndian] at this
    · rw [e1, e2]
  subst hvw
  have key : ∀ {b : Bytes}, DerNat n b → stripInteger 0 b = some v →
      b = if 128 ≤ (v.headD 0).toNat then 0 :: v else v := by
    intro b hb hs
    obtain ⟨x, r, rfl, hx⟩ := hb.clear
    cases r with
    | nil =>
      rw [stripInteger, if_neg (by omega), if_neg (by omega)] at hs
      cases hs
      rw [List.headD_cons, if_neg (by omega)]
    | cons y r =>
      rw [stripInteger] at hs
      split at hs
      · rename_i h0
        subst h0
        split at hs
        · cases hs
        · cases hs
          rw [List.headD_cons, if_pos (by omega)]
      · rw [if_neg (by omega)] at hs
        cases hs
        rw [List.headD_cons, if_neg (by omega)]
  rw [key h h1, key h' h3]

theorem derInteger_unique {n : Nat} {b c : Bytes} (h : DerInteger n b) (h' : DerInteger n c) : b = c := by
  obtain ⟨x, h1, h2⟩ := h
  obtain ⟨y, h3, h4⟩ := h'
  rw [tlv_unique h2, tlv_unique h4, derNat_unique h1 h3]

end RustTuf.Props
