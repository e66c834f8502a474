import Verif.Model.Http

namespace RustTuf

theorem utf8_injective {a b : Str} (h : utf8 a = utf8 b) : a = b := by
  have h1 : a.utf8Encode = b.utf8Encode := by
    unfold List.utf8Encode; unfold utf8 at h; rw [h]
  have h2 := List.utf8Decode?_utf8Encode (l := a)
  rw [h1, List.utf8Decode?_utf8Encode] at h2
  injection h2 with h2
  have := congrArg Array.toList h2
  simpa using this.symm

theorem utf8_nil : utf8 [] = [] := rfl
theorem utf8_append (a b : Str) : utf8 (a ++ b) = utf8 a ++ utf8 b := by simp [utf8]
theorem utf8_cons (c : Char) (b : Str) : utf8 (c :: b) = String.utf8EncodeChar c ++ utf8 b := by
  simp [utf8]

/-- An ASCII byte in the encoding comes from that ASCII character. -/
theorem ascii_mem_utf8EncodeChar (c : Char) (b : UInt8) (hb : b ∈ String.utf8EncodeChar c)
    (hlt : b.toNat < 0x80) : c.toNat = b.toNat := by
  have hc : c.val.toNat = c.toNat := rfl
  unfold String.utf8EncodeChar at hb
  simp only [hc] at hb
  split at hb
  · simp only [List.mem_singleton] at hb
    subst hb
    simp only [UInt8.toNat_ofNat']
    omega
  · exfalso
    split at hb
    · simp only [List.mem_cons, List.not_mem_nil, or_false] at hb
      rcases hb with rfl | rfl <;> simp only [UInt8.toNat_ofNat'] at hlt <;> omega
    · split at hb
      · simp only [List.mem_cons, List.not_mem_nil, or_false] at hb
        rcases hb with rfl | rfl | rfl <;> simp only [UInt8.toNat_ofNat'] at hlt <;> omega
      · simp only [List.mem_cons, List.not_mem_nil, or_false] at hb
        rcases hb with rfl | rfl | rfl | rfl <;> simp only [UInt8.toNat_ofNat'] at hlt <;> omega

theorem ascii_mem_utf8 (s : Str) (b : UInt8) (hb : b ∈ utf8 s) (hlt : b.toNat < 0x80) :
    Char.ofNat b.toNat ∈ s := by
  unfold utf8 at hb
  obtain ⟨c, hc, hb⟩ := List.mem_flatMap.1 hb
  rw [← ascii_mem_utf8EncodeChar c b hb hlt, Char.ofNat_toNat]
  exact hc

theorem utf8EncodeChar_ascii (c : Char) (h : c.toNat < 0x80) :
    String.utf8EncodeChar c = [UInt8.ofNat c.toNat] := by
  have hc : c.val.toNat = c.toNat := rfl
  unfold String.utf8EncodeChar
  simp only [hc]
  rw [if_pos (by omega)]

end RustTuf
