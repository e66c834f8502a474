import Verif.Model.KeyOrder
import Verif.Props.KeyIds
import Verif.Lemmas.StrOrder

/-!
# C97: equality, order and hashing of public keys agree
-/

namespace RustTuf.Props
open Spec RustTuf

theorem key_eq_iff (k k' : PublicKey) : k.eq k' = true ↔
    k.typ = k'.typ ∧ k.scheme = k'.scheme ∧ k.keyidHashAlgorithms = k'.keyidHashAlgorithms ∧ k.value = k'.value := by
  simp [PublicKey.eq, and_assoc]

/-- **C97.** The order is a linear order of key IDs: `partial_cmp` is `cmp`, comparison in the other
direction gives the opposite result, and it is the lexicographic order of the IDs. -/
theorem C97_order (k k' : PublicKey) :
    k.partialCmp k' = some (k.cmp k') ∧ k'.cmp k = (k.cmp k').swap ∧
    (k.cmp k' = .lt ↔ k.keyId < k'.keyId) ∧ (k.cmp k' = .eq ↔ k.keyId = k'.keyId) ∧
    (k.cmp k' = .gt ↔ k'.keyId < k.keyId) := by
  refine ⟨rfl, ?_⟩
  simp only [← strLt_iff]
  unfold PublicKey.cmp
  rcases strLt_total k.keyId k'.keyId with h | h | h
  · have h2 := strLt_asymm h
    have h3 := strLt_ne h
    simp [h, h2, Ne.symm h3, Ordering.swap, h3]
  · rw [h]
    simp [strLt_irrefl, Ordering.swap]
  · have h2 := strLt_asymm h
    have h3 := strLt_ne h
    simp [h, h2, Ne.symm h3, Ordering.swap]

/-- **C97.** Keys are equal exactly when a hasher is given the same for both. -/
theorem C97_hash (k k' : PublicKey) : k.eq k' = true ↔ k.hashInput = k'.hashInput := by
  rw [key_eq_iff]
  simp [PublicKey.hashInput]

/-- **C97.** Equality and order agree for keys with computed IDs: equal keys compare as equal, and keys
that compare as equal are equal unless their documents are a SHA-256 collision. So a set that uses the
order and a set that uses hashes treat the same keys as duplicates. -/
theorem C97_equality_and_order (X : ShimLib) (L : Laws X) (k k' : PublicKey) (hk : GoodKey X k)
    (hk' : GoodKey X k') : (k.eq k' = true → k.cmp k' = .eq) ∧ (k.cmp k' = .eq → k.eq k' = true ∨ Collide X k k') := by
  have h := (C97_order k k').2.2.2.1
  refine ⟨fun e => h.2 ?_, fun e => ?_⟩
  · obtain ⟨e1, e2, e3, e4⟩ := (key_eq_iff k k').1 e
    have h1 := hk.id
    have h2 := hk'.id
    rw [e1, e2, e3, e4, h2] at h1
    exact (Option.some.inj h1).symm
  · rcases C76_key_id_determines_key X L k k' hk hk' (h.1 e) with rfl | hc
    · exact .inl ((key_eq_iff k k).2 ⟨rfl, rfl, rfl, rfl⟩)
    · exact .inr hc

/-- **C97.** For keys with computed IDs, equality means that the keys are the same, although the
comparison skips the ID. -/
theorem C97_equal_is_identical (X : ShimLib) (k k' : PublicKey) (hk : GoodKey X k) (hk' : GoodKey X k') :
    k.eq k' = true ↔ k = k' := by
  rw [key_eq_iff]
  refine ⟨fun ⟨e1, e2, e3, e4⟩ => ?_, by rintro rfl; exact ⟨rfl, rfl, rfl, rfl⟩⟩
  have h1 := hk.id
  have h2 := hk'.id
  rw [e1, e2, e3, e4, h2] at h1
  cases k; cases k'
  simp_all

/-- Without computed IDs this would be false. -/
example : ∃ k k' : PublicKey, k.eq k' = true ∧ k.cmp k' = .lt :=
  ⟨⟨.ed25519, "a".toList, .ed25519, none, []⟩, ⟨.ed25519, "b".toList, .ed25519, none, []⟩, by decide, by decide⟩

namespace PublishExample

/-- Two different keys with computed IDs. -/
example : ∃ k k', GoodKey idLib k ∧ GoodKey idLib k' ∧ k.eq k' = false ∧ k.cmp k' ≠ .eq := by
  have h1 : (PublicKey.fromEd25519 idLib (List.replicate 32 7) none).isSome = true := by decide +kernel
  have h2 : (PublicKey.fromEd25519 idLib (List.replicate 32 8) none).isSome = true := by decide +kernel
  obtain ⟨k, hk⟩ := Option.isSome_iff_exists.1 h1
  obtain ⟨k', hk'⟩ := Option.isSome_iff_exists.1 h2
  obtain ⟨g, v, _⟩ := fromEd25519_good hk
  obtain ⟨g', v', _⟩ := fromEd25519_good hk'
  have hne : k.eq k' = false := by
    cases e : k.eq k' with
    | false => rfl
    | true =>
      have := ((key_eq_iff k k').1 e).2.2.2
      rw [v, v'] at this
      exact absurd this (by decide)
  refine ⟨k, k', g, g', hne, fun h => ?_⟩
  rcases (C97_equality_and_order idLib idLaws k k' g g').2 h with h | ⟨_, _, b, b', _, _, _, _, h3, h4⟩
  · rw [hne] at h; cases h
  · exact h3 h4

end PublishExample

end RustTuf.Props
