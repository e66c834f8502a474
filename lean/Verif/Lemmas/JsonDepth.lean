import Verif.Lemmas.Cjson

/-!
# The recursion limit of the JSON reader only restricts what is read
-/

namespace RustTuf

/-- With a higher limit, the reader reads the same. -/
theorem parse_depth_mono (L : FloatLib) : ∀ (fuel : Nat),
    (∀ d d' s x, d ≤ d' → parseValue L fuel d s = .ok x → parseValue L fuel d' s = .ok x) ∧
    (∀ d d' s x, d ≤ d' → parseElems L fuel d s = .ok x → parseElems L fuel d' s = .ok x) ∧
    (∀ d d' s x, d ≤ d' → parseMembers L fuel d s = .ok x → parseMembers L fuel d' s = .ok x) := by
  intro fuel
  induction fuel with
  | zero => refine ⟨?_, ?_, ?_⟩ <;> intro d d' s x _ h <;> cases h
  | succ fuel ih =>
    obtain ⟨ihv, ihe, ihm⟩ := ih
    refine ⟨?_, ?_, ?_⟩
    · intro d d' s x hd h
      rw [parseValue] at h ⊢
      cases hs : skipWs s with
      | nil => rw [hs] at h; cases h
      | cons c r =>
        rw [hs] at h
        dsimp only at h ⊢
        by_cases h1 : c = 'n'
        · rw [if_pos h1] at h ⊢; exact h
        rw [if_neg h1] at h ⊢
        by_cases h2 : c = 't'
        · rw [if_pos h2] at h ⊢; exact h
        rw [if_neg h2] at h ⊢
        by_cases h3 : c = 'f'
        · rw [if_pos h3] at h ⊢; exact h
        rw [if_neg h3] at h ⊢
        by_cases h4 : c = '"'
        · rw [if_pos h4] at h ⊢; exact h
        rw [if_neg h4] at h ⊢
        by_cases h5 : c = '['
        · rw [if_pos h5] at h ⊢
          by_cases h6 : d ≤ 1
          · rw [if_pos h6] at h; cases h
          rw [if_neg h6] at h
          rw [if_neg (by omega)]
          split
          · rename_i r' hr
            rw [hr] at h
            exact h
          · rename_i r' hr
            split at h
            · rename_i hr'; exact absurd hr' (by simpa using hr _)
            · split at h
              · cases h
              · rename_i l r2 he
                rw [ihe _ (d' - 1) _ _ (by omega) he]
                exact h
        rw [if_neg h5] at h ⊢
        by_cases h7 : c = '{'
        · rw [if_pos h7] at h ⊢
          by_cases h6 : d ≤ 1
          · rw [if_pos h6] at h; cases h
          rw [if_neg h6] at h
          rw [if_neg (by omega)]
          split
          · rename_i r' hr
            rw [hr] at h
            exact h
          · rename_i r' hr
            split at h
            · rename_i hr'; exact absurd hr' (by simpa using hr _)
            · split at h
              · cases h
              · rename_i l r2 he
                rw [ihm _ (d' - 1) _ _ (by omega) he]
                exact h
        rw [if_neg h7] at h ⊢
        exact h
    · intro d d' s x hd h
      rw [parseElems] at h ⊢
      cases hv : parseValue L fuel d s with
      | error e => rw [hv] at h; cases h
      | ok y =>
        rw [hv] at h
        rw [ihv _ _ _ _ hd hv]
        obtain ⟨v, s1⟩ := y
        dsimp only at h ⊢
        split at h
        · assumption
        · rename_i r hr
          cases he : parseElems L fuel d r with
          | error e => rw [he] at h; cases h
          | ok z => rw [he] at h; rw [ihe _ _ _ _ hd he]; exact h
        · cases h
    · intro d d' s x hd h
      rw [parseMembers] at h ⊢
      split at h
      · rename_i r hr
        cases hp : parseStr r with
        | error e => rw [hp] at h; cases h
        | ok y =>
          rw [hp] at h
          obtain ⟨k, r1⟩ := y
          dsimp only at h ⊢
          split at h
          · rename_i r2 hr2
            cases hv : parseValue L fuel d r2 with
            | error e => rw [hv] at h; cases h
            | ok y =>
              rw [hv] at h
              rw [ihv _ _ _ _ hd hv]
              obtain ⟨v, s1⟩ := y
              dsimp only at h ⊢
              split at h
              · assumption
              · rename_i r3 hr3
                cases he : parseMembers L fuel d r3 with
                | error e => rw [he] at h; cases h
                | ok z => rw [he] at h; rw [ihm _ _ _ _ hd he]; exact h
              · cases h
          · cases h
      · cases h

end RustTuf
