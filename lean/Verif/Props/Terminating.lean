import Verif.Props.Lookup

/-!
# C72: terminating delegations (src/tuf.rs:771-826)
-/

namespace RustTuf.Props
open Spec Tuf

/-- The delegated role cannot be used, or it delegates on to terminating delegations only. -/
def Final (t : Tuf) (clk : Clock) (d : Delegation) : Prop :=
  ∀ td, t.delegations.get? d.role = some td → clk (.deleg d.role) < td.expires →
    ∃ child, td.delegations = some child ∧ ∀ c ∈ child.roles, c.terminating = true

/-- The state with another list of top-level delegations. -/
def withRoles (t : Tuf) (ta : TargetsMetadata) (ds : Delegations) (roles : List Delegation) : Tuf :=
  { t with targets := some { ta with delegations := some { ds with roles := roles } } }

theorem lookupLoop_final {t : Tuf} {clk : Clock} {path : VirtualTargetPath} {rec} {depth : Nat}
    {parents : List (List VirtualTargetPath)} {l : List Delegation}
    (hl : ∀ c ∈ l, c.terminating = true) :
    ∀ {visited b r v}, lookupLoop t clk path rec true depth parents l visited = some ((b, r), v) →
      b = true ∨ r.isSome = true := by
  induction l with
  | nil =>
    intro visited b r v h
    cases h
    exact .inl rfl
  | cons c l ih =>
    intro visited b r v h
    have hc := hl c (by simp)
    have hrest := @ih fun x hx => hl x (by simp [hx])
    unfold lookupLoop at h
    rw [hc] at h
    dsimp only at h
    repeat' split at h
    all_goals first
      | (cases h; exact .inl rfl)
      | exact hrest h
      | (cases h; right; assumption)
      | cases h

theorem lookup_congr {t t' : Tuf} (h : t'.delegations = t.delegations) (clk : Clock)
    (path : VirtualTargetPath) (fuel : Nat) : lookup t' clk path fuel = lookup t clk path fuel := by
  induction fuel with
  | zero => rfl
  | succ fuel ih =>
    funext dflt depth ds parents visited
    have : ∀ (l : List Delegation) (visited : List MetadataPath),
        lookupLoop t' clk path (lookup t' clk path fuel) dflt depth parents l visited =
        lookupLoop t clk path (lookup t clk path fuel) dflt depth parents l visited := by
      intro l
      induction l with
      | nil => intro _; rfl
      | cons d l ihl =>
        intro visited
        unfold lookupLoop
        rw [ih] at ihl ⊢
        simp only [h, ihl]
    exact this ds.roles visited

/-- **C72 (partial).** Whatever follows a terminating delegation in the top-level targets makes no
difference to the search for a target, if the role it names cannot be used or delegates on to
terminating delegations only. Missing: a role without delegations of its own
(`C72_leaf_does_not_end_search`), or with a non-terminating one (`C72_child_overrides`), does not end
the search. -/
theorem C72_terminating_ends_search_partial (clk : Clock) (t : Tuf) (path : VirtualTargetPath)
    (ta : TargetsMetadata) (ds : Delegations) (pre post : List Delegation) (d : Delegation)
    (h1 : t.targets = some ta) (h2 : ta.delegations = some ds) (h3 : ds.roles = pre ++ d :: post)
    (h4 : d.terminating = true) (h5 : Final t clk d) :
    targetDescription clk t path = targetDescription clk (withRoles t ta ds (pre ++ [d])) path := by
  have hloop : ∀ (pre : List Delegation) (fuel : Nat) (visited : List MetadataPath),
      (lookupLoop t clk path (lookup t clk path fuel) false 0 [] (pre ++ d :: post) visited).map
        (fun p => p.1.2) =
      (lookupLoop t clk path (lookup t clk path fuel) false 0 [] (pre ++ [d]) visited).map
        (fun p => p.1.2) := by
    intro pre fuel
    induction pre with
    | nil =>
      intro visited
      simp only [List.nil_append]
      unfold lookupLoop
      rw [h4]
      split
      · rfl
      · dsimp only
        split
        · rfl
        · split
          · rfl
          · rename_i td htd
            split
            · rfl
            · rename_i hexp
              obtain ⟨child, hc, hterm⟩ := h5 td htd (by omega)
              split
              · rfl
              · rw [hc]
                dsimp only
                split
                · rfl
                · rename_i term res v hrec
                  split
                  · rfl
                  · rename_i ht
                    split
                    · rfl
                    · rename_i hr
                      exfalso
                      cases fuel with
                      | zero => cases hrec
                      | succ fuel =>
                        unfold lookup at hrec
                        rcases lookupLoop_final hterm hrec with h | h
                        · exact ht h
                        · exact hr h
    | cons x pre ih =>
      intro visited
      simp only [List.cons_append]
      unfold lookupLoop
      split
      · rfl
      · dsimp only
        split
        · rfl
        · split
          · rfl
          · split
            · rfl
            · split
              · rfl
              · split
                · exact ih _
                · split
                  · rfl
                  · split
                    · rfl
                    · split
                      · rfl
                      · exact ih _
  have hr : rootUnexpired (withRoles t ta ds (pre ++ [d])) clk = rootUnexpired t clk := rfl
  have hs : snapshotUnexpired (withRoles t ta ds (pre ++ [d])) clk = snapshotUnexpired t clk := rfl
  have hf : lookupFuel (withRoles t ta ds (pre ++ [d])) = lookupFuel t := rfl
  have hl := lookup_congr (t := t) (t' := withRoles t ta ds (pre ++ [d])) rfl clk path (lookupFuel t)
  unfold targetDescription
  rw [hr, hs, hf, hl]
  split
  · rfl
  · split
    · rfl
    · unfold targetsUnexpired
      rw [h1]
      simp only [withRoles]
      by_cases he : ta.expires ≤ clk .targets
      · simp only [he, if_true]
      · simp only [he, if_false]
        split
        · rfl
        · rw [h2]
          simp only
          have := hloop pre t.delegations.length []
          unfold lookupFuel lookup
          rw [h3]
          simp only
          revert this
          generalize lookupLoop t clk path (lookup t clk path t.delegations.length) false 0 []
            (pre ++ d :: post) [] = a
          generalize lookupLoop t clk path (lookup t clk path t.delegations.length) false 0 []
            (pre ++ [d]) [] = b
          intro this
          rcases a with _ | ⟨⟨a1, _ | a2⟩, a3⟩ <;> rcases b with _ | ⟨⟨b1, _ | b2⟩, b3⟩ <;>
            simp at this <;> simp [this]

/-- **C72 is false for the code**: a terminating delegation to a role that is trusted, unexpired,
does not list the target and has no delegations does not end the search; a later delegation
supplies the target. -/
theorem C72_leaf_does_not_end_search :
    ∃ (t : Tuf) (clk : Clock) (path : VirtualTargetPath) (ta : TargetsMetadata) (ds : Delegations)
      (d1 d2 : Delegation) (desc : TargetDescription), t.targets = some ta ∧
      ta.delegations = some ds ∧ ds.roles = [d1, d2] ∧ d1.terminating = true ∧
      (∃ p ∈ d1.paths, Under path p) ∧
      targetDescription clk t path = .ok desc ∧
      targetDescription clk (withRoles t ta ds [d1]) path = .error .targetUnavailable := by
  refine ⟨{ Toy.full with
    targets := some (Toy.targets 1 500 [] (some (Toy.delegations
      [Toy.delegation "a" true ["p/"], Toy.delegation "b" false ["p/"]])))
    delegations := [("a".toList, Toy.targets 1 500 [] none),
      ("b".toList, Toy.targets 1 500 [("p/y", 3)] none)] },
    Toy.clk 100, "p/y".toList, _, _, _, _, Toy.target 3, rfl, rfl, rfl, rfl,
    ⟨"p/".toList, by decide, ?_⟩, by decide, by decide⟩
  rw [under_iff]; decide

/-- **C72 is false for the code**: a terminating delegation is overridden by a non-terminating
delegation of the role it names. -/
theorem C72_child_overrides :
    ∃ (t : Tuf) (clk : Clock) (path : VirtualTargetPath) (ta : TargetsMetadata) (ds : Delegations)
      (d1 d2 : Delegation) (td : TargetsMetadata) (desc : TargetDescription), t.targets = some ta ∧
      ta.delegations = some ds ∧ ds.roles = [d1, d2] ∧ d1.terminating = true ∧
      (∃ p ∈ d1.paths, Under path p) ∧ t.delegations.get? d1.role = some td ∧ td.delegations.isSome ∧
      targetDescription clk t path = .ok desc ∧
      targetDescription clk (withRoles t ta ds [d1]) path = .error .targetUnavailable := by
  refine ⟨{ Toy.full with
    targets := some (Toy.targets 1 500 [] (some (Toy.delegations
      [Toy.delegation "a" true ["p/"], Toy.delegation "b" false ["p/"]])))
    delegations := [("a".toList, Toy.targets 1 500 [] (some (Toy.delegations
        [Toy.delegation "c" false ["p/"]]))),
      ("b".toList, Toy.targets 1 500 [("p/y", 3)] none)] },
    Toy.clk 100, "p/y".toList, _, _, _, _, _, Toy.target 3, rfl, rfl, rfl, rfl,
    ⟨"p/".toList, by decide, ?_⟩, rfl, rfl, by decide, by decide⟩
  rw [under_iff]; decide

/-- A state that meets the hypotheses of `C72_terminating_ends_search_partial`: the target of `b` is
out of reach behind the terminating delegation to `a`. -/
def blocked : Tuf :=
  { Toy.full with
    targets := some (Toy.targets 1 500 [] (some (Toy.delegations
      [Toy.delegation "a" true ["p/"], Toy.delegation "b" false ["p/"]])))
    delegations := [("a".toList, Toy.targets 1 500 [] (some (Toy.delegations
        [Toy.delegation "c" true ["p/"]]))),
      ("b".toList, Toy.targets 1 500 [("p/y", 3)] none)] }

example : Final blocked (Toy.clk 100) (Toy.delegation "a" true ["p/"]) := by
  intro td h _
  cases h
  exact ⟨_, rfl, by decide⟩
example : targetDescription (Toy.clk 100) blocked "p/y".toList = .error .targetUnavailable := by
  decide

end RustTuf.Props
