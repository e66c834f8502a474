import Verif.Props.TufRules
import Verif.Lemmas.Chain

/-!
# Properties of `Tuf::target_description` (C24 to C27) and of path patterns (C45)
-/

namespace RustTuf.Props
open Spec Tuf

/-! ### C45 -/

/-- **C45.** `is_child` holds exactly if the parent ends with a slash and is a prefix. -/
theorem C45_is_child (a p : VirtualTargetPath) :
    isChild a p = true ↔ (∃ dir, p = dir ++ ['/']) ∧ ∃ rest, a = p ++ rest := isChild_iff a p

/-- **C45.** `matches_chain` holds exactly if the path is covered by a nested choice of patterns. -/
theorem C45_matches_chain (path : VirtualTargetPath) (groups : List (List VirtualTargetPath)) :
    matchesChain path groups = true ↔ Covered path groups := matchesChain_iff path groups

/-- **C45.** In particular every group has a pattern covering the path, and no path is covered by
the empty chain. -/
theorem C45_chain_covers_each (path : VirtualTargetPath) (groups : List (List VirtualTargetPath))
    (h : matchesChain path groups = true) :
    groups ≠ [] ∧ ∀ g ∈ groups, ∃ p ∈ g, Under path p := by
  obtain ⟨p, ps, h1, h2, h3⟩ := (matchesChain_iff path groups).1 h
  constructor
  · rintro rfl; cases h1
  · have aux : ∀ (p : VirtualTargetPath) (ps : List VirtualTargetPath)
        (groups : List (List VirtualTargetPath)),
        List.Forall₂ (fun q g => q ∈ g) (p :: ps) groups → Nested p ps →
        Under path ((p :: ps).getLast (by simp)) →
        Under path p ∧ ∀ g ∈ groups, ∃ p ∈ g, Under path p := by
      clear h1 h2 h3 h p ps groups
      intro p ps
      induction ps generalizing p with
      | nil =>
        intro groups h1 _ h3
        cases h1 with
        | cons hp hr =>
          cases hr
          refine ⟨h3, ?_⟩
          intro g hg
          simp at hg
          subst hg
          exact ⟨p, hp, h3⟩
      | cons q qs ih =>
        intro groups h1 h2 h3
        cases h1 with
        | cons hp hr =>
          obtain ⟨a, b⟩ := ih q _ hr h2.2 (by simpa using h3)
          have hpp := a.trans h2.1
          refine ⟨hpp, ?_⟩
          intro g hg
          rcases List.mem_cons.1 hg with rfl | hg
          · exact ⟨p, hp, hpp⟩
          · exact b g hg
    exact (aux p ps groups h1 h2 h3).2

example : matchesChain "a/b/c".toList [["x/".toList, "a/".toList], ["a/b/".toList]] = true := by decide
/-- The second group must lie under the first. -/
example : matchesChain "a/b/c".toList [["a/b/".toList], ["a/".toList]] = false := by decide
example : isChild "a/b".toList "a/".toList = true ∧ isChild "ab".toList "a".toList = false := by decide

/-! ### C24, C25 -/

theorem lookup_sound (t : Tuf) (clk : Clock) (path : VirtualTargetPath) (fuel : Nat) :
    ∀ dflt depth ds parents visited b desc visited',
      (0 < depth ↔ parents ≠ []) →
      lookup t clk path fuel dflt depth ds parents visited = some ((b, some desc), visited') →
      ∃ chain td, Chain t clk ds chain td ∧ td.targets.get? path = some desc ∧
        (parents ++ (chain.dropLast.map (·.paths)) ≠ [] →
          matchesChain path (parents ++ (chain.dropLast.map (·.paths))) = true) := by
  induction fuel with
  | zero => intro _ _ _ _ _ _ _ _ _ h; cases h
  | succ fuel ih =>
    intro dflt depth ds parents visited b desc visited' hdp h
    have hloop : ∀ (l : List Delegation) (visited : List MetadataPath), (∀ d ∈ l, d ∈ ds.roles) →
        lookupLoop t clk path (lookup t clk path fuel) dflt depth parents l visited =
          some ((b, some desc), visited') →
        ∃ chain td, Chain t clk ds chain td ∧ td.targets.get? path = some desc ∧
          (parents ++ (chain.dropLast.map (·.paths)) ≠ [] →
            matchesChain path (parents ++ (chain.dropLast.map (·.paths))) = true) := by
      intro l
      induction l with
      | nil => intro visited _ h; cases h
      | cons d l ihl =>
        intro visited hmem h
        unfold lookupLoop at h
        split at h
        · cases h
        · dsimp only at h
          split at h
          · cases h
          · rename_i hchain
            split at h
            · cases h
            · rename_i td htd
              split at h
              · cases h
              · rename_i hexp
                split at h
                · rename_i target htarget
                  cases h
                  refine ⟨[d], td, .one ds d td (hmem d (by simp)) htd (by omega), htarget, ?_⟩
                  simp only [List.dropLast_singleton, List.map_nil, List.append_nil]
                  intro hne
                  have hpos := hdp.2 hne
                  simp only [Bool.and_eq_true, decide_eq_true_eq, Bool.not_eq_true', not_and,
                    Bool.not_eq_false] at hchain
                  exact hchain hpos
                · split at h
                  · exact ihl _ (fun x hx => hmem x (by simp [hx])) h
                  · rename_i child hchild
                    have found : ∀ b' v v', lookup t clk path fuel d.terminating (depth + 1) child
                        (parents ++ [d.paths]) v = some ((b', some desc), v') →
                        ∃ chain td, Chain t clk ds chain td ∧ td.targets.get? path = some desc ∧
                          (parents ++ (chain.dropLast.map (·.paths)) ≠ [] →
                            matchesChain path (parents ++ (chain.dropLast.map (·.paths))) = true) := by
                      intro b' v v' hrec
                      obtain ⟨chain, td', hc, ht, hm⟩ := ih d.terminating (depth + 1) child
                        (parents ++ [d.paths]) v b' desc v' (by simp) hrec
                      refine ⟨d :: chain, td', .cons ds d td child chain td' (hmem d (by simp)) htd
                        (by omega) hchild hc, ht, ?_⟩
                      have hne : chain ≠ [] := by cases hc <;> simp
                      rw [List.dropLast_cons_of_ne_nil hne]
                      intro _
                      have := hm (by simp)
                      simpa using this
                    split at h
                    · cases h
                    · rename_i term res v' hrec
                      split at h
                      · cases h
                        exact found _ _ _ hrec
                      · split at h
                        · cases h
                          exact found _ _ _ hrec
                        · exact ihl _ (fun x hx => hmem x (by simp [hx])) h
    unfold lookup at h
    exact hloop ds.roles visited (fun _ h => h) h

/-- **C24.** Where a target description comes from. -/
theorem C24_description_source (clk : Clock) (t : Tuf) (path : VirtualTargetPath)
    (desc : TargetDescription) (h : targetDescription clk t path = .ok desc) :
    clk .root < t.root.expires ∧
    (∃ sn, t.snapshot = some sn ∧ clk .snapshot < sn.expires) ∧
    ∃ ta, t.targets = some ta ∧ clk .targets < ta.expires ∧
      (ta.targets.get? path = some desc ∨
        ta.targets.get? path = none ∧ ∃ ds chain td, ta.delegations = some ds ∧
          Chain t clk ds chain td ∧ td.targets.get? path = some desc) := by
  unfold targetDescription at h
  split at h
  · cases h
  · rename_i r hr
    split at h
    · cases h
    · rename_i sn hsn
      split at h
      · cases h
      · rename_i ta hta
        rw [rootUnexpired_ok] at hr
        rw [snapshotUnexpired_ok] at hsn
        rw [targetsUnexpired_ok] at hta
        refine ⟨hr.2, ⟨sn, hsn⟩, ta, hta.1, hta.2, ?_⟩
        split at h
        · rename_i d hd
          cases h
          exact .inl hd
        · rename_i hnone
          right
          refine ⟨hnone, ?_⟩
          split at h
          · cases h
          · rename_i ds hds
            split at h
            · cases h
            · rename_i b d v hl
              cases h
              obtain ⟨chain, td, hc, ht, _⟩ := lookup_sound t clk path _ _ _ _ _ _ _ _ _
                (by simp) hl
              exact ⟨ds, chain, td, hds, hc, ht⟩
            · cases h

/-- **C24.** Top-level entries take precedence, and are always found. -/
theorem C24_top_level_precedence (clk : Clock) (t : Tuf) (path : VirtualTargetPath)
    (desc : TargetDescription) (sn : SnapshotMetadata) (ta : TargetsMetadata)
    (h1 : clk .root < t.root.expires) (h2 : t.snapshot = some sn) (h3 : clk .snapshot < sn.expires)
    (h4 : t.targets = some ta) (h5 : clk .targets < ta.expires)
    (h6 : ta.targets.get? path = some desc) : targetDescription clk t path = .ok desc := by
  unfold targetDescription
  simp only [(rootUnexpired_ok t clk _).2 ⟨rfl, h1⟩, (snapshotUnexpired_ok t clk _).2 ⟨h2, h3⟩,
    (targetsUnexpired_ok t clk _).2 ⟨h4, h5⟩, h6]

/-- **C25 (partial).** A description taken from a delegated role comes through a chain of delegations
such that the path is covered by the (nested) patterns of all members of the chain but the last.
Missing: the patterns of the last delegation are not looked at
(`C25_own_paths_not_checked`). -/
theorem C25_chain_covers_path_partial (clk : Clock) (t : Tuf) (path : VirtualTargetPath)
    (desc : TargetDescription) (ta : TargetsMetadata)
    (hta : t.targets = some ta) (hnone : ta.targets.get? path = none)
    (h : targetDescription clk t path = .ok desc) :
    ∃ ds chain td, ta.delegations = some ds ∧ Chain t clk ds chain td ∧
      td.targets.get? path = some desc ∧
      (2 ≤ chain.length → Covered path (chain.dropLast.map (·.paths))) := by
  unfold targetDescription at h
  split at h
  · cases h
  · split at h
    · cases h
    · split at h
      · cases h
      · rename_i ta' hta'
        rw [targetsUnexpired_ok, hta] at hta'
        obtain ⟨e, _⟩ := hta'
        cases e
        rw [hnone] at h
        simp only at h
        split at h
        · cases h
        · rename_i ds hds
          split at h
          · cases h
          · rename_i b d v hl
            cases h
            obtain ⟨chain, td, hc, ht, hm⟩ := lookup_sound t clk path _ _ _ _ _ _ _ _ _
              (by simp) hl
            refine ⟨ds, chain, td, hds, hc, ht, ?_⟩
            intro hlen
            rw [← matchesChain_iff]
            have := hm (by
              intro e
              have := congrArg List.length e
              simp at this
              omega)
            simpa using this
          · cases h

/-- A delegation graph with two levels and a cycle. -/
def graph : Tuf :=
  { Toy.full with
    targets := some (Toy.targets 1 500 [("x", 1)] (some (Toy.delegations
      [Toy.delegation "b" false ["p/"]])))
    delegations :=
      [("b".toList, Toy.targets 1 500 [("out", 8)] (some (Toy.delegations
        [Toy.delegation "c" false ["p/q/"], Toy.delegation "b" false ["p/"]]))),
       ("c".toList, Toy.targets 1 500 [("p/q/z", 9)] none)] }

example : targetDescription (Toy.clk 100) graph "p/q/z".toList = .ok (Toy.target 9) := by decide
example : targetDescription (Toy.clk 100) graph "p/nothing".toList = .error .targetUnavailable := by
  decide

/-- **C25 is false for the code**: role `b`, to which only `p/` is delegated, supplies the target
`out`. -/
theorem C25_own_paths_not_checked :
    ∃ (t : Tuf) (clk : Clock) (path : VirtualTargetPath) (desc : TargetDescription)
      (ta : TargetsMetadata) (ds : Delegations),
      targetDescription clk t path = .ok desc ∧ t.targets = some ta ∧
      ta.targets.get? path = none ∧ ta.delegations = some ds ∧
      ∀ d ∈ ds.roles, ∀ p ∈ d.paths, ¬ Under path p := by
  refine ⟨graph, Toy.clk 100, "out".toList, Toy.target 8, _, _, by decide, rfl, by decide, rfl, ?_⟩
  simp only [under_iff]
  decide

/-! ### C26 -/

/-- Trusted delegated roles not visited yet. -/
def unvisited (t : Tuf) (visited : List MetadataPath) : Nat :=
  (t.delegations.filter fun p => !visited.contains p.1).length

theorem unvisited_mono (t : Tuf) {v v' : List MetadataPath} (h : v ⊆ v') :
    unvisited t v' ≤ unvisited t v := by
  unfold unvisited
  apply List.Sublist.length_le
  apply List.monotone_filter_right
  intro p hp
  simp only [Bool.not_eq_true', List.contains_eq_mem, decide_eq_false_iff_not] at hp ⊢
  exact fun hm => hp (h hm)

theorem unvisited_lt (t : Tuf) {v : List MetadataPath} {role : MetadataPath} {td : TargetsMetadata}
    (h : t.delegations.get? role = some td) (hv : ¬ v.contains role = true) :
    unvisited t (role :: v) < unvisited t v := by
  unfold unvisited
  have hm := Map.mem_of_get? h
  have aux : ∀ (l : List (MetadataPath × TargetsMetadata)), (role, td) ∈ l →
      (l.filter fun p => !(role :: v).contains p.1).length <
        (l.filter fun p => !v.contains p.1).length := by
    intro l
    have hle : ∀ l : List (MetadataPath × TargetsMetadata),
        (l.filter fun p => !(role :: v).contains p.1).length ≤
        (l.filter fun p => !v.contains p.1).length := by
      intro l
      apply List.Sublist.length_le
      apply List.monotone_filter_right
      intro p hp
      simp only [Bool.not_eq_true', List.contains_eq_mem, decide_eq_false_iff_not,
        List.mem_cons, not_or] at hp ⊢
      exact hp.2
    induction l with
    | nil => intro h; cases h
    | cons q l ih =>
      intro h
      by_cases hq : q.1 = role
      · have e1 : (!(role :: v).contains q.1) = false := by simp [hq]
        have e2 : (!v.contains q.1) = true := by rw [hq]; simpa using hv
        rw [List.filter_cons_of_neg (by rw [e1]; simp),
          List.filter_cons_of_pos (by rw [e2])]
        have := hle l
        simp only [List.length_cons]
        omega
      · rcases List.mem_cons.1 h with e | h'
        · exact absurd (by rw [← e]) hq
        · have := ih h'
          have e : (!(role :: v).contains q.1) = (!v.contains q.1) := by
            simp [hq]
          by_cases hc : (!v.contains q.1) = true
          · rw [List.filter_cons_of_pos (by rw [e]; exact hc), List.filter_cons_of_pos (by exact hc)]
            simp only [List.length_cons]
            omega
          · rw [List.filter_cons_of_neg (by rw [e]; exact hc), List.filter_cons_of_neg (by exact hc)]
            exact this
  exact aux _ hm

theorem lookup_terminates (t : Tuf) (clk : Clock) (path : VirtualTargetPath) (fuel : Nat) :
    ∀ dflt depth ds parents visited, unvisited t visited < fuel →
      ∃ r visited', lookup t clk path fuel dflt depth ds parents visited = some (r, visited') ∧
        visited ⊆ visited' := by
  induction fuel with
  | zero => intro _ _ _ _ _ h; omega
  | succ fuel ih =>
    intro dflt depth ds parents visited hlt
    have hloop : ∀ (l : List Delegation) (visited : List MetadataPath),
        unvisited t visited < fuel + 1 →
        ∃ r visited', lookupLoop t clk path (lookup t clk path fuel) dflt depth parents l visited =
          some (r, visited') ∧ visited ⊆ visited' := by
      intro l
      induction l with
      | nil => intro visited _; exact ⟨_, _, rfl, fun _ h => h⟩
      | cons d l ihl =>
        intro visited hlt
        have hsub : visited ⊆ d.role :: visited := fun x hx => by simp [hx]
        unfold lookupLoop
        split
        · exact ⟨_, _, rfl, fun _ h => h⟩
        · rename_i hnv
          dsimp only
          split
          · exact ⟨_, _, rfl, hsub⟩
          · split
            · exact ⟨_, _, rfl, hsub⟩
            · rename_i td htd
              have hlt' : unvisited t (d.role :: visited) < unvisited t visited :=
                unvisited_lt t htd hnv
              split
              · exact ⟨_, _, rfl, hsub⟩
              · split
                · exact ⟨_, _, rfl, hsub⟩
                · split
                  · obtain ⟨r, v', h1, h2⟩ := ihl (d.role :: visited) (by omega)
                    exact ⟨r, v', h1, fun x hx => h2 (hsub hx)⟩
                  · rename_i child hchild
                    obtain ⟨⟨term, res⟩, v', h1, h2⟩ := ih d.terminating (depth + 1) child
                      (parents ++ [d.paths]) (d.role :: visited) (by omega)
                    rw [h1]
                    simp only
                    have h2' : visited ⊆ v' := fun x hx => h2 (hsub hx)
                    split
                    · exact ⟨_, _, rfl, h2'⟩
                    · split
                      · exact ⟨_, _, rfl, h2'⟩
                      · have := unvisited_mono t h2'
                        obtain ⟨r, v'', h3, h4⟩ := ihl v' (by omega)
                        exact ⟨r, v'', h3, fun x hx => h4 (h2' hx)⟩
    unfold lookup
    exact hloop ds.roles visited hlt

/-- **C26.** The lookup never runs out of the nesting depth "number of trusted delegated roles plus
one", whatever the delegation graph. -/
theorem C26_lookup_terminates (clk : Clock) (t : Tuf) (path : VirtualTargetPath) :
    targetDescription clk t path ≠ .error .diverged ∧
    ∀ dflt depth ds parents visited,
      lookup t clk path (t.delegations.length + 1) dflt depth ds parents visited ≠ none := by
  rw [show t.delegations.length + 1 = t.lookupFuel from rfl]
  have hlt : ∀ visited, unvisited t visited < t.lookupFuel := by
    intro visited
    unfold unvisited lookupFuel
    have := List.length_filter_le (fun p => !visited.contains p.1) t.delegations
    omega
  constructor
  · unfold targetDescription
    split
    · rename_i e he
      unfold rootUnexpired at he
      split at he
      · cases he; simp
      · cases he
    · split
      · rename_i e he
        unfold snapshotUnexpired at he
        split at he
        · split at he <;> cases he; simp
        · cases he; simp
      · split
        · rename_i e he
          unfold targetsUnexpired at he
          split at he
          · split at he <;> cases he; simp
          · cases he; simp
        · split
          · simp
          · split
            · simp
            · rename_i ds _
              obtain ⟨r, v', h, _⟩ := lookup_terminates t clk path t.lookupFuel false 0 ds [] []
                (hlt _)
              rw [h]
              rcases r with ⟨_, _ | _⟩ <;> simp
  · intro dflt depth ds parents visited hn
    obtain ⟨r, v', h, _⟩ := lookup_terminates t clk path t.lookupFuel dflt depth ds parents visited
      (hlt _)
    rw [h] at hn; cases hn

/-- More fuel never changes a result. -/
theorem lookup_fuel_mono (t : Tuf) (clk : Clock) (path : VirtualTargetPath) (fuel : Nat) :
    ∀ dflt depth ds parents visited r,
      lookup t clk path fuel dflt depth ds parents visited = some r →
      lookup t clk path (fuel + 1) dflt depth ds parents visited = some r := by
  induction fuel with
  | zero => intro _ _ _ _ _ _ h; cases h
  | succ fuel ih =>
    intro dflt depth ds parents visited r h
    have hloop : ∀ (l : List Delegation) (visited : List MetadataPath),
        lookupLoop t clk path (lookup t clk path fuel) dflt depth parents l visited = some r →
        lookupLoop t clk path (lookup t clk path (fuel + 1)) dflt depth parents l visited = some r := by
      intro l
      induction l with
      | nil => intro visited h; exact h
      | cons d l ihl =>
        intro visited h
        unfold lookupLoop at h ⊢
        split at h
        · rename_i c; rw [if_pos c]; exact h
        · rename_i c1
          rw [if_neg c1]
          dsimp only at h ⊢
          split at h
          · rename_i c; rw [if_pos c]; exact h
          · rename_i c2
            rw [if_neg c2]
            split at h
            · exact h
            · rename_i td c3
              try rw [c3]
              try dsimp only
              split at h
              · rename_i c; rw [if_pos c]; exact h
              · rename_i c4
                rw [if_neg c4]
                split at h
                · exact h
                · rename_i c5
                  try rw [c5]
                  try dsimp only
                  split at h
                  · exact ihl _ h
                  · rename_i child c6
                    try rw [c6]
                    try dsimp only
                    split at h
                    · cases h
                    · rename_i term res v' hrec
                      rw [ih _ _ _ _ _ _ hrec]
                      try dsimp only
                      split at h
                      · rename_i c; rw [if_pos c]; exact h
                      · rename_i c7
                        rw [if_neg c7]
                        split at h
                        · rename_i c; rw [if_pos c]; exact h
                        · rename_i c8
                          rw [if_neg c8]
                          exact ihl _ h
    unfold lookup at h
    exact hloop ds.roles visited h

/-- **C26.** The result does not depend on how much deeper the nesting would be allowed to go. -/
theorem C26_fuel_irrelevant (clk : Clock) (t : Tuf) (path : VirtualTargetPath) (extra : Nat)
    (dflt : Bool) (depth : Nat) (ds : Delegations) (parents : List (List VirtualTargetPath))
    (visited : List MetadataPath) :
    lookup t clk path (t.delegations.length + 1 + extra) dflt depth ds parents visited =
      lookup t clk path (t.delegations.length + 1) dflt depth ds parents visited := by
  rw [show t.delegations.length + 1 = t.lookupFuel from rfl]
  cases h : lookup t clk path t.lookupFuel dflt depth ds parents visited with
  | none => exact absurd h ((C26_lookup_terminates clk t path).2 dflt depth ds parents visited)
  | some r =>
    induction extra with
    | zero => exact h
    | succ n ih => exact lookup_fuel_mono t clk path _ _ _ _ _ _ _ ih

/-! ### C27 -/

/-- **C27 (partial).** Delegations whose roles are trusted, unexpired, distinct, without delegations
of their own and without the target do not stop the search, whether terminating or not. Missing:
delegations to roles that are unknown or expired do stop it (`C27_untrusted_role_stops_search`). -/
theorem C27_search_continues_partial (clk : Clock) (t : Tuf) (path : VirtualTargetPath)
    (sn : SnapshotMetadata) (ta : TargetsMetadata) (ds : Delegations)
    (pre post : List Delegation) (d : Delegation) (td : TargetsMetadata) (desc : TargetDescription)
    (h1 : clk .root < t.root.expires) (h2 : t.snapshot = some sn) (h3 : clk .snapshot < sn.expires)
    (h4 : t.targets = some ta) (h5 : clk .targets < ta.expires)
    (h6 : ta.targets.get? path = none) (h7 : ta.delegations = some ds)
    (h8 : ds.roles = pre ++ d :: post) (h9 : ((pre ++ [d]).map (·.role)).Nodup)
    (hpre : ∀ x ∈ pre, ∃ m, t.delegations.get? x.role = some m ∧ clk (.deleg x.role) < m.expires ∧
      m.targets.get? path = none ∧ m.delegations = none)
    (hd : t.delegations.get? d.role = some td) (hexp : clk (.deleg d.role) < td.expires)
    (htd : td.targets.get? path = some desc) :
    targetDescription clk t path = .ok desc := by
  have hloop : ∀ (pre : List Delegation) (visited : List MetadataPath),
      ((pre ++ [d]).map (·.role)).Nodup → (∀ x ∈ pre ++ [d], x.role ∉ visited) →
      (∀ x ∈ pre, ∃ m, t.delegations.get? x.role = some m ∧ clk (.deleg x.role) < m.expires ∧
        m.targets.get? path = none ∧ m.delegations = none) →
      ∀ rec, ∃ v, lookupLoop t clk path rec false 0 [] (pre ++ d :: post) visited =
        some ((d.terminating, some desc), v) := by
    intro pre
    induction pre with
    | nil =>
      intro visited _ hv _ rec
      refine ⟨d.role :: visited, ?_⟩
      have hnv := hv d (by simp)
      have hexp' : ¬ td.expires ≤ clk (.deleg d.role) := by omega
      simp [lookupLoop, hnv, hd, hexp', htd]
    | cons x pre ih =>
      intro visited hnd hv hpre rec
      obtain ⟨m, a1, a2, a3, a4⟩ := hpre x (by simp)
      have hnv := hv x (by simp)
      simp only [List.cons_append, List.map_cons, List.nodup_cons] at hnd
      obtain ⟨v, hih⟩ := ih (x.role :: visited) hnd.2 (by
        intro y hy
        simp only [List.mem_cons, not_or]
        refine ⟨?_, hv y (by simp only [List.cons_append, List.mem_cons]; exact .inr hy)⟩
        intro e
        exact hnd.1 (List.mem_map.2 ⟨y, hy, e⟩))
        (fun y hy => hpre y (by simp [hy])) rec
      refine ⟨v, ?_⟩
      have a2' : ¬ m.expires ≤ clk (.deleg x.role) := by omega
      rw [List.cons_append]
      unfold lookupLoop
      simp [hnv, a1, a2', a3, a4, hih]
  unfold targetDescription
  simp only [(rootUnexpired_ok t clk _).2 ⟨rfl, h1⟩, (snapshotUnexpired_ok t clk _).2 ⟨h2, h3⟩,
    (targetsUnexpired_ok t clk _).2 ⟨h4, h5⟩, h6, h7]
  obtain ⟨v, hl⟩ := hloop pre [] h9 (by simp) hpre (lookup t clk path t.delegations.length)
  have : lookup t clk path t.lookupFuel false 0 ds [] [] = some ((d.terminating, some desc), v) := by
    unfold lookupFuel lookup
    rw [h8]
    exact hl
  rw [this]

/-- **C27 is false for the code**: the first, non-terminating delegation is to a role that is not
trusted (yet), and the target listed by the second one is not found. -/
theorem C27_untrusted_role_stops_search :
    ∃ (t : Tuf) (clk : Clock) (path : VirtualTargetPath) (ta td : TargetsMetadata) (ds : Delegations)
      (d1 d2 : Delegation), t.targets = some ta ∧ ta.delegations = some ds ∧ ds.roles = [d1, d2] ∧
      d1.terminating = false ∧ t.delegations.get? d1.role = none ∧
      t.delegations.get? d2.role = some td ∧ clk (.deleg d2.role) < td.expires ∧
      (td.targets.get? path).isSome ∧ (∃ p ∈ d2.paths, Under path p) ∧
      targetDescription clk t path = .error .targetUnavailable := by
  refine ⟨{ Toy.full with delegations := [("a".toList, Toy.targets 1 500 [("p/y", 3)] none)] },
    Toy.clk 100, "p/y".toList, Toy.topTargets, Toy.targets 1 500 [("p/y", 3)] none, _,
    Toy.delegation "b" false ["q/"], Toy.delegation "a" true ["p/"], rfl, rfl, rfl, by decide,
    by decide, by decide, by decide, by decide, ⟨"p/".toList, by decide, ?_⟩, by decide⟩
  rw [under_iff]; decide

/-- In the full state the same target is found behind the delegation to `b`. -/
example : targetDescription (Toy.clk 100) Toy.full "p/y".toList = .ok (Toy.target 3) := by decide

end RustTuf.Props
