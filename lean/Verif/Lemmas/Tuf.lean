import Verif.Lemmas.Verify
import Verif.Spec.TufRules

/-! Lemmas about the update functions. -/

namespace RustTuf.Tuf
open Spec RustTuf

theorem map_getD_eq_verOf {α : Type} (f : α → Nat) (o : Option α) : (o.map f).getD 0 = verOf f o := by
  cases o <;> rfl

theorem timestampVersion_eq (t : Tuf) : t.timestampVersion = verOf (·.version) t.timestamp :=
  map_getD_eq_verOf _ _
theorem snapshotVersion_eq (t : Tuf) : t.snapshotVersion = verOf (·.version) t.snapshot :=
  map_getD_eq_verOf _ _
theorem targetsVersion_eq (t : Tuf) : t.targetsVersion = verOf (·.version) t.targets :=
  map_getD_eq_verOf _ _
theorem delegationVersion_eq (t : Tuf) (role : MetadataPath) :
    t.delegationVersion role = verOf (·.version) (t.delegations.get? role) :=
  map_getD_eq_verOf _ _

theorem rootUnexpired_ok (t : Tuf) (clk : Clock) (r : RootMetadata) :
    t.rootUnexpired clk = .ok r ↔ r = t.root ∧ clk .root < t.root.expires := by
  unfold rootUnexpired
  split
  · constructor
    · intro h; cases h
    · rintro ⟨_, h⟩; omega
  · constructor
    · intro h; cases h; exact ⟨rfl, by omega⟩
    · rintro ⟨rfl, _⟩; rfl

theorem snapshotUnexpired_ok (t : Tuf) (clk : Clock) (r : SnapshotMetadata) :
    t.snapshotUnexpired clk = .ok r ↔ t.snapshot = some r ∧ clk .snapshot < r.expires := by
  unfold snapshotUnexpired
  cases h : t.snapshot with
  | none => simp
  | some s =>
    simp only [Option.some.injEq]
    split
    · constructor
      · intro h; cases h
      · rintro ⟨rfl, h⟩; omega
    · constructor
      · intro h; cases h; exact ⟨rfl, by omega⟩
      · rintro ⟨rfl, _⟩; rfl

theorem targetsUnexpired_ok (t : Tuf) (clk : Clock) (r : TargetsMetadata) :
    t.targetsUnexpired clk = .ok r ↔ t.targets = some r ∧ clk .targets < r.expires := by
  unfold targetsUnexpired
  cases h : t.targets with
  | none => simp
  | some s =>
    simp only [Option.some.injEq]
    split
    · constructor
      · intro h; cases h
      · rintro ⟨rfl, h⟩; omega
    · constructor
      · intro h; cases h; exact ⟨rfl, by omega⟩
      · rintro ⟨rfl, _⟩; rfl

theorem timestampUnexpired_ok (t : Tuf) (clk : Clock) (r : TimestampMetadata) :
    t.timestampUnexpired clk = .ok r ↔ t.timestamp = some r ∧ clk .timestamp < r.expires := by
  unfold timestampUnexpired
  cases h : t.timestamp with
  | none => simp
  | some s =>
    simp only [Option.some.injEq]
    split
    · constructor
      · intro h; cases h
      · rintro ⟨rfl, h⟩; omega
    · constructor
      · intro h; cases h; exact ⟨rfl, by omega⟩
      · rintro ⟨rfl, _⟩; rfl

/-! ### update_root -/

theorem updateRoot_ok_iff (E : Env) (t t' : Tuf) (raw : Bytes) :
    updateRoot E t raw = (.ok (), t') ↔ ∃ new, RootRule E t raw new ∧ t' = ofRoot new := by
  unfold updateRoot
  constructor
  · intro h
    split at h
    · cases h
    · rename_i new₀ h1
      split at h
      · cases h
      · rename_i new h2
        rw [verifySignatures_ok_iff] at h1 h2
        have := Authentic.unique h1 h2
        subst this
        split at h
        · cases h
        · split at h
          · cases h
          · rename_i h3 h4
            simp only [ne_eq, not_not] at h4
            cases h
            exact ⟨new₀, ⟨h1, h2, h4, by unfold u32Max at h3; omega⟩, rfl⟩
  · rintro ⟨new, ⟨h1, h2, h3, h4⟩, rfl⟩
    have e1 := (verifySignatures_ok_iff E _ _ _ _ _).2 h1
    have e2 := (verifySignatures_ok_iff E _ _ _ _ _).2 h2
    simp only [rootKeys_eq, e1, e2]
    have : ¬ (t.root.version + 1 > u32Max) := by unfold u32Max; omega
    simp [this, h3]
    rfl

theorem updateRoot_error_state (E : Env) (t : Tuf) (raw : Bytes) (e : Err) (t' : Tuf)
    (h : updateRoot E t raw = (.error e, t')) : t' = t := by
  unfold updateRoot at h
  split at h
  · cases h; rfl
  · split at h
    · cases h; rfl
    · split at h
      · cases h; rfl
      · split at h
        · cases h; rfl
        · cases h

/-! ### update_timestamp -/

theorem updateTimestamp_some_iff (E : Env) (clk : Clock) (t t' : Tuf) (raw : Bytes)
    (new : TimestampMetadata) :
    updateTimestamp E clk t raw = (.ok (some new), t') ↔
      TimestampRule E clk t raw new ∧
      t' = { t with
        timestamp := some new
        snapshot := if verOf (·.version) t.snapshot = new.snapshot.version then t.snapshot else none } := by
  unfold updateTimestamp
  rw [timestampVersion_eq, snapshotVersion_eq]
  constructor
  · intro h
    split at h
    · cases h
    · rename_i n h1
      rw [verifySignatures_ok_iff] at h1
      split at h
      · cases h
      · split at h
        · cases h
        · rename_i h2 h3
          by_cases h4 : n.expires ≤ clk .new
          · simp only [h4, if_true] at h; cases h
          · simp only [h4, if_false] at h
            cases h
            refine ⟨⟨h1, by omega, by omega⟩, ?_⟩
            by_cases hs : verOf (·.version) t.snapshot = new.snapshot.version
            · simp [hs]
            · simp [hs]
  · rintro ⟨⟨h1, h2, h3⟩, rfl⟩
    simp only [timestampKeys_eq, (verifySignatures_ok_iff E _ _ _ _ _).2 h1]
    have a1 : ¬ new.version < verOf (·.version) t.timestamp := by omega
    have a2 : ¬ new.version = verOf (·.version) t.timestamp := by omega
    have a3 : ¬ new.expires ≤ clk .new := by omega
    simp only [a1, a2, a3, if_false]
    by_cases hs : verOf (·.version) t.snapshot = new.snapshot.version
    · simp [hs]
    · simp [hs]

theorem updateTimestamp_none_iff (E : Env) (clk : Clock) (t t' : Tuf) (raw : Bytes) :
    updateTimestamp E clk t raw = (.ok none, t') ↔
      t' = t ∧ ∃ new, Authentic E E.timestampFromSlice raw t.root.timestamp.threshold
        (timestampSigners t.root) new ∧ new.version = verOf (·.version) t.timestamp := by
  unfold updateTimestamp
  rw [timestampVersion_eq]
  constructor
  · intro h
    split at h
    · cases h
    · rename_i n h1
      rw [verifySignatures_ok_iff] at h1
      split at h
      · cases h
      · split at h
        · rename_i h3
          cases h
          exact ⟨rfl, n, h1, h3⟩
        · by_cases h4 : n.expires ≤ clk .new
          · simp only [h4, if_true] at h; cases h
          · simp only [h4, if_false] at h; cases h
  · rintro ⟨rfl, new, h1, h2⟩
    simp only [timestampKeys_eq, (verifySignatures_ok_iff E _ _ _ _ _).2 h1]
    simp [h2]

/-- On error the timestamp call leaves the state alone, except that an expired (but correctly
signed and newer) timestamp announcing another snapshot version clears the snapshot. -/
theorem updateTimestamp_error (E : Env) (clk : Clock) (t t' : Tuf) (raw : Bytes) (e : Err)
    (h : updateTimestamp E clk t raw = (.error e, t')) :
    t' = t ∨ (e = .expired .timestamp ∧ t' = { t with snapshot := none } ∧
      ∃ new, Authentic E E.timestampFromSlice raw t.root.timestamp.threshold
        (timestampSigners t.root) new ∧ verOf (·.version) t.timestamp < new.version ∧
        new.expires ≤ clk .new ∧ new.snapshot.version ≠ verOf (·.version) t.snapshot) := by
  unfold updateTimestamp at h
  rw [timestampVersion_eq, snapshotVersion_eq] at h
  split at h
  · cases h; exact .inl rfl
  · rename_i n h1
    rw [verifySignatures_ok_iff] at h1
    split at h
    · cases h; exact .inl rfl
    · split at h
      · cases h
      · rename_i h2 h3
        by_cases h4 : n.expires ≤ clk .new
        · simp only [h4, if_true] at h
          cases h
          by_cases hs : verOf (·.version) t.snapshot = n.snapshot.version
          · left; simp [hs]
          · right
            refine ⟨rfl, by simp [hs], n, h1, by omega, h4, fun e => hs e.symm⟩
        · simp only [h4, if_false] at h; cases h

/-! ### update_snapshot -/

theorem get?_foldl_erase (roles : List MetadataPath) (m : Map MetadataPath TargetsMetadata)
    (role : MetadataPath) :
    Map.get? (roles.foldl (fun m r => Map.erase m r) m) role =
      if role ∈ roles then none else Map.get? m role := by
  induction roles generalizing m with
  | nil => simp
  | cons r rs ih =>
    simp only [List.foldl_cons, ih, Map.get?_erase, List.mem_cons]
    by_cases h1 : role = r
    · simp [h1]
    · simp [h1]

theorem purgeDelegations_get? (t : Tuf) (s : SnapshotMetadata) (hs : t.snapshot = some s)
    (role : MetadataPath) (d : TargetsMetadata) :
    (purgeDelegations t).delegations.get? role = some d ↔
      t.delegations.get? role = some d ∧ ¬ ∃ m, (role, m) ∈ s.metas ∧ m.version < d.version := by
  unfold purgeDelegations
  rw [hs]
  simp only
  rw [get?_foldl_erase]
  have hmem : role ∈ (s.metas.filter fun p =>
      match t.delegations.get? p.1 with
      | none => false
      | some d => decide (d.version > p.2.version)).map Prod.fst ↔
      ∃ m d, (role, m) ∈ s.metas ∧ t.delegations.get? role = some d ∧ m.version < d.version := by
    rw [List.mem_map]
    constructor
    · rintro ⟨⟨r, m⟩, hp, rfl⟩
      obtain ⟨h1, h2⟩ := List.mem_filter.1 hp
      simp only at h2 ⊢
      split at h2
      · cases h2
      · rename_i d' hd'
        refine ⟨m, d', h1, hd', by simpa using h2⟩
    · rintro ⟨m, d', h1, h2, h3⟩
      refine ⟨(role, m), List.mem_filter.2 ⟨h1, ?_⟩, rfl⟩
      simp [h2, h3]
  constructor
  · intro h
    split at h
    · cases h
    · rename_i hn
      refine ⟨h, ?_⟩
      rintro ⟨m, h1, h2⟩
      exact hn (hmem.2 ⟨m, d, h1, h, h2⟩)
  · rintro ⟨h1, h2⟩
    split
    · rename_i hm
      obtain ⟨m, d', a, b, c⟩ := hmem.1 hm
      rw [h1] at b; cases b
      exact absurd ⟨m, a, c⟩ h2
    · exact h1

theorem purgeDelegations_other (t : Tuf) :
    (purgeDelegations t).root = t.root ∧ (purgeDelegations t).timestamp = t.timestamp ∧
    (purgeDelegations t).snapshot = t.snapshot ∧ (purgeDelegations t).targets = t.targets := by
  unfold purgeDelegations
  split <;> simp_all

theorem updateSnapshot_true (E : Env) (clk : Clock) (t t' : Tuf) (raw : Bytes)
    (h : updateSnapshot E clk t raw = (.ok true, t')) :
    ∃ new, SnapshotRule E clk t raw new ∧ SnapshotPost t t' new := by
  unfold updateSnapshot at h
  rw [snapshotVersion_eq, targetsVersion_eq] at h
  split at h
  · cases h
  · rename_i r hr
    rw [rootUnexpired_ok] at hr
    split at h
    · cases h
    · rename_i ts hts
      rw [timestampUnexpired_ok] at hts
      split at h
      · cases h
      · split at h
        · cases h
        · split at h
          · cases h
          · rename_i new hv
            rw [verifySignatures_ok_iff] at hv
            obtain ⟨rfl, hr⟩ := hr
            split at h
            · cases h
            · split at h
              · cases h
              · rename_i h1 h2 h3 h4
                simp only [ne_eq, not_not] at h3
                cases h
                refine ⟨new, ⟨hr, ⟨ts, hts.1, hts.2, by omega, h3⟩, hv⟩, ?_⟩
                have hd : (Option.map (fun x => x.version)
                    (new.metas.get? (MetadataPath.fromRole Role.targets))).getD 0
                    = listed new targetsName := map_getD_eq_verOf _ _
                rw [hd]
                have hp := fun t0 : Tuf => purgeDelegations_other t0
                constructor
                · rw [(hp _).1]; split <;> rfl
                · rw [(hp _).2.1]; split <;> rfl
                · rw [(hp _).2.2.1]
                · intro e; rw [(hp _).2.2.2]; simp [e]
                · intro e; rw [(hp _).2.2.2]; simp [e]
                · intro role d
                  rw [purgeDelegations_get? _ new rfl]
                  have : ∀ c : Prop, [Decidable c] → ∀ x : Tuf, (if c then { x with targets := none } else x).delegations = x.delegations := by
                    intro c _ x; split <;> rfl
                  simp only [this]

theorem updateSnapshot_true_of_rule (E : Env) (clk : Clock) (t : Tuf) (raw : Bytes)
    (new : SnapshotMetadata) (hrule : SnapshotRule E clk t raw new) :
    ∃ t', updateSnapshot E clk t raw = (.ok true, t') := by
  obtain ⟨h1, ⟨ts, h2, h3, h4, h5⟩, h6⟩ := hrule
  unfold updateSnapshot
  rw [snapshotVersion_eq]
  simp only [(rootUnexpired_ok t clk t.root).2 ⟨rfl, h1⟩, (timestampUnexpired_ok t clk ts).2 ⟨h2, h3⟩,
    snapshotKeys_eq, (verifySignatures_ok_iff E _ _ _ _ _).2 h6]
  have a1 : ¬ ts.snapshot.version < verOf (·.version) t.snapshot := by omega
  have a2 : ¬ ts.snapshot.version = verOf (·.version) t.snapshot := by omega
  simp only [a1, a2, h5, if_false, ne_eq, not_true_eq_false]
  exact ⟨_, rfl⟩

theorem updateSnapshot_false_iff (E : Env) (clk : Clock) (t t' : Tuf) (raw : Bytes) :
    updateSnapshot E clk t raw = (.ok false, t') ↔
      t' = t ∧ clk .root < t.root.expires ∧ ∃ ts, t.timestamp = some ts ∧
        clk .timestamp < ts.expires ∧ ts.snapshot.version = verOf (·.version) t.snapshot := by
  unfold updateSnapshot
  rw [snapshotVersion_eq]
  constructor
  · intro h
    split at h
    · cases h
    · rename_i r hr
      rw [rootUnexpired_ok] at hr
      split at h
      · cases h
      · rename_i ts hts
        rw [timestampUnexpired_ok] at hts
        split at h
        · cases h
        · split at h
          · rename_i h1
            cases h
            exact ⟨rfl, hr.2, ts, hts.1, hts.2, h1⟩
          · split at h
            · cases h
            · split at h
              · cases h
              · split at h <;> cases h
  · rintro ⟨rfl, h1, ts, h2, h3, h4⟩
    simp only [(rootUnexpired_ok _ clk _).2 ⟨rfl, h1⟩, (timestampUnexpired_ok _ clk ts).2 ⟨h2, h3⟩]
    simp [h4]

theorem updateSnapshot_error_state (E : Env) (clk : Clock) (t t' : Tuf) (raw : Bytes) (e : Err)
    (h : updateSnapshot E clk t raw = (.error e, t')) : t' = t := by
  unfold updateSnapshot at h
  split at h
  · cases h; rfl
  · split at h
    · cases h; rfl
    · split at h
      · cases h; rfl
      · split at h
        · cases h
        · split at h
          · cases h; rfl
          · split at h
            · cases h; rfl
            · split at h
              · cases h; rfl
              · cases h

/-! ### update_targets -/

theorem updateTargets_true_iff (E : Env) (clk : Clock) (t t' : Tuf) (raw : Bytes) :
    updateTargets E clk t raw = (.ok true, t') ↔
      ∃ new, TargetsRule E clk t raw new ∧ t' = { t with targets := some new } := by
  unfold updateTargets
  rw [targetsVersion_eq]
  constructor
  · intro h
    split at h
    · cases h
    · rename_i r hr
      rw [rootUnexpired_ok] at hr
      obtain ⟨rfl, hr⟩ := hr
      split at h
      · cases h
      · rename_i sn hsn
        rw [snapshotUnexpired_ok] at hsn
        split at h
        · cases h
        · rename_i descr hd
          split at h
          · cases h
          · split at h
            · cases h
            · split at h
              · cases h
              · rename_i new hv
                rw [verifySignatures_ok_iff] at hv
                split at h
                · cases h
                · split at h
                  · cases h
                  · rename_i h1 h2 h3 h4
                    simp only [ne_eq, not_not] at h3
                    cases h
                    exact ⟨new, ⟨hr, ⟨sn, descr, hsn.1, hsn.2, hd, by omega, h3⟩, hv, by omega⟩, rfl⟩
  · rintro ⟨new, ⟨h1, ⟨sn, descr, h2, h3, h4, h5, h6⟩, h7, h8⟩, rfl⟩
    have h4' : sn.metas.get? (MetadataPath.fromRole .targets) = some descr := h4
    simp only [(rootUnexpired_ok _ clk _).2 ⟨rfl, h1⟩, (snapshotUnexpired_ok _ clk sn).2 ⟨h2, h3⟩, h4',
      targetsKeys_eq, (verifySignatures_ok_iff E _ _ _ _ _).2 h7]
    have a1 : ¬ descr.version < verOf (·.version) t.targets := by omega
    have a2 : ¬ descr.version = verOf (·.version) t.targets := by omega
    have a3 : ¬ new.expires ≤ clk .new := by omega
    simp [a1, a2, a3, h6]

theorem updateTargets_false_iff (E : Env) (clk : Clock) (t t' : Tuf) (raw : Bytes) :
    updateTargets E clk t raw = (.ok false, t') ↔
      t' = t ∧ clk .root < t.root.expires ∧ ∃ sn m, t.snapshot = some sn ∧
        clk .snapshot < sn.expires ∧ sn.metas.get? targetsName = some m ∧
        m.version = verOf (·.version) t.targets := by
  unfold updateTargets
  rw [targetsVersion_eq]
  constructor
  · intro h
    split at h
    · cases h
    · rename_i r hr
      rw [rootUnexpired_ok] at hr
      split at h
      · cases h
      · rename_i sn hsn
        rw [snapshotUnexpired_ok] at hsn
        split at h
        · cases h
        · rename_i descr hd
          split at h
          · cases h
          · split at h
            · rename_i h1
              cases h
              exact ⟨rfl, hr.2, sn, descr, hsn.1, hsn.2, hd, h1⟩
            · split at h
              · cases h
              · split at h
                · cases h
                · split at h <;> cases h
  · rintro ⟨rfl, h1, sn, m, h2, h3, h4, h5⟩
    have h4' : sn.metas.get? (MetadataPath.fromRole .targets) = some m := h4
    simp only [(rootUnexpired_ok _ clk _).2 ⟨rfl, h1⟩, (snapshotUnexpired_ok _ clk sn).2 ⟨h2, h3⟩, h4']
    simp [h5]

theorem updateTargets_error_state (E : Env) (clk : Clock) (t t' : Tuf) (raw : Bytes) (e : Err)
    (h : updateTargets E clk t raw = (.error e, t')) : t' = t := by
  unfold updateTargets at h
  split at h
  · cases h; rfl
  · split at h
    · cases h; rfl
    · split at h
      · cases h; rfl
      · split at h
        · cases h; rfl
        · split at h
          · cases h
          · split at h
            · cases h; rfl
            · split at h
              · cases h; rfl
              · split at h
                · cases h; rfl
                · cases h

/-! ### update_delegation -/

theorem findDelegation_eq_some_iff (t : Tuf) (parent role : MetadataPath) (n : Nat)
    (keys : List PublicKey) :
    t.findDelegation parent role = some (n, keys) ↔
      ∃ ds d, Delegates t parent role ds d ∧ n = d.threshold ∧ keys = keysFor ds.keys d.keyIds := by
  unfold findDelegation Delegates ParentMeta
  have hname : MetadataPath.fromRole Role.targets = targetsName := rfl
  rw [hname]
  have hfind : ∀ (l : List Delegation) (d : Delegation),
      l.find? (fun d => decide (d.role = role)) = some d ↔
      ∃ pre post, l = pre ++ d :: post ∧ d.role = role ∧ ∀ x ∈ pre, x.role ≠ role := by
    intro l d
    rw [List.find?_eq_some_iff_append]
    simp only [decide_eq_true_eq, Bool.not_eq_true']
    constructor
    · rintro ⟨h1, pre, post, h2, h3⟩
      exact ⟨pre, post, h2, h1, fun x hx => by simpa using h3 x hx⟩
    · rintro ⟨pre, post, h1, h2, h3⟩
      exact ⟨h2, pre, post, h1, fun x hx => by simpa using h3 x hx⟩
  constructor
  · intro h
    dsimp only at h
    split at h
    · cases h
    · rename_i p hp
      split at h
      · cases h
      · rename_i ds hds
        split at h
        · cases h
        · rename_i d hd
          cases h
          refine ⟨ds, d, ⟨p, ?_, hds, (hfind _ _).1 hd⟩, rfl, rfl⟩
          split at hp
          · rename_i e; exact .inl ⟨e, hp⟩
          · rename_i e; exact .inr ⟨e, hp⟩
  · rintro ⟨ds, d, ⟨p, hp, hds, hd⟩, rfl, rfl⟩
    have hp' : (if parent = targetsName then t.targets else t.delegations.get? parent) = some p := by
      rcases hp with ⟨e, h⟩ | ⟨e, h⟩
      · simp [e, h]
      · simp [e, h]
    simp only [hp', hds, (hfind _ _).2 hd, filterKeys_eq]

theorem updateDelegation_true_iff (E : Env) (clk : Clock) (t t' : Tuf) (parent role : MetadataPath)
    (raw : Bytes) :
    updateDelegation E clk t parent role raw = (.ok true, t') ↔
      ∃ new, DelegationRule E clk t parent role raw new ∧
        t' = { t with delegations := t.delegations.insert role new } := by
  unfold updateDelegation
  rw [delegationVersion_eq]
  constructor
  · intro h
    split at h
    · cases h
    · rename_i r hr
      rw [rootUnexpired_ok] at hr
      split at h
      · cases h
      · rename_i sn hsn
        rw [snapshotUnexpired_ok] at hsn
        split at h
        · cases h
        · rename_i ta hta
          rw [targetsUnexpired_ok] at hta
          split at h
          · cases h
          · rename_i hdel
            split at h
            · cases h
            · rename_i descr hd
              split at h
              · cases h
              · split at h
                · cases h
                · rename_i n keys hf
                  rw [findDelegation_eq_some_iff] at hf
                  split at h
                  · cases h
                  · rename_i new hv
                    rw [verifySignatures_ok_iff] at hv
                    split at h
                    · cases h
                    · split at h
                      · cases h
                      · split at h
                        · cases h
                        · rename_i h1 h2 h3 h4
                          simp only [ne_eq, not_not] at h3
                          cases h
                          obtain ⟨ds, d, hdl, rfl, rfl⟩ := hf
                          refine ⟨new, ⟨⟨descr, ⟨hr.2, ⟨sn, hsn.1, hsn.2, hd⟩, ta, hta.1, hta.2, ?_⟩,
                            by omega, h3⟩, ⟨ds, d, hdl, hv⟩, by omega⟩, rfl⟩
                          intro e; simp [e] at hdel
  · rintro ⟨new, ⟨⟨m, ⟨h1, ⟨sn, h2, h3, h4⟩, ta, h5, h6, h7⟩, h8, h9⟩, ⟨ds, d, hdl, hv⟩, h10⟩, rfl⟩
    have hf := (findDelegation_eq_some_iff t parent role _ _).2 ⟨ds, d, hdl, rfl, rfl⟩
    have h7' : ta.delegations.isNone = false := by
      cases hh : ta.delegations with
      | none => exact absurd hh h7
      | some _ => rfl
    simp only [(rootUnexpired_ok _ clk _).2 ⟨rfl, h1⟩, (snapshotUnexpired_ok _ clk sn).2 ⟨h2, h3⟩,
      (targetsUnexpired_ok _ clk ta).2 ⟨h5, h6⟩, h4, h7', hf,
      (verifySignatures_ok_iff E _ _ _ _ _).2 hv]
    have a1 : ¬ m.version < verOf (·.version) (t.delegations.get? role) := by omega
    have a2 : ¬ verOf (·.version) (t.delegations.get? role) = m.version := by omega
    have a3 : ¬ new.expires ≤ clk .new := by omega
    simp [a1, a2, a3, h9]

theorem updateDelegation_false_iff (E : Env) (clk : Clock) (t t' : Tuf)
    (parent role : MetadataPath) (raw : Bytes) :
    updateDelegation E clk t parent role raw = (.ok false, t') ↔
      t' = t ∧ ∃ m, DelegationContext clk t role m ∧
        verOf (·.version) (t.delegations.get? role) = m.version ∧
        ∃ new, DelegationSigned E t parent role raw new := by
  unfold updateDelegation
  rw [delegationVersion_eq]
  constructor
  · intro h
    split at h
    · cases h
    · rename_i r hr
      rw [rootUnexpired_ok] at hr
      split at h
      · cases h
      · rename_i sn hsn
        rw [snapshotUnexpired_ok] at hsn
        split at h
        · cases h
        · rename_i ta hta
          rw [targetsUnexpired_ok] at hta
          split at h
          · cases h
          · rename_i hdel
            split at h
            · cases h
            · rename_i descr hd
              split at h
              · cases h
              · split at h
                · cases h
                · rename_i n keys hf
                  rw [findDelegation_eq_some_iff] at hf
                  split at h
                  · cases h
                  · rename_i new hv
                    rw [verifySignatures_ok_iff] at hv
                    split at h
                    · rename_i h1
                      cases h
                      obtain ⟨ds, d, hdl, rfl, rfl⟩ := hf
                      refine ⟨rfl, descr, ⟨hr.2, ⟨sn, hsn.1, hsn.2, hd⟩, ta, hta.1, hta.2, ?_⟩, h1,
                        new, ds, d, hdl, hv⟩
                      intro e; simp [e] at hdel
                    · split at h
                      · cases h
                      · split at h <;> cases h
  · rintro ⟨rfl, m, ⟨h1, ⟨sn, h2, h3, h4⟩, ta, h5, h6, h7⟩, h8, new, ds, d, hdl, hv⟩
    have hf := (findDelegation_eq_some_iff t' parent role _ _).2 ⟨ds, d, hdl, rfl, rfl⟩
    have h7' : ta.delegations.isNone = false := by
      cases hh : ta.delegations with
      | none => exact absurd hh h7
      | some _ => rfl
    simp only [(rootUnexpired_ok _ clk _).2 ⟨rfl, h1⟩, (snapshotUnexpired_ok _ clk sn).2 ⟨h2, h3⟩,
      (targetsUnexpired_ok _ clk ta).2 ⟨h5, h6⟩, h4, h7', hf,
      (verifySignatures_ok_iff E _ _ _ _ _).2 hv]
    simp [h8]

theorem updateDelegation_error_state (E : Env) (clk : Clock) (t t' : Tuf)
    (parent role : MetadataPath) (raw : Bytes) (e : Err)
    (h : updateDelegation E clk t parent role raw = (.error e, t')) : t' = t := by
  unfold updateDelegation at h
  split at h
  · cases h; rfl
  · split at h
    · cases h; rfl
    · split at h
      · cases h; rfl
      · split at h
        · cases h; rfl
        · split at h
          · cases h; rfl
          · split at h
            · cases h; rfl
            · split at h
              · cases h; rfl
              · split at h
                · cases h; rfl
                · split at h
                  · cases h
                  · split at h
                    · cases h; rfl
                    · split at h
                      · cases h; rfl
                      · cases h

end RustTuf.Tuf

namespace RustTuf.Tuf
open Spec RustTuf

/-- All that one call can do. -/
inductive StepCase (E : Env) (t : Tuf) : Op → Outcome → Tuf → Prop
  | failed (op : Op) (e : Err) : StepCase E t op (.failed e) t
  | same (op : Op) : (∀ raw, op ≠ .root raw) → StepCase E t op .unchanged t
  | root (raw : Bytes) (new : RootMetadata) : RootRule E t raw new →
      StepCase E t (.root raw) .changed (ofRoot new)
  | timestamp (clk : Clock) (raw : Bytes) (new : TimestampMetadata) :
      TimestampRule E clk t raw new →
      StepCase E t (.timestamp clk raw) .changed { t with
        timestamp := some new
        snapshot := if verOf (·.version) t.snapshot = new.snapshot.version then t.snapshot else none }
  | timestampExpired (clk : Clock) (raw : Bytes) (new : TimestampMetadata) :
      Authentic E E.timestampFromSlice raw t.root.timestamp.threshold (timestampSigners t.root) new →
      verOf (·.version) t.timestamp < new.version → new.expires ≤ clk .new →
      new.snapshot.version ≠ verOf (·.version) t.snapshot →
      StepCase E t (.timestamp clk raw) (.failed (.expired .timestamp)) { t with snapshot := none }
  | snapshot (clk : Clock) (raw : Bytes) (new : SnapshotMetadata) (t' : Tuf) :
      SnapshotRule E clk t raw new → SnapshotPost t t' new →
      StepCase E t (.snapshot clk raw) .changed t'
  | targets (clk : Clock) (raw : Bytes) (new : TargetsMetadata) :
      TargetsRule E clk t raw new →
      StepCase E t (.targets clk raw) .changed { t with targets := some new }
  | delegation (clk : Clock) (parent role : MetadataPath) (raw : Bytes) (new : TargetsMetadata) :
      DelegationRule E clk t parent role raw new →
      StepCase E t (.delegation clk parent role raw) .changed
        { t with delegations := t.delegations.insert role new }

theorem step_case (E : Env) (t : Tuf) (op : Op) :
    StepCase E t op (step E t op).1 (step E t op).2 := by
  cases op with
  | root raw =>
    unfold step
    rcases h : updateRoot E t raw with ⟨e | u, t'⟩
    · simp only [h]; rw [updateRoot_error_state E t raw e t' h]; exact .failed _ _
    · obtain ⟨new, h1, rfl⟩ := (updateRoot_ok_iff E t t' raw).1 h
      simp only [h]
      exact .root _ _ h1
  | timestamp clk raw =>
    unfold step
    rcases h : updateTimestamp E clk t raw with ⟨e | (_ | new), t'⟩
    · simp only [h]
      rcases updateTimestamp_error E clk t t' raw e h with rfl | ⟨rfl, rfl, new, a, b, c, d⟩
      · exact .failed _ _
      · exact .timestampExpired _ _ _ a b c d
    · simp only [h]; rw [((updateTimestamp_none_iff E clk t t' raw).1 h).1]; exact .same _ (by simp)
    · obtain ⟨h1, rfl⟩ := (updateTimestamp_some_iff E clk t t' raw new).1 h
      simp only [h]
      exact .timestamp _ _ _ h1
  | snapshot clk raw =>
    unfold step
    rcases h : updateSnapshot E clk t raw with ⟨e | (_ | _), t'⟩
    · simp only [h]; rw [updateSnapshot_error_state E clk t t' raw e h]; exact .failed _ _
    · simp only [h]; rw [((updateSnapshot_false_iff E clk t t' raw).1 h).1]; exact .same _ (by simp)
    · obtain ⟨new, h1, h2⟩ := updateSnapshot_true E clk t t' raw h
      simp only [h]
      exact .snapshot _ _ _ _ h1 h2
  | targets clk raw =>
    unfold step
    rcases h : updateTargets E clk t raw with ⟨e | (_ | _), t'⟩
    · simp only [h]; rw [updateTargets_error_state E clk t t' raw e h]; exact .failed _ _
    · simp only [h]; rw [((updateTargets_false_iff E clk t t' raw).1 h).1]; exact .same _ (by simp)
    · obtain ⟨new, h1, rfl⟩ := (updateTargets_true_iff E clk t t' raw).1 h
      simp only [h]
      exact .targets _ _ _ h1
  | delegation clk parent role raw =>
    unfold step
    rcases h : updateDelegation E clk t parent role raw with ⟨e | (_ | _), t'⟩
    · simp only [h]; rw [updateDelegation_error_state E clk t t' parent role raw e h]; exact .failed _ _
    · simp only [h]
      rw [((updateDelegation_false_iff E clk t t' parent role raw).1 h).1]; exact .same _ (by simp)
    · obtain ⟨new, h1, rfl⟩ := (updateDelegation_true_iff E clk t t' parent role raw).1 h
      simp only [h]
      exact .delegation _ _ _ _ _ h1

end RustTuf.Tuf
