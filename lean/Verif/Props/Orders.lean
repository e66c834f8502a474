import Verif.Spec.Orders
import Verif.Lemmas.Verify
import Verif.Props.KeyIds
import Verif.Props.Reproducible
import Verif.Model.HttpRepository

/-! C116: the order of hash maps does not matter to clients. -/

namespace RustTuf
open Spec Client Props

/-! ## Maps -/

theorem Spec.SameMap.rel {K V : Type} [DecidableEq K] {R : V → V → Prop} {a b : Map K V} (h : SameMap R a b)
    (k : K) : Option.Rel R (a.get? k) (b.get? k) := by
  cases e : a.get? k with
  | none => rw [h.none k e]; exact .none
  | some v =>
    obtain ⟨w, hw, r⟩ := h.there k v e
    rw [hw]
    exact .some r

theorem Spec.SameMap.eq {K V : Type} [DecidableEq K] {a b : Map K V} (h : SameMap Eq a b) (k : K) :
    a.get? k = b.get? k := by
  have := h.rel k
  revert this
  generalize a.get? k = x
  generalize b.get? k = y
  rintro (⟨rfl⟩ | _) <;> rfl

theorem Spec.SameMap.of_rel {K V : Type} [DecidableEq K] {R : V → V → Prop} {a b : Map K V}
    (h : ∀ k, Option.Rel R (a.get? k) (b.get? k)) : SameMap R a b where
  there k v e := by
    have := h k
    rw [e] at this
    generalize b.get? k = y at this
    cases this with
    | some r => exact ⟨_, rfl, r⟩
  none k e := by
    have := h k
    rw [e] at this
    generalize b.get? k = y at this
    cases this
    rfl

theorem hashPreference_same {a b : Map HashAlg HashValue} (h : SameMap Eq a b) :
    hashPreference a = hashPreference b := by
  unfold hashPreference
  generalize hashAlgPrefs = l
  induction l with
  | nil => rfl
  | cons x l ih => simp only [hashPreferenceIn, h.eq, ih]

/-! ## Signatures -/

/-- What is looked up in the map of authorised keys. -/
def authOf (keys : List PublicKey) (id : KeyId) : Option PublicKey :=
  (Map.collect (keys.map fun k => (k.keyId, k))).get? id

theorem authOf_filterKeys {m m' : Map KeyId PublicKey} (h : KeysAlike m m') {ids ids' : List KeyId} (hi : ∀ i, i ∈ ids ↔ i ∈ ids') :
    authOf (filterKeys m ids) = authOf (filterKeys m' ids') := by
  rcases h with rfl | ⟨h, hm, hm'⟩
  · have : filterKeys m ids = filterKeys m ids' := by
      unfold filterKeys
      congr 1
      funext p
      have : ids.contains p.1 = ids'.contains p.1 := by
        rw [Bool.eq_iff_iff, List.contains_iff_mem, List.contains_iff_mem]
        exact hi p.1
      rw [this]
    rw [this]
  have mem : ∀ k, k ∈ filterKeys m ids ↔ k ∈ filterKeys m' ids' := by
    intro k
    rw [filterKeys_eq, filterKeys_eq, mem_keysFor, mem_keysFor]
    have : ∀ i, (i, k) ∈ m ↔ (i, k) ∈ m' := by
      intro i
      constructor
      · intro hk
        exact Map.mem_of_get? (by rw [← h.eq]; exact Map.get?_of_mem_nodup hm.maplike hk)
      · intro hk
        exact Map.mem_of_get? (by rw [h.eq]; exact Map.get?_of_mem_nodup hm'.maplike hk)
    simp only [this, hi]
  have uniq : ∀ {m : Map KeyId PublicKey} {ids}, KeyMap m → ∀ k ∈ filterKeys m ids,
      ∀ k' ∈ filterKeys m ids, k.keyId = k'.keyId → k = k' := by
    intro m ids hm k hk k' hk' e
    rw [filterKeys_eq, mem_keysFor] at hk hk'
    obtain ⟨i, _, hi⟩ := hk
    obtain ⟨i', _, hi'⟩ := hk'
    exact hm.one _ hi _ hi' e
  funext id
  refine Option.ext fun k => ?_
  unfold authOf
  rw [get?_collect_map, get?_collect_map, lastWith_iff_mem (uniq hm), lastWith_iff_mem (uniq hm'), mem]

theorem verify_same {E : Env} (o : Orders E) {M : Type} {Rel : M → M → Prop}
    {decode decode' : Bytes → Except Err M} (hd : ∀ b, SameResult Rel (decode b) (decode' b)) (raw : Bytes)
    (n : Nat) {keys keys' : List PublicKey} (hk : authOf keys = authOf keys') :
    SameResult Rel (verifySignatures E decode raw n keys) (verifySignatures o.env decode' raw n keys') := by
  unfold verifySignatures
  split
  · exact .error _
  · dsimp only
    rcases hp : E.parseSigned raw with e | ⟨sigs, signed⟩
    · have hp' : o.env.parseSigned raw = .error e := hp
      simp only [hp']
      exact .error _
    · have hp' : o.env.parseSigned raw = .ok (sigs, signed) := hp
      simp only [hp']
      split
      · exact .error _
      · rcases hc : E.canonicalize signed with e | msg
        · have hc' : o.env.canonicalize signed = .error e := hc
          simp only [hc']
          exact .error _
        · have hc' : o.env.canonicalize signed = .ok msg := hc
          simp only [hc']
          have : ∀ l, countDown E (Map.collect (keys.map fun k => (k.keyId, k))) msg
              (E.sigOrder l) n = countDown o.env (Map.collect (keys'.map fun k => (k.keyId, k))) msg
              (o.env.sigOrder l) n := by
            intro l
            rw [countDown_eq, countDown_eq, (E.sigOrder_perm l).countP_eq, (o.env.sigOrder_perm l).countP_eq]
            have : good E (Map.collect (keys.map fun k => (k.keyId, k))) msg =
                good o.env (Map.collect (keys'.map fun k => (k.keyId, k))) msg := by
              funext p
              unfold good
              have := congrFun hk p.1
              unfold authOf at this
              rw [this]
              rfl
            rw [this]
          rw [this]
          split
          · exact .error _
          · exact hd msg

theorem root_verify {E : Env} (o : Orders E) {M : Type} {Rel : M → M → Prop}
    {decode decode' : Bytes → Except Err M} (hd : ∀ b, SameResult Rel (decode b) (decode' b)) (raw : Bytes)
    (n : Nat) {r r' : RootMetadata} (h : RootAlike r r') (ids : List KeyId) :
    SameResult Rel (verifySignatures E decode raw n (filterKeys r.keys ids))
      (verifySignatures o.env decode' raw n (filterKeys r'.keys ids)) :=
  verify_same o hd raw n (authOf_filterKeys h.keys fun _ => Iff.rfl)

section
variable {E : Env} (o : Orders E)

theorem Spec.Orders.env_root (b : Bytes) :
    SameResult RootAlike (E.rootFromSlice b) (o.env.rootFromSlice b) := o.root_alike b

theorem Spec.Orders.env_timestamp (b : Bytes) :
    SameResult SameTimestamp (E.timestampFromSlice b) (o.env.timestampFromSlice b) := o.timestamp_alike b

theorem Spec.Orders.env_snapshot (b : Bytes) :
    SameResult SnapshotAlike (E.snapshotFromSlice b) (o.env.snapshotFromSlice b) := o.snapshot_alike b

theorem Spec.Orders.env_targets (b : Bytes) :
    SameResult TargetsAlike (E.targetsFromSlice b) (o.env.targetsFromSlice b) := o.targets_alike b

end

/-! ## The trusted metadata -/

/-- Related outcomes of an update, and related stores after it. -/
def StepAlike {α : Type} (Rel : α → α → Prop) (a b : Except Err α × Tuf) : Prop :=
  SameResult Rel a.1 b.1 ∧ TufAlike a.2 b.2

theorem tuf_ofRoot {r r' : RootMetadata} (h : RootAlike r r') : TufAlike (Tuf.ofRoot r) (Tuf.ofRoot r') where
  root := h
  timestamp := .none
  snapshot := .none
  targets := .none
  delegations := .of_rel fun _ => .none
  left := List.nodup_nil
  right := List.nodup_nil

theorem fromTrustedRoot_same {E : Env} (o : Orders E) (raw : Bytes) :
    SameResult TufAlike (Tuf.fromTrustedRoot E raw) (Tuf.fromTrustedRoot o.env raw) := by
  unfold Tuf.fromTrustedRoot
  rcases hp : E.parseSigned raw with e | ⟨sigs, signed⟩
  · have hp' : o.env.parseSigned raw = .error e := hp
    simp only [hp']
    exact .error _
  · have hp' : o.env.parseSigned raw = .ok (sigs, signed) := hp
    simp only [hp']
    have h1 : SameResult RootAlike (E.rootOfRaw signed) (o.env.rootOfRaw signed) := o.raw_alike signed
    generalize E.rootOfRaw signed = x at *
    generalize o.env.rootOfRaw signed = y at *
    cases h1 with
    | error e => exact .error _
    | @ok r r' h1 =>
      have h2 := root_verify o o.env_root raw r.root.threshold h1 r.root.keyIds
      simp only [RootMetadata.rootKeys, ← h1.same.root]
      generalize verifySignatures E E.rootFromSlice raw _ _ = x at *
      generalize verifySignatures o.env o.env.rootFromSlice raw _ _ = y at *
      cases h2 with
      | error e => exact .error _
      | ok h2 => exact .ok (tuf_ofRoot h2)

theorem fromRootWithTrustedKeys_same {E : Env} (o : Orders E) (raw : Bytes) (n : Nat)
    (keys : List PublicKey) :
    SameResult TufAlike (Tuf.fromRootWithTrustedKeys E raw n keys)
      (Tuf.fromRootWithTrustedKeys o.env raw n keys) := by
  unfold Tuf.fromRootWithTrustedKeys
  have h1 := verify_same o o.env_root raw n (keys := keys) rfl
  generalize verifySignatures E E.rootFromSlice raw n keys = x at *
  generalize verifySignatures o.env o.env.rootFromSlice raw n keys = y at *
  cases h1 with
  | error e => exact .error _
  | @ok r r' h1 =>
    have h2 := root_verify o o.env_root raw r.root.threshold h1 r.root.keyIds
    simp only [← h1.same.root]
    generalize verifySignatures E E.rootFromSlice raw _ _ = x at *
    generalize verifySignatures o.env o.env.rootFromSlice raw _ _ = y at *
    cases h2 with
    | error e => exact .error _
    | ok h2 => exact .ok (tuf_ofRoot h2)

section
variable {E : Env} (o : Orders E) {t t' : Tuf}

theorem alike_error {α : Type} {Rel : α → α → Prop} (h : TufAlike t t') (e : Err) :
    StepAlike Rel (.error e, t) (.error e, t') := ⟨.error e, h⟩

theorem alike_ok {α : Type} {Rel : α → α → Prop} {a b : α} (h : TufAlike t t') (r : Rel a b) :
    StepAlike Rel (.ok a, t) (.ok b, t') := ⟨.ok r, h⟩

theorem updateRoot_same (h : TufAlike t t') (raw : Bytes) :
    StepAlike Eq (Tuf.updateRoot E t raw) (Tuf.updateRoot o.env t' raw) := by
  unfold Tuf.updateRoot RootMetadata.rootKeys
  have h1 := root_verify o o.env_root raw t.root.root.threshold h.root t.root.root.keyIds
  rw [← h.root.same.root, ← h.root.same.version]
  generalize verifySignatures E E.rootFromSlice raw t.root.root.threshold _ = x at *
  generalize verifySignatures o.env o.env.rootFromSlice raw t.root.root.threshold _ = y at *
  cases h1 with
  | error e => exact alike_error h e
  | @ok r r' h1 =>
    have h2 := root_verify o o.env_root raw r.root.threshold h1 r.root.keyIds
    simp only [← h1.same.root]
    generalize verifySignatures E E.rootFromSlice raw _ _ = x at *
    generalize verifySignatures o.env o.env.rootFromSlice raw _ _ = y at *
    cases h2 with
    | error e => exact alike_error h e
    | ok h2 =>
      simp only [← h2.same.version]
      split
      · exact alike_error h _
      · split
        · exact alike_error h _
        · exact ⟨.ok rfl, { tuf_ofRoot h2 with root := h2 }⟩

theorem Spec.TufAlike.timestampVersion (h : TufAlike t t') : t.timestampVersion = t'.timestampVersion := by
  have := h.timestamp
  unfold Tuf.timestampVersion
  generalize t.timestamp = x at *
  generalize t'.timestamp = y at *
  cases this with
  | none => rfl
  | some r => exact r.version

theorem Spec.TufAlike.snapshotVersion (h : TufAlike t t') : t.snapshotVersion = t'.snapshotVersion := by
  have := h.snapshot
  unfold Tuf.snapshotVersion
  generalize t.snapshot = x at *
  generalize t'.snapshot = y at *
  cases this with
  | none => rfl
  | some r => exact r.same.version

theorem Spec.TufAlike.targetsVersion (h : TufAlike t t') : t.targetsVersion = t'.targetsVersion := by
  have := h.targets
  unfold Tuf.targetsVersion
  generalize t.targets = x at *
  generalize t'.targets = y at *
  cases this with
  | none => rfl
  | some r => exact r.same.version

theorem Spec.TufAlike.delegationVersion (h : TufAlike t t') (role : MetadataPath) :
    t.delegationVersion role = t'.delegationVersion role := by
  have := h.delegations.rel role
  unfold Tuf.delegationVersion
  generalize t.delegations.get? role = x at *
  generalize t'.delegations.get? role = y at *
  cases this with
  | none => rfl
  | some r => exact r.same.version

theorem updateTimestamp_same (h : TufAlike t t') (clk : Clock) (raw : Bytes) :
    StepAlike (Option.Rel SameTimestamp) (Tuf.updateTimestamp E clk t raw)
      (Tuf.updateTimestamp o.env clk t' raw) := by
  unfold Tuf.updateTimestamp RootMetadata.timestampKeys
  have h1 := root_verify o o.env_timestamp raw t.root.timestamp.threshold h.root t.root.timestamp.keyIds
  rw [← h.root.same.timestamp, ← h.timestampVersion, ← h.snapshotVersion]
  generalize verifySignatures E E.timestampFromSlice raw _ _ = x at *
  generalize verifySignatures o.env o.env.timestampFromSlice raw _ _ = y at *
  cases h1 with
  | error e => exact alike_error h e
  | @ok m m' h1 =>
    simp only [← h1.version, ← h1.expires, ← h1.snapshot.version]
    split
    · exact alike_error h _
    · split
      · exact alike_ok h .none
      · have hs : TufAlike (if t.snapshotVersion ≠ m.snapshot.version then { t with snapshot := none } else t)
            (if t.snapshotVersion ≠ m.snapshot.version then { t' with snapshot := none } else t') := by
          split
          · exact { h with snapshot := .none }
          · exact h
        split
        · exact alike_error hs _
        · exact alike_ok { hs with timestamp := .some h1 } (.some h1)

theorem rootUnexpired_same (h : TufAlike t t') (clk : Clock) :
    SameResult RootAlike (t.rootUnexpired clk) (t'.rootUnexpired clk) := by
  unfold Tuf.rootUnexpired
  rw [← h.root.same.expires]
  split
  · exact .error _
  · exact .ok h.root

theorem timestampUnexpired_same (h : TufAlike t t') (clk : Clock) :
    SameResult SameTimestamp (t.timestampUnexpired clk) (t'.timestampUnexpired clk) := by
  have := h.timestamp
  unfold Tuf.timestampUnexpired
  generalize t.timestamp = x at *
  generalize t'.timestamp = y at *
  cases this with
  | none => exact .error _
  | some r =>
    simp only [← r.expires]
    split
    · exact .error _
    · exact .ok r

theorem snapshotUnexpired_same (h : TufAlike t t') (clk : Clock) :
    SameResult SnapshotAlike (t.snapshotUnexpired clk) (t'.snapshotUnexpired clk) := by
  have := h.snapshot
  unfold Tuf.snapshotUnexpired
  generalize t.snapshot = x at *
  generalize t'.snapshot = y at *
  cases this with
  | none => exact .error _
  | some r =>
    simp only [← r.same.expires]
    split
    · exact .error _
    · exact .ok r

theorem targetsUnexpired_same (h : TufAlike t t') (clk : Clock) :
    SameResult TargetsAlike (t.targetsUnexpired clk) (t'.targetsUnexpired clk) := by
  have := h.targets
  unfold Tuf.targetsUnexpired
  generalize t.targets = x at *
  generalize t'.targets = y at *
  cases this with
  | none => exact .error _
  | some r =>
    simp only [← r.same.expires]
    split
    · exact .error _
    · exact .ok r

/-- Removing several entries. -/
theorem get?_erases {K V : Type} [DecidableEq K] (ks : List K) : ∀ (m : Map K V) (k : K),
    (ks.foldl (fun m r => Map.erase m r) m).get? k = if k ∈ ks then none else m.get? k := by
  induction ks with
  | nil => intro m k; simp
  | cons x ks ih =>
    intro m k
    rw [List.foldl_cons, ih, Map.get?_erase]
    by_cases h1 : k ∈ ks <;> by_cases h2 : k = x <;> simp [h1, h2]

theorem erases_maplike {K V : Type} [DecidableEq K] (ks : List K) : ∀ (m : Map K V), MapLike m →
    MapLike (ks.foldl (fun m r => Map.erase m r) m) := by
  induction ks with
  | nil => exact fun m h => h
  | cons x ks ih => exact fun m h => ih _ (Map.nodup_keys_erase h x)

/-- Which roles are purged. -/
theorem mem_purge {m : Map MetadataPath MetadataDescription} (hm : MapLike m)
    (ds : Map MetadataPath TargetsMetadata) (k : MetadataPath) :
    (k ∈ (m.filter fun p => match ds.get? p.1 with
      | none => false
      | some d => decide (d.version > p.2.version)).map Prod.fst) ↔
    ∃ d descr, ds.get? k = some d ∧ m.get? k = some descr ∧ descr.version < d.version := by
  rw [List.mem_map]
  constructor
  · rintro ⟨⟨k', descr⟩, hp, rfl⟩
    obtain ⟨h1, h2⟩ := List.mem_filter.1 hp
    dsimp only at h2
    split at h2
    · cases h2
    · rename_i d hd
      exact ⟨d, descr, hd, Map.get?_of_mem_nodup hm h1, by simpa using h2⟩
  · rintro ⟨d, descr, hd, hm', hv⟩
    refine ⟨(k, descr), List.mem_filter.2 ⟨Map.mem_of_get? hm', ?_⟩, rfl⟩
    simp only [hd]
    simpa using hv

theorem rel_some {α β : Type} {R : α → β → Prop} {x : Option α} {y : Option β} (h : Option.Rel R x y)
    {a : α} (e : x = some a) : ∃ b, y = some b ∧ R a b := by
  subst e
  cases h with
  | some r => exact ⟨_, rfl, r⟩

theorem rel_some' {α β : Type} {R : α → β → Prop} {x : Option α} {y : Option β} (h : Option.Rel R x y)
    {b : β} (e : y = some b) : ∃ a, x = some a ∧ R a b := by
  subst e
  cases h with
  | some r => exact ⟨_, rfl, r⟩

theorem purge_same (h : TufAlike t t') : TufAlike t.purgeDelegations t'.purgeDelegations := by
  have hs := h.snapshot
  unfold Tuf.purgeDelegations
  cases e : t.snapshot with
  | none =>
    cases e' : t'.snapshot with
    | none => exact h
    | some s' => rw [e, e'] at hs; cases hs
  | some s =>
    rw [e] at hs
    obtain ⟨s', e', r⟩ := rel_some hs rfl
    simp only [e']
    refine { h with snapshot := .some r, delegations := ?_, left := erases_maplike _ _ h.left, right := erases_maplike _ _ h.right }
    refine .of_rel fun k => ?_
    rw [get?_erases, get?_erases]
    have iff : (∃ d descr, t.delegations.get? k = some d ∧ s.metas.get? k = some descr ∧
        descr.version < d.version) ↔ ∃ d descr, t'.delegations.get? k = some d ∧
        s'.metas.get? k = some descr ∧ descr.version < d.version := by
      constructor
      · rintro ⟨d, descr, h1, h2, h3⟩
        obtain ⟨d', h1', r1⟩ := rel_some (h.delegations.rel k) h1
        obtain ⟨descr', h2', r2⟩ := rel_some (r.same.metas.rel k) h2
        exact ⟨d', descr', h1', h2', by rw [← r1.same.version, ← r2.version]; exact h3⟩
      · rintro ⟨d, descr, h1, h2, h3⟩
        obtain ⟨d', h1', r1⟩ := rel_some' (h.delegations.rel k) h1
        obtain ⟨descr', h2', r2⟩ := rel_some' (r.same.metas.rel k) h2
        exact ⟨d', descr', h1', h2', by rw [r1.same.version, r2.version]; exact h3⟩
    rw [← mem_purge r.left, ← mem_purge r.right] at iff
    split <;> rename_i h1
    · split <;> rename_i h2
      · exact .none
      · exact absurd (iff.1 h1) h2
    · split <;> rename_i h2
      · exact absurd (iff.2 h2) h1
      · exact h.delegations.rel k

theorem updateSnapshot_same (h : TufAlike t t') (clk : Clock) (raw : Bytes) :
    StepAlike Eq (Tuf.updateSnapshot E clk t raw) (Tuf.updateSnapshot o.env clk t' raw) := by
  unfold Tuf.updateSnapshot
  have h1 := rootUnexpired_same h clk
  generalize t.rootUnexpired clk = x at *
  generalize t'.rootUnexpired clk = y at *
  cases h1 with
  | error e => exact alike_error h e
  | @ok r r' hr =>
    have h1 := timestampUnexpired_same h clk
    generalize t.timestampUnexpired clk = x at *
    generalize t'.timestampUnexpired clk = y at *
    cases h1 with
    | error e => exact alike_error h e
    | @ok ts ts' hts =>
      simp only [← hts.snapshot.version, ← h.snapshotVersion, ← h.targetsVersion]
      split
      · exact alike_error h _
      · split
        · exact alike_ok h rfl
        · have h1 := root_verify o o.env_snapshot raw r.snapshot.threshold hr r.snapshot.keyIds
          simp only [RootMetadata.snapshotKeys, ← hr.same.snapshot]
          generalize verifySignatures E E.snapshotFromSlice raw _ _ = x at *
          generalize verifySignatures o.env o.env.snapshotFromSlice raw _ _ = y at *
          cases h1 with
          | error e => exact alike_error h e
          | @ok m m' hm =>
            have hd : ((m.metas.get? (MetadataPath.fromRole .targets)).map (·.version)).getD 0 =
                ((m'.metas.get? (MetadataPath.fromRole .targets)).map (·.version)).getD 0 := by
              have := hm.same.metas.rel (MetadataPath.fromRole .targets)
              generalize m.metas.get? (MetadataPath.fromRole .targets) = x at *
              generalize m'.metas.get? (MetadataPath.fromRole .targets) = y at *
              cases this with
              | none => rfl
              | some r => exact r.version
            simp only [← hm.same.version, ← hd]
            split
            · exact alike_error h _
            · split
              · exact alike_error h _
              · generalize ((m.metas.get? (MetadataPath.fromRole .targets)).map (·.version)).getD 0 = n at *
                have hs : TufAlike (if t.targetsVersion ≠ n then { t with targets := none } else t)
                    (if t.targetsVersion ≠ n then { t' with targets := none } else t') := by
                  split
                  · exact { h with targets := .none }
                  · exact h
                exact alike_ok (purge_same { hs with snapshot := .some hm }) rfl

theorem updateTargets_same (h : TufAlike t t') (clk : Clock) (raw : Bytes) :
    StepAlike Eq (Tuf.updateTargets E clk t raw) (Tuf.updateTargets o.env clk t' raw) := by
  unfold Tuf.updateTargets
  have h1 := rootUnexpired_same h clk
  generalize t.rootUnexpired clk = x at *
  generalize t'.rootUnexpired clk = y at *
  cases h1 with
  | error e => exact alike_error h e
  | @ok r r' hr =>
    have h1 := snapshotUnexpired_same h clk
    generalize t.snapshotUnexpired clk = x at *
    generalize t'.snapshotUnexpired clk = y at *
    cases h1 with
    | error e => exact alike_error h e
    | @ok sn sn' hsn =>
      have hd := hsn.same.metas.rel (MetadataPath.fromRole .targets)
      dsimp only
      generalize sn.metas.get? (MetadataPath.fromRole .targets) = x at *
      generalize sn'.metas.get? (MetadataPath.fromRole .targets) = y at *
      cases hd with
      | none => exact alike_error h _
      | some hd =>
        simp only [← hd.version, ← h.targetsVersion]
        split
        · exact alike_error h _
        · split
          · exact alike_ok h rfl
          · have h1 := root_verify o o.env_targets raw r.targets.threshold hr r.targets.keyIds
            simp only [RootMetadata.targetsKeys, ← hr.same.targets]
            generalize verifySignatures E E.targetsFromSlice raw _ _ = x at *
            generalize verifySignatures o.env o.env.targetsFromSlice raw _ _ = y at *
            cases h1 with
            | error e => exact alike_error h e
            | @ok m m' hm =>
              simp only [← hm.same.version, ← hm.same.expires]
              split
              · exact alike_error h _
              · split
                · exact alike_error h _
                · exact alike_ok { h with targets := .some hm } rfl

/-- Related thresholds and keys. -/
def AuthAlike (a b : Nat × List PublicKey) : Prop := a.1 = b.1 ∧ authOf a.2 = authOf b.2

theorem find_same {ds ds' : List Delegation} (h : List.Forall₂ SameDelegation ds ds') (role : MetadataPath) :
    Option.Rel SameDelegation (ds.find? fun d => decide (d.role = role))
      (ds'.find? fun d => decide (d.role = role)) := by
  induction h with
  | nil => exact .none
  | cons hd _ ih =>
    rw [List.find?_cons, List.find?_cons, hd.role]
    split
    · exact .some hd
    · exact ih

theorem findDelegation_same (h : TufAlike t t') (parent role : MetadataPath) :
    Option.Rel AuthAlike (t.findDelegation parent role) (t'.findDelegation parent role) := by
  unfold Tuf.findDelegation
  have hp : Option.Rel TargetsAlike
      (if parent = MetadataPath.fromRole .targets then t.targets else t.delegations.get? parent)
      (if parent = MetadataPath.fromRole .targets then t'.targets else t'.delegations.get? parent) := by
    split
    · exact h.targets
    · exact h.delegations.rel parent
  dsimp only
  generalize (if parent = MetadataPath.fromRole .targets then t.targets else t.delegations.get? parent) = x at *
  generalize (if parent = MetadataPath.fromRole .targets then t'.targets else t'.delegations.get? parent) = y at *
  cases hp with
  | none => exact .none
  | @some p p' hp =>
    have hd := hp.same.delegations
    have l := hp.keys
    dsimp only
    generalize p.delegations = x at *
    generalize p'.delegations = y at *
    cases hd with
    | none => exact .none
    | @some ds ds' hds =>
      have hf := find_same hds.roles role
      dsimp only
      generalize ds.roles.find? (fun d => decide (d.role = role)) = x at *
      generalize ds'.roles.find? (fun d => decide (d.role = role)) = y at *
      cases hf with
      | none => exact .none
      | some hf => exact .some ⟨hf.threshold, authOf_filterKeys (l _ _ rfl rfl) hf.keyIds.2.2⟩

theorem updateDelegation_same (h : TufAlike t t') (clk : Clock) (parent role : MetadataPath) (raw : Bytes) :
    StepAlike Eq (Tuf.updateDelegation E clk t parent role raw)
      (Tuf.updateDelegation o.env clk t' parent role raw) := by
  unfold Tuf.updateDelegation
  have h1 := rootUnexpired_same h clk
  generalize t.rootUnexpired clk = x at *
  generalize t'.rootUnexpired clk = y at *
  cases h1 with
  | error e => exact alike_error h e
  | ok _ =>
  have h1 := snapshotUnexpired_same h clk
  generalize t.snapshotUnexpired clk = x at *
  generalize t'.snapshotUnexpired clk = y at *
  cases h1 with
  | error e => exact alike_error h e
  | @ok sn sn' hsn =>
  have h1 := targetsUnexpired_same h clk
  generalize t.targetsUnexpired clk = x at *
  generalize t'.targetsUnexpired clk = y at *
  cases h1 with
  | error e => exact alike_error h e
  | @ok ta ta' hta =>
  have hn : ta.delegations.isNone = ta'.delegations.isNone := by
    have := hta.same.delegations
    generalize ta.delegations = x at *
    generalize ta'.delegations = y at *
    cases this <;> rfl
  simp only [← hn, ← h.delegationVersion]
  split
  · exact alike_error h _
  have hd := hsn.same.metas.rel role
  generalize sn.metas.get? role = x at *
  generalize sn'.metas.get? role = y at *
  cases hd with
  | none => exact alike_error h _
  | some hd =>
  simp only [← hd.version]
  split
  · exact alike_error h _
  have hf := findDelegation_same h parent role
  generalize t.findDelegation parent role = x at *
  generalize t'.findDelegation parent role = y at *
  cases hf with
  | none => exact alike_error h _
  | @some a b hf =>
  obtain ⟨n, ks⟩ := a
  obtain ⟨n', ks'⟩ := b
  obtain ⟨rfl, hks⟩ : n = n' ∧ authOf ks = authOf ks' := hf
  have h1 := verify_same o o.env_targets raw n hks
  dsimp only
  generalize verifySignatures E E.targetsFromSlice raw _ _ = x at *
  generalize verifySignatures o.env o.env.targetsFromSlice raw _ _ = y at *
  cases h1 with
  | error e => exact alike_error h e
  | @ok m m' hm =>
  simp only [← hm.same.version, ← hm.same.expires]
  split
  · exact alike_ok h rfl
  · split
    · exact alike_error h _
    · split
      · exact alike_error h _
      · refine alike_ok { h with delegations := ?_, left := ?_, right := ?_ } rfl
        · refine .of_rel fun k => ?_
          rw [Map.get?_insert, Map.get?_insert]
          split
          · exact .some hm
          · exact h.delegations.rel k
        · exact Map.nodup_keys_insert h.left _ _
        · exact Map.nodup_keys_insert h.right _ _

theorem step_same (h : TufAlike t t') (op : Tuf.Op) :
    (Tuf.step E t op).1 = (Tuf.step o.env t' op).1 ∧ TufAlike (Tuf.step E t op).2 (Tuf.step o.env t' op).2 := by
  cases op with
  | root raw =>
    have h12 := updateRoot_same o h raw
    unfold Tuf.step
    dsimp only
    generalize Tuf.updateRoot E t raw = x at *
    generalize Tuf.updateRoot o.env t' raw = y at *
    obtain ⟨x, s⟩ := x
    obtain ⟨y, s'⟩ := y
    obtain ⟨h1, h2⟩ := h12
    dsimp only at h1 h2
    cases h1 with
    | error e => exact ⟨rfl, h2⟩
    | ok r => exact ⟨rfl, h2⟩
  | timestamp clk raw =>
    have h12 := updateTimestamp_same o h clk raw
    unfold Tuf.step
    dsimp only
    generalize Tuf.updateTimestamp E clk t raw = x at *
    generalize Tuf.updateTimestamp o.env clk t' raw = y at *
    obtain ⟨x, s⟩ := x
    obtain ⟨y, s'⟩ := y
    obtain ⟨h1, h2⟩ := h12
    dsimp only at h1 h2
    cases h1 with
    | error e => exact ⟨rfl, h2⟩
    | ok r => cases r <;> exact ⟨rfl, h2⟩
  | snapshot clk raw =>
    have h12 := updateSnapshot_same o h clk raw
    unfold Tuf.step
    dsimp only
    generalize Tuf.updateSnapshot E clk t raw = x at *
    generalize Tuf.updateSnapshot o.env clk t' raw = y at *
    obtain ⟨x, s⟩ := x
    obtain ⟨y, s'⟩ := y
    obtain ⟨h1, h2⟩ := h12
    dsimp only at h1 h2
    cases h1 with
    | error e => exact ⟨rfl, h2⟩
    | @ok a b r => cases r; cases a <;> exact ⟨rfl, h2⟩
  | targets clk raw =>
    have h12 := updateTargets_same o h clk raw
    unfold Tuf.step
    dsimp only
    generalize Tuf.updateTargets E clk t raw = x at *
    generalize Tuf.updateTargets o.env clk t' raw = y at *
    obtain ⟨x, s⟩ := x
    obtain ⟨y, s'⟩ := y
    obtain ⟨h1, h2⟩ := h12
    dsimp only at h1 h2
    cases h1 with
    | error e => exact ⟨rfl, h2⟩
    | @ok a b r => cases r; cases a <;> exact ⟨rfl, h2⟩
  | delegation clk parent role raw =>
    have h12 := updateDelegation_same o h clk parent role raw
    unfold Tuf.step
    dsimp only
    generalize Tuf.updateDelegation E clk t parent role raw = x at *
    generalize Tuf.updateDelegation o.env clk t' parent role raw = y at *
    obtain ⟨x, s⟩ := x
    obtain ⟨y, s'⟩ := y
    obtain ⟨h1, h2⟩ := h12
    dsimp only at h1 h2
    cases h1 with
    | error e => exact ⟨rfl, h2⟩
    | @ok a b r => cases r; cases a <;> exact ⟨rfl, h2⟩

end

/-! ### Looking targets up -/

/-- Two lists with the same members. -/
def SameMembers {α : Type} (a b : List α) : Prop := ∀ x, x ∈ a ↔ x ∈ b

theorem any_members {α : Type} {a b : List α} (h : SameMembers a b) (p : α → Bool) : a.any p = b.any p := by
  rw [Bool.eq_iff_iff, List.any_eq_true, List.any_eq_true]
  exact ⟨fun ⟨x, hx, e⟩ => ⟨x, (h x).1 hx, e⟩, fun ⟨x, hx, e⟩ => ⟨x, (h x).2 hx, e⟩⟩

theorem keepUnder_members {g g' h h' : List VirtualTargetPath} (h1 : SameMembers g g')
    (h2 : SameMembers h h') : SameMembers (keepUnder g h) (keepUnder g' h') := by
  intro x
  unfold keepUnder
  rw [List.mem_filter, List.mem_filter, h2 x, any_members h1]

theorem matchesChainN_members (p : VirtualTargetPath) : ∀ (n : Nat) {gs gs' : List (List VirtualTargetPath)},
    List.Forall₂ SameMembers gs gs' → matchesChainN p n gs = matchesChainN p n gs'
  | 0, _, _, _ => rfl
  | _ + 1, _, _, .nil => rfl
  | _ + 1, _, _, .cons h .nil => by
    simp only [matchesChainN]
    exact any_members h _
  | n + 1, _, _, .cons (a := g) (b := g') h (.cons h1 hs) => by
    have := matchesChainN_members p n (gs := (_ :: _).map (keepUnder g)) (gs' := (_ :: _).map (keepUnder g'))
      (List.forall₂_map_left_iff.2 (List.forall₂_map_right_iff.2
        ((List.Forall₂.cons h1 hs).imp fun _ _ => keepUnder_members h)))
    simpa only [matchesChainN] using this

theorem matchesChain_members (p : VirtualTargetPath) {gs gs' : List (List VirtualTargetPath)}
    (h : List.Forall₂ SameMembers gs gs') : matchesChain p gs = matchesChain p gs' := by
  unfold matchesChain
  rw [h.length_eq]
  exact matchesChainN_members p _ h

/-- Related results of the lookup in `Tuf`. -/
def LookupAlike (a b : Tuf.LookupRes) : Prop :=
  Option.Rel (fun x y => x.1.1 = y.1.1 ∧ Option.Rel SameTarget x.1.2 y.1.2 ∧ x.2 = y.2) a b

theorem lookupLoop_same {t t' : Tuf} (h : TufAlike t t') (clk : Clock) (path : VirtualTargetPath)
    {rec rec' : Bool → Nat → Delegations → List (List VirtualTargetPath) → List MetadataPath → Tuf.LookupRes}
    (hrec : ∀ b n ds ds' ps ps' v, SameDelegations ds ds' → List.Forall₂ SameMembers ps ps' →
      LookupAlike (rec b n ds ps v) (rec' b n ds' ps' v)) (dflt : Bool) (depth : Nat)
    {ps ps' : List (List VirtualTargetPath)} (hps : List.Forall₂ SameMembers ps ps')
    {ds ds' : List Delegation} (hds : List.Forall₂ SameDelegation ds ds') : ∀ visited,
    LookupAlike (Tuf.lookupLoop t clk path rec dflt depth ps ds visited)
      (Tuf.lookupLoop t' clk path rec' dflt depth ps' ds' visited) := by
  induction hds with
  | nil => exact fun visited => .some ⟨rfl, .none, rfl⟩
  | @cons d d' ds ds' hd _ ih =>
    intro visited
    unfold Tuf.lookupLoop
    rw [← hd.role, ← hd.terminating, ← matchesChain_members path hps]
    split
    · exact .some ⟨rfl, .none, rfl⟩
    · dsimp only
      split
      · exact .some ⟨rfl, .none, rfl⟩
      · have hm := h.delegations.rel d.role
        generalize t.delegations.get? d.role = x at *
        generalize t'.delegations.get? d.role = y at *
        cases hm with
        | none => exact .some ⟨rfl, .none, rfl⟩
        | @some td td' hm =>
          simp only [← hm.same.expires]
          split
          · exact .some ⟨rfl, .none, rfl⟩
          · have ht := hm.same.targets.rel path
            generalize td.targets.get? path = x at *
            generalize td'.targets.get? path = y at *
            cases ht with
            | some r => exact .some ⟨rfl, .some r, rfl⟩
            | none =>
              have hc := hm.same.delegations
              dsimp only
              generalize td.delegations = x at *
              generalize td'.delegations = y at *
              cases hc with
              | none => exact ih _
              | @some c c' hc =>
                have hr := hrec d.terminating (depth + 1) c c' (ps ++ [d.paths]) (ps' ++ [d'.paths])
                  (d.role :: visited) hc (List.rel_append hps (.cons hd.paths.2.2 .nil))
                dsimp only
                generalize rec d.terminating (depth + 1) c (ps ++ [d.paths]) (d.role :: visited) = x at *
                generalize rec' d.terminating (depth + 1) c' (ps' ++ [d'.paths]) (d.role :: visited) = y at *
                cases hr with
                | none => exact .none
                | @some a b hr =>
                  obtain ⟨⟨term, res⟩, v⟩ := a
                  obtain ⟨⟨term', res'⟩, v'⟩ := b
                  obtain ⟨rfl, hres, rfl⟩ : term = term' ∧ Option.Rel SameTarget res res' ∧ v = v' := hr
                  have : res.isSome = res'.isSome := by cases hres <;> rfl
                  dsimp only
                  rw [← this]
                  split
                  · exact .some ⟨rfl, hres, rfl⟩
                  · split
                    · exact .some ⟨rfl, hres, rfl⟩
                    · exact ih _

theorem lookup_same {t t' : Tuf} (h : TufAlike t t') (clk : Clock) (path : VirtualTargetPath) (fuel : Nat) :
    ∀ b n ds ds' ps ps' v, SameDelegations ds ds' → List.Forall₂ SameMembers ps ps' →
      LookupAlike (t.lookup clk path fuel b n ds ps v) (t'.lookup clk path fuel b n ds' ps' v) := by
  induction fuel with
  | zero => intros; exact .none
  | succ fuel ih =>
    intro b n ds ds' ps ps' v hds hps
    exact lookupLoop_same h clk path ih b n hps hds.roles v

theorem length_same {K V : Type} [DecidableEq K] {R : V → V → Prop} {a b : Map K V} (h : SameMap R a b)
    (ha : MapLike a) (hb : MapLike b) : a.length = b.length := by
  have : (a.map Prod.fst).Perm (b.map Prod.fst) := by
    refine (List.perm_ext_iff_of_nodup ha hb).2 fun k => ?_
    have : ∀ m : Map K V, k ∈ m.map Prod.fst ↔ (m.get? k).isSome := by
      intro m
      rw [Map.isSome_get?_iff]
      simp
    rw [this, this]
    have := h.rel k
    revert this
    generalize a.get? k = x
    generalize b.get? k = y
    intro r
    cases r <;> rfl
  simpa using this.length_eq

theorem targetDescription_same {t t' : Tuf} (h : TufAlike t t') (clk : Clock) (path : VirtualTargetPath) :
    SameResult SameTarget (Tuf.targetDescription clk t path) (Tuf.targetDescription clk t' path) := by
  unfold Tuf.targetDescription
  have h1 := rootUnexpired_same h clk
  generalize t.rootUnexpired clk = x at *
  generalize t'.rootUnexpired clk = y at *
  cases h1 with
  | error e => exact .error e
  | ok _ =>
  have h1 := snapshotUnexpired_same h clk
  generalize t.snapshotUnexpired clk = x at *
  generalize t'.snapshotUnexpired clk = y at *
  cases h1 with
  | error e => exact .error e
  | ok _ =>
  have h1 := targetsUnexpired_same h clk
  generalize t.targetsUnexpired clk = x at *
  generalize t'.targetsUnexpired clk = y at *
  cases h1 with
  | error e => exact .error e
  | @ok ta ta' hta =>
  have ht := hta.same.targets.rel path
  dsimp only
  generalize ta.targets.get? path = x at *
  generalize ta'.targets.get? path = y at *
  cases ht with
  | some r => exact .ok r
  | none =>
  have hc := hta.same.delegations
  dsimp only
  generalize ta.delegations = x at *
  generalize ta'.delegations = y at *
  cases hc with
  | none => exact .error _
  | @some c c' hc =>
  have hl := lookup_same h clk path t.lookupFuel false 0 c c' [] [] [] hc .nil
  have hf : t'.lookupFuel = t.lookupFuel := by
    unfold Tuf.lookupFuel
    rw [length_same h.delegations h.left h.right]
  dsimp only
  rw [hf]
  generalize t.lookup clk path t.lookupFuel false 0 c [] [] = x at *
  generalize t'.lookup clk path t.lookupFuel false 0 c' [] [] = y at *
  cases hl with
  | none => exact .error _
  | @some a b hr =>
    obtain ⟨⟨term, res⟩, v⟩ := a
    obtain ⟨⟨term', res'⟩, v'⟩ := b
    obtain ⟨rfl, hres, rfl⟩ : term = term' ∧ Option.Rel SameTarget res res' ∧ v = v' := hr
    cases hres with
    | none => exact .error _
    | some r => exact .ok r

/-! ## Clients -/

section
variable {W : Type}

/-- Clients that trust the same, in the same world. -/
def StAlike (s s' : St W) : Prop := TufAlike s.tuf s'.tuf ∧ s.io = s'.io

/-- These programs give related results, from clients that trust the same. -/
def Alike {α : Type} (Rel : α → α → Prop) (m m' : M (St W) α) : Prop :=
  ∀ s s', StAlike s s' → SameResult Rel (m s).1 (m' s').1 ∧ StAlike (m s).2 (m' s').2

variable {α β : Type} {Rel : α → α → Prop} {Rel' : β → β → Prop}

theorem alike_pure {a b : α} (h : Rel a b) : Alike (W := W) Rel (pure a) (pure b) :=
  fun _ _ hs => ⟨.ok h, hs⟩

theorem alike_fail (e : Err) : Alike (W := W) Rel (M.fail e) (M.fail e) :=
  fun _ _ hs => ⟨.error e, hs⟩

theorem alike_ofExcept {x y : Except Err α} (h : SameResult Rel x y) :
    Alike (W := W) Rel (M.ofExcept x) (M.ofExcept y) := fun _ _ hs => ⟨h, hs⟩

theorem alike_bind {m m' : M (St W) α} {f f' : α → M (St W) β} (h : Alike Rel m m')
    (hf : ∀ a b, Rel a b → Alike Rel' (f a) (f' b)) : Alike Rel' (m >>= f) (m' >>= f') := by
  intro s s' hs
  have := h s s' hs
  simp only [bind, M.bind]
  revert this
  rcases m s with ⟨x, s1⟩
  rcases m' s' with ⟨y, s1'⟩
  rintro ⟨h1, h2⟩
  dsimp only at h1 h2
  cases h1 with
  | error e => exact ⟨.error e, h2⟩
  | ok r => exact hf _ _ r _ _ h2

/-- The same program that does not look at the trusted metadata. -/
theorem alike_lift (m : M (Io W) α) : Alike Eq (lift m) (lift m) := by
  rintro s s' ⟨ht, hio⟩
  unfold lift
  rw [← hio]
  rcases m s.io with ⟨x, io⟩
  cases x with
  | error e => exact ⟨.error e, ht, rfl⟩
  | ok a => exact ⟨.ok rfl, ht, rfl⟩

theorem alike_attempt {m m' : M (St W) α} (h : Alike Rel m m') :
    Alike (SameResult Rel) (M.attempt m) (M.attempt m') := by
  intro s s' hs
  have := h s s' hs
  revert this
  unfold M.attempt
  rcases m s with ⟨x, s1⟩
  rcases m' s' with ⟨y, s1'⟩
  rintro ⟨h1, h2⟩
  dsimp only at h1 h2
  cases h1 with
  | ok r => exact ⟨.ok (.ok r), h2⟩
  | error e => cases e <;> first | exact ⟨.error _, h2⟩ | exact ⟨.ok (.error _), h2⟩

theorem alike_getTuf : Alike (W := W) TufAlike getTuf getTuf := fun _ _ hs => ⟨.ok hs.1, hs⟩

theorem alike_getClock (R : World W) : Alike Eq (getClock R) (getClock R) := by
  rintro s s' ⟨ht, hio⟩
  unfold getClock
  rw [← hio]
  rcases R.clock s.io.w with ⟨c, w⟩
  exact ⟨.ok rfl, ht, rfl⟩

theorem alike_updateTuf {E : Env} (o : Orders E) (op : Tuf.Op) :
    Alike (W := W) Eq (updateTuf E op) (updateTuf o.env op) := by
  rintro s s' ⟨ht, hio⟩
  have := step_same o ht op
  unfold updateTuf
  rw [← hio]
  generalize Tuf.step E s.tuf op = x at *
  generalize Tuf.step o.env s'.tuf op = y at *
  obtain ⟨x, t⟩ := x
  obtain ⟨y, t'⟩ := y
  obtain ⟨h1, h2⟩ := this
  dsimp only at h1 h2
  subst h1
  cases x with
  | failed e => exact ⟨.error e, h2, rfl⟩
  | unchanged => exact ⟨.ok rfl, h2, rfl⟩
  | changed => exact ⟨.ok rfl, h2, rfl⟩

theorem alike_when (b : Bool) {m m' : M (St W) Unit} (h : Alike Eq m m') :
    Alike Eq (M.when b m) (M.when b m') := by
  unfold M.when
  cases b
  · exact alike_pure rfl
  · exact h

theorem alike_bind_eq {m m' : M (St W) α} {f f' : α → M (St W) β} (h : Alike Eq m m')
    (hf : ∀ a, Alike Rel' (f a) (f' a)) : Alike Rel' (m >>= f) (m' >>= f') :=
  alike_bind h fun a b e => e ▸ hf a

theorem sameResult_refl (x : Except Err α) : SameResult Eq x x := by
  cases x
  · exact .error _
  · exact .ok rfl

variable {E : Env} (o : Orders E) (D : Digest) (R : World W)

theorem alike_rootLoop (cfg : Config) (src : Source) (persist : Bool) (fuel : Nat) : ∀ u,
    Alike Eq (rootLoop E D R cfg src persist fuel u) (rootLoop o.env D R cfg src persist fuel u) := by
  induction fuel with
  | zero => exact fun u => alike_fail _
  | succ n ih =>
    intro u
    unfold rootLoop
    refine alike_bind alike_getTuf fun t t' ht => ?_
    rw [← ht.root.same.version]
    refine alike_bind_eq (alike_ofExcept (sameResult_refl _)) fun next => ?_
    refine alike_bind (alike_attempt (alike_lift _)) fun x y h => ?_
    cases h with
    | error e => cases e <;> first | exact alike_pure rfl | exact alike_fail _
    | @ok a b r =>
      cases r
      refine alike_bind_eq (alike_updateTuf o _) fun _ => ?_
      refine alike_bind_eq (alike_when _ ?_) fun _ => ih true
      exact alike_bind_eq (alike_lift _) fun _ => alike_lift _

theorem alike_updateRoot (cfg : Config) (src : Source) (persist : Bool) :
    Alike Eq (updateRootWithRepos E D R cfg src persist) (updateRootWithRepos o.env D R cfg src persist) := by
  unfold updateRootWithRepos
  refine alike_bind_eq (alike_rootLoop o D R cfg src persist _ _) fun u => ?_
  refine alike_bind_eq (alike_getClock R) fun clk => ?_
  refine alike_bind alike_getTuf fun t t' ht => ?_
  rw [← ht.root.same.expires]
  split
  · exact alike_fail _
  · exact alike_pure rfl

theorem alike_updateTimestamp (cfg : Config) (src : Source) (persist : Bool) :
    Alike Eq (updateTimestampWithRepos E D R cfg src persist)
      (updateTimestampWithRepos o.env D R cfg src persist) := by
  unfold updateTimestampWithRepos
  refine alike_bind_eq (alike_lift _) fun raw => ?_
  refine alike_bind_eq (alike_getClock R) fun clk => ?_
  refine alike_bind_eq (alike_updateTuf o _) fun x => ?_
  split
  · exact alike_bind_eq (alike_when _ (alike_lift _)) fun _ => alike_pure rfl
  · exact alike_pure rfl

theorem alike_updateSnapshot (src : Source) (persist consistent : Bool) :
    Alike Eq (updateSnapshotWithRepos E D R src persist consistent)
      (updateSnapshotWithRepos o.env D R src persist consistent) := by
  unfold updateSnapshotWithRepos
  refine alike_bind alike_getTuf fun t t' ht => ?_
  have h1 := ht.timestamp
  generalize t.timestamp = x at *
  generalize t'.timestamp = y at *
  cases h1 with
  | none => exact alike_fail _
  | some r =>
    simp only [← r.snapshot.version, ← ht.snapshotVersion, ← r.snapshot.length,
      ← hashPreference_same r.snapshot.hashes]
    split
    · exact alike_pure rfl
    · refine alike_bind_eq (alike_ofExcept (sameResult_refl _)) fun av => ?_
      refine alike_bind_eq (alike_lift _) fun raw => ?_
      refine alike_bind_eq (alike_getClock R) fun clk => ?_
      refine alike_bind_eq (alike_updateTuf o _) fun x => ?_
      split
      · exact alike_bind_eq (alike_when _ (alike_lift _)) fun _ => alike_pure rfl
      · exact alike_pure rfl

theorem alike_updateTargets (src : Source) (persist consistent : Bool) :
    Alike Eq (updateTargetsWithRepos E D R src persist consistent)
      (updateTargetsWithRepos o.env D R src persist consistent) := by
  unfold updateTargetsWithRepos
  refine alike_bind alike_getTuf fun t t' ht => ?_
  have h1 := ht.snapshot
  generalize t.snapshot = x at *
  generalize t'.snapshot = y at *
  cases h1 with
  | none => exact alike_fail _
  | @some sn sn' r =>
    have hd := r.same.metas.rel (MetadataPath.fromRole .targets)
    dsimp only
    generalize sn.metas.get? (MetadataPath.fromRole .targets) = x at *
    generalize sn'.metas.get? (MetadataPath.fromRole .targets) = y at *
    cases hd with
    | none => exact alike_fail _
    | some r =>
      simp only [← r.version, ← ht.targetsVersion, ← r.length, ← hashPreference_same r.hashes]
      split
      · exact alike_pure rfl
      · refine alike_bind_eq (alike_ofExcept (sameResult_refl _)) fun av => ?_
        refine alike_bind_eq (alike_lift _) fun raw => ?_
        refine alike_bind_eq (alike_getClock R) fun clk => ?_
        refine alike_bind_eq (alike_updateTuf o _) fun x => ?_
        split
        · exact alike_bind_eq (alike_when _ (alike_lift _)) fun _ => alike_pure rfl
        · exact alike_pure rfl

theorem alike_update (cfg : Config) : Alike Eq (update E D R cfg) (update o.env D R cfg) := by
  unfold update
  refine alike_bind_eq (alike_updateRoot o D R cfg _ _) fun r => ?_
  refine alike_bind_eq (alike_updateTimestamp o D R cfg _ _) fun ts => ?_
  refine alike_bind alike_getTuf fun t t' ht => ?_
  rw [← ht.root.same.consistent]
  refine alike_bind_eq (alike_updateSnapshot o D R _ _ _) fun sn => ?_
  refine alike_bind alike_getTuf fun t t' ht => ?_
  rw [← ht.root.same.consistent]
  refine alike_bind_eq (alike_updateTargets o D R _ _ _) fun ta => ?_
  exact alike_pure rfl

theorem alike_loadLocal (cfg : Config) : Alike Eq (loadLocal E D R cfg) (loadLocal o.env D R cfg) := by
  unfold loadLocal
  refine alike_bind_eq (alike_updateRoot o D R cfg _ _) fun _ => ?_
  refine alike_bind_eq (alike_updateTimestamp o D R cfg _ _) fun _ => ?_
  refine alike_bind_eq (alike_updateSnapshot o D R _ _ _) fun _ => ?_
  exact alike_bind_eq (alike_updateTargets o D R _ _ _) fun _ => alike_pure rfl

/-- Constructions of clients that trust the same. -/
def NewAlike (a b : Except Err Tuf × Io W) : Prop := SameResult TufAlike a.1 b.1 ∧ a.2 = b.2

theorem new_same (cfg : Config) {t t' : Tuf} (h : TufAlike t t') (io : Io W) :
    NewAlike (Client.new E D R cfg t io) (Client.new o.env D R cfg t' io) := by
  have := alike_loadLocal o D R cfg ⟨t, io⟩ ⟨t', io⟩ ⟨h, rfl⟩
  unfold Client.new
  revert this
  rcases loadLocal E D R cfg ⟨t, io⟩ with ⟨x, s⟩
  rcases loadLocal o.env D R cfg ⟨t', io⟩ with ⟨y, s'⟩
  rintro ⟨h1, h2, h3⟩
  dsimp only at h1
  cases h1 with
  | ok r => exact ⟨.ok h2, h3⟩
  | error e => cases e <;> first | exact ⟨.error _, h3⟩ | exact ⟨.ok h2, h3⟩

theorem new_bind {m : M (Io W) α} {f f' : α → M (Io W) Tuf} (h : ∀ a io, NewAlike (f a io) (f' a io))
    (io : Io W) : NewAlike ((m >>= f) io) ((m >>= f') io) := by
  simp only [bind, M.bind]
  rcases m io with ⟨x, io1⟩
  cases x with
  | error e => exact ⟨.error e, rfl⟩
  | ok a => exact h a io1

theorem new_ofExcept {x y : Except Err Tuf} {f f' : Tuf → M (Io W) Tuf} (h : SameResult TufAlike x y)
    (hf : ∀ t t' io, TufAlike t t' → NewAlike (f t io) (f' t' io)) (io : Io W) :
    NewAlike ((M.ofExcept x >>= f) io) ((M.ofExcept y >>= f') io) := by
  cases h with
  | error e => exact ⟨.error e, rfl⟩
  | ok r => exact hf _ _ io r

theorem construct_same (cfg : Config) (start : Start) (io : Io W) :
    NewAlike (construct E D R cfg start io) (construct o.env D R cfg start io) := by
  cases start with
  | trustedRoot raw =>
    unfold construct withTrustedRoot
    exact new_ofExcept (fromTrustedRoot_same o raw) (fun t t' io h => new_same o D R cfg h io) io
  | trustedLocal =>
    unfold construct withTrustedLocal
    refine new_bind (fun raw => ?_) io
    exact new_ofExcept (fromTrustedRoot_same o raw) (fun t t' io h => new_same o D R cfg h io)
  | trustedRootKeys v n keys =>
    unfold construct withTrustedRootKeys
    refine new_bind (fun a => ?_) io
    refine new_ofExcept (fromRootWithTrustedKeys_same o a.2 n keys) fun t t' io h => ?_
    rw [← h.root.same.version]
    exact new_bind (fun _ io => new_same o D R cfg h io) io

/-- Related results of the lookup in the client. -/
def FoundAlike (a b : Found) : Prop := a.1 = b.1 ∧ SameResult SameTarget a.2 b.2

theorem alike_lookupLoop {rec rec' : Bool → TargetsMetadata → MetadataPath → M (St W) Found}
    (hrec : ∀ b m m' role, TargetsAlike m m' → Alike FoundAlike (rec b m role) (rec' b m' role))
    (dflt : Bool) (target : VirtualTargetPath) {sn sn' : SnapshotMetadata} (hsn : SnapshotAlike sn sn')
    (parent : MetadataPath) {ds ds' : List Delegation} (hds : List.Forall₂ SameDelegation ds ds') :
    Alike FoundAlike (lookupLoop E D R rec dflt target sn parent ds)
      (lookupLoop o.env D R rec' dflt target sn' parent ds') := by
  induction hds with
  | nil => exact alike_pure ⟨rfl, .error _⟩
  | @cons d d' ds ds' hd _ ih =>
    unfold lookupLoop
    rw [← hd.role, ← hd.terminating, ← any_members hd.paths.2.2]
    split
    · split
      · exact alike_pure ⟨rfl, .error _⟩
      · exact ih
    · have hm := hsn.same.metas.rel d.role
      generalize sn.metas.get? d.role = x at *
      generalize sn'.metas.get? d.role = y at *
      cases hm with
      | none =>
        dsimp only
        split
        · exact ih
        · exact alike_pure ⟨rfl, .error _⟩
      | @some de de' r =>
        dsimp only
        rw [← hashPreference_same r.hashes, ← r.version, ← r.length]
        cases hashPreference de.hashes with
        | error e => exact alike_pure ⟨rfl, .error _⟩
        | ok av =>
          obtain ⟨alg, value⟩ := av
          refine alike_bind alike_getTuf fun t t' ht => ?_
          rw [← ht.root.same.consistent]
          refine alike_bind (alike_attempt (alike_lift _)) fun x y hxy => ?_
          refine alike_bind (Rel := SameResult Eq) ?_ fun x y hxy => ?_
          · cases hxy with
            | error e => exact alike_attempt (alike_lift _)
            | ok r => exact alike_pure (.ok r)
          cases hxy with
          | error e =>
            dsimp only
            split
            · exact ih
            · exact alike_pure ⟨rfl, .error _⟩
          | @ok raw raw' r =>
            cases r
            refine alike_bind_eq (alike_getClock R) fun clk => ?_
            refine alike_bind (alike_attempt (alike_updateTuf o _)) fun x y hxy => ?_
            cases hxy with
            | error e =>
              dsimp only
              split
              · exact ih
              · exact alike_pure ⟨rfl, .error _⟩
            | ok _ =>
              refine alike_bind (alike_attempt (alike_lift _)) fun _ _ _ => ?_
              refine alike_bind alike_getTuf fun t t' ht => ?_
              have hm := ht.delegations.rel d.role
              generalize t.delegations.get? d.role = x at *
              generalize t'.delegations.get? d.role = y at *
              cases hm with
              | none => exact alike_fail _
              | @some m m' hm =>
                refine alike_bind (hrec d.terminating m m' d.role hm) fun a b hab => ?_
                obtain ⟨term, res⟩ := a
                obtain ⟨term', res'⟩ := b
                obtain ⟨rfl, hres⟩ : term = term' ∧ SameResult SameTarget res res' := hab
                cases hres with
                | error e =>
                  dsimp only
                  split
                  · exact alike_pure ⟨rfl, .error _⟩
                  · exact ih
                | ok _ => exact ih

theorem alike_lookupIn (target : VirtualTargetPath) {sn sn' : SnapshotMetadata} (hsn : SnapshotAlike sn sn')
    (n : Nat) : ∀ b m m' role, TargetsAlike m m' →
      Alike FoundAlike (lookupIn E D R target sn n b m role) (lookupIn o.env D R target sn' n b m' role) := by
  induction n with
  | zero => exact fun b m m' role h => alike_pure ⟨rfl, .error _⟩
  | succ n ih =>
    intro b m m' role h
    unfold lookupIn
    have ht := h.same.targets.rel target
    generalize m.targets.get? target = x at *
    generalize m'.targets.get? target = y at *
    cases ht with
    | some r => exact alike_pure ⟨rfl, .ok r⟩
    | none =>
      have hc := h.same.delegations
      dsimp only
      generalize m.delegations = x at *
      generalize m'.delegations = y at *
      cases hc with
      | none => exact alike_pure ⟨rfl, .error _⟩
      | some hc => exact alike_lookupLoop o D R ih b target hsn role hc.roles

theorem alike_description (cfg : Config) (p : TargetPath) :
    Alike SameTarget (fetchTargetDescription E D R cfg p) (fetchTargetDescription o.env D R cfg p) := by
  unfold fetchTargetDescription
  refine alike_bind_eq (alike_ofExcept (sameResult_refl _)) fun virt => ?_
  refine alike_bind alike_getTuf fun t t' ht => ?_
  have h1 := ht.snapshot
  have h2 := ht.targets
  generalize t.snapshot = x at *
  generalize t'.snapshot = y at *
  cases h1 with
  | none => exact alike_fail _
  | some hsn =>
    dsimp only
    generalize t.targets = x at *
    generalize t'.targets = y at *
    cases h2 with
    | none => exact alike_fail _
    | some hta =>
      refine alike_bind (alike_lookupIn o D R virt hsn _ _ _ _ _ hta) fun a b hab => ?_
      exact alike_ofExcept hab.2

theorem stream_same (hR : OrderBlind R.remote) (p : TargetPath) {d d' : TargetDescription}
    (h : SameTarget d d') : fetchTargetStream D R p d = fetchTargetStream D R p d' := by
  have : R.remote.fetchTarget p d = R.remote.fetchTarget p d' := funext fun w => hR p d d' w h
  unfold fetchTargetStream
  rw [hashPreference_same h.hashes, h.length, this]

theorem alike_reader (hR : OrderBlind R.remote) (cfg : Config) (p : TargetPath) :
    Alike Eq (fetchTargetReader E D R cfg p) (fetchTargetReader o.env D R cfg p) := by
  unfold fetchTargetReader
  refine alike_bind (alike_description o D R cfg p) fun d d' hd => ?_
  refine alike_bind alike_getTuf fun t t' ht => ?_
  rw [← ht.root.same.consistent]
  split
  · rw [← hashPreference_same hd.hashes]
    refine alike_bind_eq (alike_ofExcept (sameResult_refl _)) fun av => ?_
    refine alike_bind_eq (alike_ofExcept (sameResult_refl _)) fun path => ?_
    rw [← stream_same D R hR path hd]
    exact alike_lift _
  · rw [← stream_same D R hR p hd]
    exact alike_lift _

theorem alike_exec (hR : OrderBlind R.remote) (cfg : Config) (c : Call) :
    Alike SameReply (exec E D R cfg c) (exec o.env D R cfg c) := by
  cases c with
  | update =>
    unfold exec
    exact alike_bind_eq (alike_update o D R cfg) fun _ => alike_pure rfl
  | fetchTarget p =>
    unfold exec fetchTarget
    refine alike_bind_eq ?_ fun _ => alike_pure rfl
    exact alike_bind_eq (alike_reader o D R hR cfg p) fun _ => alike_lift _
  | fetchTargetToWriter p =>
    unfold exec fetchTargetToWriter
    refine alike_bind_eq ?_ fun _ => alike_pure rfl
    exact alike_bind_eq (alike_reader o D R hR cfg p) fun _ => alike_lift _
  | fetchTargetDescription p =>
    unfold exec
    exact alike_bind (alike_description o D R cfg p) fun _ _ h => alike_pure h

end

/-! ## C116 The order of hash maps does not matter to clients -/

/-- The update functions of the trusted metadata: however the hash maps are laid out, before the call
and in what the call reads, the outcome, also which error, is the same, and so is what is trusted
afterwards. -/
theorem C116_trusted_metadata {E : Env} (o : Orders E) (t t' : Tuf) (h : TufAlike t t') (op : Tuf.Op) :
    (Tuf.step E t op).1 = (Tuf.step o.env t' op).1 ∧
    TufAlike (Tuf.step E t op).2 (Tuf.step o.env t' op).2 := step_same o h op

/-- Looking up a target in the trusted metadata finds the same description, or fails with the same
error. -/
theorem C116_descriptions (t t' : Tuf) (h : TufAlike t t') (clk : Clock) (p : VirtualTargetPath) :
    SameResult SameTarget (t.targetDescription clk p) (t'.targetDescription clk p) :=
  targetDescription_same h clk p

/-- A client makes the same requests of the world, in the same order, stores the same documents,
returns the same and trusts the same afterwards. -/
theorem C116_calls {W : Type} {E : Env} (o : Orders E) (D : Digest) (R : World W)
    (hR : OrderBlind R.remote) (cfg : Config) (c : Call) (t t' : Tuf) (h : TufAlike t t') (io : Io W) :
    SameResult SameReply (exec E D R cfg c ⟨t, io⟩).1 (exec o.env D R cfg c ⟨t', io⟩).1 ∧
    TufAlike (exec E D R cfg c ⟨t, io⟩).2.tuf (exec o.env D R cfg c ⟨t', io⟩).2.tuf ∧
    (exec E D R cfg c ⟨t, io⟩).2.io = (exec o.env D R cfg c ⟨t', io⟩).2.io :=
  alike_exec o D R hR cfg c ⟨t, io⟩ ⟨t', io⟩ ⟨h, rfl⟩

/-- The same holds for the construction of a client. -/
theorem C116_construction {W : Type} {E : Env} (o : Orders E) (D : Digest) (R : World W) (cfg : Config)
    (start : Start) (io : Io W) :
    SameResult TufAlike (construct E D R cfg start io).1 (construct o.env D R cfg start io).1 ∧
    (construct E D R cfg start io).2 = (construct o.env D R cfg start io).2 :=
  construct_same o D R cfg start io

/-- And for any sequence of calls, even if the hash maps are laid out differently in each of them. -/
theorem C116_sessions {W : Type} {E : Env} (D : Digest) (R : World W) (hR : OrderBlind R.remote)
    (cfg : Config) (cs : List (Orders E × Call)) (t t' : Tuf) (h : TufAlike t t') (io : Io W) :
    List.Forall₂ (SameResult SameReply) (replies E D R cfg ⟨t, io⟩ (cs.map Prod.snd)).1
      (repliesIn D R cfg ⟨t', io⟩ cs).1 ∧
    TufAlike (replies E D R cfg ⟨t, io⟩ (cs.map Prod.snd)).2.tuf (repliesIn D R cfg ⟨t', io⟩ cs).2.tuf ∧
    (replies E D R cfg ⟨t, io⟩ (cs.map Prod.snd)).2.io = (repliesIn D R cfg ⟨t', io⟩ cs).2.io := by
  induction cs generalizing t t' io with
  | nil => exact ⟨.nil, h, rfl⟩
  | cons oc cs ih =>
    obtain ⟨o, c⟩ := oc
    obtain ⟨h1, h2, h3⟩ := C116_calls o D R hR cfg c t t' h io
    simp only [List.map_cons, replies, repliesIn]
    generalize exec E D R cfg c ⟨t, io⟩ = x at *
    generalize exec o.env D R cfg c ⟨t', io⟩ = y at *
    obtain ⟨x, t1, io1⟩ := x
    obtain ⟨y, t1', io1'⟩ := y
    obtain rfl : io1 = io1' := h3
    obtain ⟨g1, g2, g3⟩ := ih t1 t1' h2 io1
    exact ⟨.cons h1 g1, g2, g3⟩

/-! ### Documents -/

theorem Spec.SameMap.symmEq {K V : Type} [DecidableEq K] {a b : Map K V} (h : SameMap Eq a b) :
    SameMap Eq b a :=
  .of_rel fun k => by
    rw [h.eq]
    cases b.get? k
    · exact .none
    · exact .some rfl

theorem keyMap_same {a b : Map KeyId PublicKey} (h : SameMap Eq a b) (ha : KeyMap a) (hb : MapLike b) :
    KeyMap b := by
  refine ⟨hb, fun p hp q hq e => ha.one p ?_ q ?_ e⟩
  · exact Map.mem_of_get? (by rw [h.eq]; exact Map.get?_of_mem_nodup hb hp)
  · exact Map.mem_of_get? (by rw [h.eq]; exact Map.get?_of_mem_nodup hb hq)

theorem sameResult_imp {α : Type} {Rel Rel' : α → α → Prop} {x y : Except Err α} (h : SameResult Rel x y)
    (himp : ∀ a b, x = .ok a → y = .ok b → Rel a b → Rel' a b) : SameResult Rel' x y := by
  cases h with
  | error e => exact .error e
  | ok r => exact .ok (himp _ _ rfl rfl r)

/-- For documents in JSON the conditions on layouts come for free: `o` may be made of any functions that
give what the documents say with hash maps in another order. (Only targets metadata that lists two
keys with the same ID has to be left alone.) -/
theorem C116_json (X : ShimLib) (rv : Scheme → Bytes → Bytes → Bytes → Bool)
    (order order' : Map KeyId Signature → List (KeyId × Signature)) (ho : ∀ m, (order m).Perm m)
    (ho' : ∀ m, (order' m).Perm m) (root : Bytes → Except Err RootMetadata)
    (timestamp : Bytes → Except Err TimestampMetadata) (snapshot : Bytes → Except Err SnapshotMetadata)
    (targets : Bytes → Except Err TargetsMetadata) (rootOfRaw : JsonValue → Except Err RootMetadata)
    (h1 : Relaid SameRoot RootMaps (fromSlice X.float (decodeRoot X)) root)
    (h2 : Relaid SameTimestamp TimestampMaps (fromSlice X.float (decodeTimestamp X)) timestamp)
    (h3 : Relaid SameSnapshot SnapshotMaps (fromSlice X.float (decodeSnapshot X)) snapshot)
    (h4 : Relaid SameTargets TargetsMaps (fromSlice X.float (decodeTargets X)) targets)
    (h5 : Relaid SameRoot RootMaps (fun v : JsonValue => fromValue (decodeRoot X) v.1) rootOfRaw)
    (hclash : ∀ b m, fromSlice X.float (decodeTargets X) b = .ok m → Clash m → targets b = .ok m) :
    ∃ o : Orders (jsonEnv X rv order ho), o.root = root ∧ o.timestamp = timestamp ∧ o.snapshot = snapshot ∧
      o.targets = targets ∧ o.rootOfRaw = rootOfRaw ∧ o.sigOrder = order' := by
  have hroot : ∀ {j : Json} {r r' : RootMetadata}, decodeRoot X j = some r → SameRoot r r' ∧ RootMaps r' →
      RootAlike r r' := by
    intro j r r' hd h
    have g := decodeRoot_some hd
    have hk : KeyMap r.keys := by
      refine ⟨g.keys, fun p hp q hq e => ?_⟩
      have h1 := Map.get?_of_mem_nodup g.keys (k := p.1) (v := p.2) hp
      have h2 := Map.get?_of_mem_nodup g.keys (k := q.1) (v := q.2) hq
      rw [g.own p hp, e, ← g.own q hq, h2] at h1
      exact (Option.some.inj h1).symm
    exact ⟨h.1, .inr ⟨h.1.keys, hk, keyMap_same h.1.keys hk h.2⟩⟩
  refine ⟨⟨root, timestamp, snapshot, targets, rootOfRaw, order', ho', ?_, ?_, ?_, ?_, ?_⟩,
    rfl, rfl, rfl, rfl, rfl, rfl⟩
  · refine fun b => sameResult_imp (h1 b) fun r r' e _ h => ?_
    obtain ⟨j, _, hj⟩ := fromSlice_ok e
    exact hroot hj h
  · exact fun b => sameResult_imp (h2 b) fun _ _ _ _ h => h.1
  · refine fun b => sameResult_imp (h3 b) fun m m' e _ h => ?_
    obtain ⟨j, _, hj⟩ := fromSlice_ok e
    exact ⟨h.1, (decodeSnapshot_some hj).1.nodup, h.2.metas⟩
  · refine fun b => sameResult_imp (h4 b) fun m m' e e' h => ?_
    obtain ⟨j, _, hj⟩ := fromSlice_ok e
    refine ⟨h.1, fun d d' hd hd' => ?_⟩
    by_cases hc : Clash m
    · have := hclash b m e hc
      rw [e'] at this
      cases this
      rw [hd] at hd'
      cases hd'
      exact .inl rfl
    · have hs := h.1.delegations
      rw [hd, hd'] at hs
      cases hs with
      | some hs =>
        have hk : KeyMap d.keys := by
          refine ⟨((decodeTargets_some hj).1.delegations d hd).keys, fun p hp q hq e => ?_⟩
          by_contra hne
          exact hc ⟨d, hd, p, hp, q, hq, e, hne⟩
        exact .inr ⟨hs.keys, hk, keyMap_same hs.keys hk (h.2.keys d' hd')⟩
  · refine fun b => sameResult_imp (h5 b) fun r r' e _ h => ?_
    exact hroot (fromValue_ok e) h

/-- Targets metadata that lists two keys with the same ID exhibits a SHA-256 collision. -/
theorem C116_clash_is_collision (X : ShimLib) (L : Laws X) (j : Json) (m : TargetsMetadata)
    (h : decodeTargets X j = some m) (hc : Clash m) :
    ∃ d, m.delegations = some d ∧ ∃ p ∈ d.keys, ∃ q ∈ d.keys, Collide X p.2 q.2 := by
  obtain ⟨d, hd, p, hp, q, hq, e, hne⟩ := hc
  refine ⟨d, hd, p, hp, q, hq, ?_⟩
  rcases C76_listed_keys X L p.2 q.2 (.delegations j m d p.1 p.2 h hd hp)
    (.delegations j m d q.1 q.2 h hd hq) e with h | h
  · exact absurd h hne
  · exact h

end RustTuf

namespace RustTuf.OrdersExample
open Spec Client Props

theorem sameMap_rev {K V : Type} [DecidableEq K] {R : V → V → Prop} {m : Map K V} (f : V → V)
    (hm : MapLike m) (hR : ∀ p ∈ m, R p.2 (f p.2)) :
    SameMap R m ((m.map fun p => (p.1, f p.2)).reverse) ∧ MapLike ((m.map fun p => (p.1, f p.2)).reverse) := by
  have hm' : MapLike ((m.map fun p => (p.1, f p.2)).reverse) := by
    have : ((m.map fun p => (p.1, f p.2)).reverse.map Prod.fst) = (m.map Prod.fst).reverse := by
      rw [List.map_reverse, List.map_map]
      rfl
    unfold MapLike
    rw [this]
    exact List.nodup_reverse.2 hm
  refine ⟨⟨fun k v h => ?_, fun k h => ?_⟩, hm'⟩
  · have := Map.mem_of_get? h
    refine ⟨f v, Map.get?_of_mem_nodup hm' (List.mem_reverse.2 (List.mem_map.2 ⟨(k, v), this, rfl⟩)), hR _ this⟩
  · rw [Map.get?_eq_none_iff] at h ⊢
    intro v hv
    obtain ⟨p, hp, e⟩ := List.mem_map.1 (List.mem_reverse.1 hv)
    cases e
    exact h p.2 hp

theorem sameEq_rev {K V : Type} [DecidableEq K] {m : Map K V} (hm : MapLike m) :
    SameMap Eq m m.reverse ∧ MapLike m.reverse := by
  have := sameMap_rev (R := Eq) id hm fun _ _ => rfl
  simpa using this

theorem sameSet_rev {α : Type} {l : List α} (h : l.Nodup) : SameSet l l.reverse :=
  ⟨List.nodup_reverse.2 h, by simp, by simp⟩

/-! All hash maps the other way round. -/

def revRoot (r : RootMetadata) : RootMetadata := { r with keys := r.keys.reverse }

def revDescr (d : MetadataDescription) : MetadataDescription := { d with hashes := d.hashes.reverse }

def revTimestamp (m : TimestampMetadata) : TimestampMetadata := { m with snapshot := revDescr m.snapshot }

def revSnapshot (m : SnapshotMetadata) : SnapshotMetadata :=
  { m with metas := (m.metas.map fun p => (p.1, revDescr p.2)).reverse }

def revTarget (d : TargetDescription) : TargetDescription :=
  { d with hashes := d.hashes.reverse, custom := d.custom.map List.reverse }

def revDelegation (d : Delegation) : Delegation :=
  { d with keyIds := d.keyIds.reverse, paths := d.paths.reverse }

def revDelegations (d : Delegations) : Delegations := ⟨d.keys.reverse, d.roles.map revDelegation⟩

def revTargets (m : TargetsMetadata) : TargetsMetadata :=
  { m with
    targets := (m.targets.map fun p => (p.1, revTarget p.2)).reverse
    delegations := m.delegations.map revDelegations }

theorem revRoot_same {r : RootMetadata} (h : RootMaps r) : SameRoot r (revRoot r) ∧ RootMaps (revRoot r) :=
  ⟨⟨rfl, rfl, rfl, (sameEq_rev h).1, rfl, rfl, rfl, rfl⟩, (sameEq_rev h).2⟩

theorem revDescr_same {d : MetadataDescription} (h : MapLike d.hashes) : SameDescription d (revDescr d) :=
  ⟨rfl, rfl, (sameEq_rev h).1⟩

theorem revTimestamp_same {m : TimestampMetadata} (h : TimestampMaps m) :
    SameTimestamp m (revTimestamp m) ∧ TimestampMaps (revTimestamp m) :=
  ⟨⟨rfl, rfl, revDescr_same h⟩, (sameEq_rev h).2⟩

theorem revSnapshot_same {m : SnapshotMetadata} (h : SnapshotMaps m) :
    SameSnapshot m (revSnapshot m) ∧ SnapshotMaps (revSnapshot m) := by
  have := sameMap_rev (R := SameDescription) revDescr h.metas fun p hp => revDescr_same (h.hashes p hp)
  refine ⟨⟨rfl, rfl, this.1⟩, this.2, ?_⟩
  intro p hp
  obtain ⟨q, hq, rfl⟩ := List.mem_map.1 (List.mem_reverse.1 hp)
  exact (sameEq_rev (h.hashes q hq)).2

theorem revTargets_same {m : TargetsMetadata} (h : TargetsMaps m) :
    SameTargets m (revTargets m) ∧ TargetsMaps (revTargets m) := by
  have hc : ∀ p ∈ m.targets, SameCustom p.2.custom (p.2.custom.map List.reverse) := by
    intro p hp
    have := h.custom p hp
    cases e : p.2.custom with
    | none => exact trivial
    | some c => exact (sameEq_rev (this c e)).1
  have ht := sameMap_rev (R := SameTarget) revTarget h.targets fun p hp =>
    ⟨rfl, (sameEq_rev (h.hashes p hp)).1, hc p hp⟩
  refine ⟨⟨rfl, rfl, ht.1, ?_⟩, ⟨ht.2, ?_, ?_, ?_, ?_⟩⟩
  · have hk := h.keys
    have hs := h.sets
    unfold revTargets
    dsimp only
    cases e : m.delegations with
    | none => exact .none
    | some d =>
      refine .some ⟨(sameEq_rev (hk d e)).1, ?_⟩
      have hs := hs d e
      unfold revDelegations
      dsimp only
      generalize d.roles = l at *
      induction l with
      | nil => exact .nil
      | cons x l ih =>
        refine .cons ⟨rfl, rfl, rfl, sameSet_rev (hs x (.head _)).1, sameSet_rev (hs x (.head _)).2⟩ ?_
        exact ih fun r hr => hs r (.tail _ hr)
  · intro p hp
    obtain ⟨q, hq, rfl⟩ := List.mem_map.1 (List.mem_reverse.1 hp)
    exact (sameEq_rev (h.hashes q hq)).2
  · intro p hp c e
    obtain ⟨q, hq, rfl⟩ := List.mem_map.1 (List.mem_reverse.1 hp)
    obtain ⟨c', e', rfl⟩ := Option.map_eq_some_iff.1 e
    exact (sameEq_rev (h.custom q hq c' e')).2
  · intro d e
    obtain ⟨d', e', rfl⟩ := Option.map_eq_some_iff.1 e
    exact (sameEq_rev (h.keys d' e')).2
  · intro d e r hr
    obtain ⟨d', e', rfl⟩ := Option.map_eq_some_iff.1 e
    obtain ⟨r', hr', rfl⟩ := List.mem_map.1 hr
    exact ⟨List.nodup_reverse.2 (h.sets d' e' r' hr').1, List.nodup_reverse.2 (h.sets d' e' r' hr').2⟩

/-- The condition on the repository is met by the one of the library. -/
example {O : Type} (h : HttpRepository) (net : Network O) : OrderBlind (h.provider net) :=
  fun _ _ _ _ _ => rfl

/-- What was read, turned round. -/
theorem relaid_map {α β : Type} {Same : α → α → Prop} {Maps : α → Prop} {f : β → Except Err α}
    {g : α → α} (h : ∀ b a, f b = .ok a → Same a (g a) ∧ Maps (g a)) :
    Relaid Same Maps f (fun b => (f b).map g) := by
  intro b
  have := h b
  dsimp only
  generalize f b = x at *
  cases x with
  | error e => exact .error e
  | ok a => exact .ok (this a rfl)

theorem decodeTargets_maps {X : ShimLib} {j : Json} {m : TargetsMetadata} (h : decodeTargets X j = some m) :
    TargetsMaps m := by
  have g := (decodeTargets_some h).1
  refine ⟨g.nodup, fun p hp => (g.targets p hp).hashes.nodup, ?_, fun d e => (g.delegations d e).keys,
    fun d e r hr => ⟨((g.delegations d e).roles r hr).role.nodup, ((g.delegations d e).roles r hr).nodup⟩⟩
  unfold decodeTargets at h
  simp only [Option.bind_eq_bind, Option.bind_eq_some_iff] at h
  obtain ⟨_, _, ts, ht, ds, hds, ⟨v, t⟩, hh, h⟩ := h
  cases h
  obtain ⟨_, _, ht⟩ := field_some ht
  intro p hp c e
  obtain ⟨_, _, e'⟩ := (asMap_some ht).2 p hp
  exact (decodeTargetDescription_custom e' c e).1

/-- All hash maps in all documents can be turned round. -/
example (X : ShimLib) (L : Laws X) (rv : Scheme → Bytes → Bytes → Bytes → Bool)
    (hX : ∀ k k', ¬Collide X k k') :
    ∃ o : Orders (jsonEnv X rv id fun _ => .refl _),
      (∀ b, o.root b = (fromSlice X.float (decodeRoot X) b).map revRoot) ∧
      (∀ b, o.targets b = (fromSlice X.float (decodeTargets X) b).map revTargets) ∧
      o.sigOrder = List.reverse := by
  obtain ⟨o, h1, -, -, h4, -, h6⟩ := C116_json X rv id List.reverse (fun _ => .refl _)
    (fun m => List.reverse_perm m) _ _ _ _ _
    (relaid_map (g := revRoot) fun b a e => by
      obtain ⟨j, _, hj⟩ := fromSlice_ok e
      exact revRoot_same (decodeRoot_some hj).keys)
    (relaid_map (g := revTimestamp) fun b a e => by
      obtain ⟨j, _, hj⟩ := fromSlice_ok e
      exact revTimestamp_same (decodeTimestamp_some hj).snapshot.hashes.nodup)
    (relaid_map (g := revSnapshot) fun b a e => by
      obtain ⟨j, _, hj⟩ := fromSlice_ok e
      have g := (decodeSnapshot_some hj).1
      exact revSnapshot_same ⟨g.nodup, fun p hp => (g.metas p hp).hashes.nodup⟩)
    (relaid_map (g := revTargets) fun b a e => by
      obtain ⟨j, _, hj⟩ := fromSlice_ok e
      exact revTargets_same (decodeTargets_maps hj))
    (relaid_map (g := revRoot) fun b a e => revRoot_same (decodeRoot_some (fromValue_ok e)).keys)
    (fun b m e hc => by
      obtain ⟨j, _, hj⟩ := fromSlice_ok e
      obtain ⟨_, _, p, _, q, _, h⟩ := C116_clash_is_collision X L j m hj hc
      exact absurd h (hX _ _))
  exact ⟨o, fun b => by rw [h1], fun b => by rw [h4], h6⟩

/-- A document that is indeed laid out differently. -/
example : revRoot (Toy.root 1 100) ≠ Toy.root 1 100 := by decide

end RustTuf.OrdersExample
