import Verif.Spec.Builders
import Verif.Props.Publish
import Verif.Lemmas.Map
import Mathlib.Data.List.Induction

/-!
# C77: builders make what they are asked for
-/

namespace RustTuf.Props
open Spec RustTuf Json

/-! ### Root -/

/-- The state of a builder after some calls. -/
structure Holds (t : Time) (cs : List RootCall) (b : RootBuilder) : Prop where
  version : b.version = lastArg RootCall.version? 1 cs
  expires : b.expires = lastArg RootCall.expires? t cs
  consistent : b.consistentSnapshot = lastArg RootCall.consistent? false cs
  root : b.rootThreshold = askedThreshold .root cs ∧
    b.rootKeyIds = (askedKeys .root cs).map PublicKey.keyId
  snapshot : b.snapshotThreshold = askedThreshold .snapshot cs ∧
    b.snapshotKeyIds = (askedKeys .snapshot cs).map PublicKey.keyId
  targets : b.targetsThreshold = askedThreshold .targets cs ∧
    b.targetsKeyIds = (askedKeys .targets cs).map PublicKey.keyId
  timestamp : b.timestampThreshold = askedThreshold .timestamp cs ∧
    b.timestampKeyIds = (askedKeys .timestamp cs).map PublicKey.keyId
  keys : ∀ id, b.keys.get? id =
    ((cs.filterMap RootCall.key?).filter fun k => decide (k.keyId = id)).getLast?
  nodup : (b.keys.map Prod.fst).Nodup
  own : ∀ p ∈ b.keys, p.1 = p.2.keyId ∧ p.2 ∈ cs.filterMap RootCall.key?

theorem lastArg_append {C α : Type} (pick : C → Option α) (d : α) (cs : List C) (c : C) :
    lastArg pick d (cs ++ [c]) = (pick c).getD (lastArg pick d cs) := by
  unfold lastArg
  cases h : pick c with
  | none => simp [List.filterMap_append, h]
  | some a => simp [List.filterMap_append, h]

theorem askedKeys_append (role : Role) (cs : List RootCall) (c : RootCall) :
    (askedKeys role (cs ++ [c])).map PublicKey.keyId = (askedKeys role cs).map PublicKey.keyId ++
      ((RootCall.keyOf? role c).map PublicKey.keyId).toList := by
  unfold askedKeys
  rw [List.filterMap_append, List.map_append]
  cases h : RootCall.keyOf? role c <;> simp [h]

theorem askedThreshold_append (role : Role) (cs : List RootCall) (c : RootCall) :
    askedThreshold role (cs ++ [c]) = (RootCall.threshold? role c).getD (askedThreshold role cs) :=
  lastArg_append _ _ _ _

theorem Holds.step {t : Time} {cs : List RootCall} {b : RootBuilder} (h : Holds t cs b) (c : RootCall) :
    Holds t (cs ++ [c]) (b.call c) := by
  obtain ⟨h1, h2, h3, ⟨h4, h4'⟩, ⟨h5, h5'⟩, ⟨h6, h6'⟩, ⟨h7, h7'⟩, h8, h9, h10⟩ := h
  have same : RootCall.key? c = none → (cs ++ [c]).filterMap RootCall.key? = cs.filterMap RootCall.key? := by
    intro e; simp [List.filterMap_append, e]
  cases c with
  | key r k =>
    have hk : ∀ id, (b.keys.insert k.keyId k).get? id =
        (((cs ++ [RootCall.key r k]).filterMap RootCall.key?).filter
          fun k => decide (k.keyId = id)).getLast? := by
      intro id
      rw [List.filterMap_append, List.filter_append]
      by_cases hid : k.keyId = id
      · subst hid
        rw [Map.get?_insert, if_pos rfl]
        simp [RootCall.key?]
      · rw [Map.get?_insert, if_neg (Ne.symm hid), h8 id]
        simp [RootCall.key?, hid]
    have hn : ((b.keys.insert k.keyId k).map Prod.fst).Nodup := Map.nodup_keys_insert h9 _ _
    have ho : ∀ p ∈ b.keys.insert k.keyId k,
        p.1 = p.2.keyId ∧ p.2 ∈ (cs ++ [RootCall.key r k]).filterMap RootCall.key? := by
      intro p hp
      simp only [Map.insert, List.mem_cons] at hp
      rcases hp with rfl | hp
      · exact ⟨rfl, by simp [List.filterMap_append, RootCall.key?]⟩
      · obtain ⟨g1, g2⟩ := h10 p (List.mem_filter.1 hp).1
        exact ⟨g1, by rw [List.filterMap_append]; exact List.mem_append_left _ g2⟩
    cases r
    all_goals
      refine ⟨?_, ?_, ?_, ⟨?_, ?_⟩, ⟨?_, ?_⟩, ⟨?_, ?_⟩, ⟨?_, ?_⟩, hk, hn, ho⟩
    all_goals
      simp only [RootBuilder.call, RootBuilder.addKey, lastArg_append, askedThreshold_append,
        askedKeys_append, RootCall.version?, RootCall.expires?, RootCall.consistent?,
        RootCall.threshold?, RootCall.keyOf?, h1, h2, h3, h4, h4', h5, h5', h6, h6', h7, h7', reduceCtorEq,
        if_true, if_false, Option.map_some, Option.map_none, Option.toList, List.append_nil,
        Option.getD_none]
  | threshold r n =>
    cases r
    all_goals
      refine ⟨?_, ?_, ?_, ⟨?_, ?_⟩, ⟨?_, ?_⟩, ⟨?_, ?_⟩, ⟨?_, ?_⟩, ?_, ?_, ?_⟩
    all_goals
      first
      | simp only [RootBuilder.call, RootBuilder.setThreshold, lastArg_append, askedThreshold_append,
          askedKeys_append, RootCall.version?, RootCall.expires?, RootCall.consistent?,
          RootCall.threshold?, RootCall.keyOf?, h1, h2, h3, h4, h4', h5, h5', h6, h6', h7, h7', reduceCtorEq,
          if_true, if_false, Option.map_none, Option.toList, List.append_nil,
          Option.getD_none, Option.getD_some]
        done
      | (rw [same rfl]; assumption)
      | exact h9
  | version n =>
    refine ⟨?_, ?_, ?_, ⟨?_, ?_⟩, ⟨?_, ?_⟩, ⟨?_, ?_⟩, ⟨?_, ?_⟩, ?_, ?_, ?_⟩
    all_goals
      first
      | simp only [RootBuilder.call, RootBuilder.setVersion, lastArg_append, askedThreshold_append,
          askedKeys_append, RootCall.version?, RootCall.expires?, RootCall.consistent?,
          RootCall.threshold?, RootCall.keyOf?, h1, h2, h3, h4, h4', h5, h5', h6, h6', h7, h7',
          Option.map_none, Option.toList, List.append_nil, Option.getD_none, Option.getD_some]
        done
      | (rw [same rfl]; assumption)
      | exact h9
  | expires n =>
    refine ⟨?_, ?_, ?_, ⟨?_, ?_⟩, ⟨?_, ?_⟩, ⟨?_, ?_⟩, ⟨?_, ?_⟩, ?_, ?_, ?_⟩
    all_goals
      first
      | simp only [RootBuilder.call, RootBuilder.setExpires, lastArg_append, askedThreshold_append,
          askedKeys_append, RootCall.version?, RootCall.expires?, RootCall.consistent?,
          RootCall.threshold?, RootCall.keyOf?, h1, h2, h3, h4, h4', h5, h5', h6, h6', h7, h7',
          Option.map_none, Option.toList, List.append_nil, Option.getD_none, Option.getD_some]
        done
      | (rw [same rfl]; assumption)
      | exact h9
  | consistentSnapshot n =>
    refine ⟨?_, ?_, ?_, ⟨?_, ?_⟩, ⟨?_, ?_⟩, ⟨?_, ?_⟩, ⟨?_, ?_⟩, ?_, ?_, ?_⟩
    all_goals
      first
      | simp only [RootBuilder.call, RootBuilder.setConsistentSnapshot, lastArg_append,
          askedThreshold_append, askedKeys_append, RootCall.version?, RootCall.expires?,
          RootCall.consistent?, RootCall.threshold?, RootCall.keyOf?, h1, h2, h3, h4, h4', h5, h5', h6,
          h6', h7, h7', Option.map_none, Option.toList, List.append_nil, Option.getD_none,
          Option.getD_some]
        done
      | (rw [same rfl]; assumption)
      | exact h9

theorem holds (t : Time) (cs : List RootCall) : Holds t cs ((RootBuilder.new t).calls cs) := by
  induction cs using List.reverseRecOn with
  | nil =>
    constructor
    all_goals simp [RootBuilder.calls, RootBuilder.new, lastArg, askedThreshold, askedKeys]
  | append_singleton cs c ih =>
    have e : (RootBuilder.new t).calls (cs ++ [c]) = ((RootBuilder.new t).calls cs).call c := by
      simp [RootBuilder.calls]
    rw [e]
    exact ih.step c

theorem roleDefinition_new (n : Nat) (ids : List KeyId) :
    (1 ≤ n ∧ n ≤ ids.length → RoleDefinition.new n ids = .ok ⟨n, ids⟩) ∧
    (¬ (1 ≤ n ∧ n ≤ ids.length) → RoleDefinition.new n ids = .error .illegalArgument) := by
  unfold RoleDefinition.new
  constructor
  · rintro ⟨h1, h2⟩
    rw [if_neg (by omega), if_neg, if_neg (by omega)]
    cases ids with
    | nil => simp at h2; omega
    | cons _ _ => simp
  · intro h
    split
    · rfl
    · split
      · rfl
      · rw [if_pos (by omega)]

theorem roleDefinition_ok {n : Nat} {ids : List KeyId} {d : RoleDefinition}
    (h : RoleDefinition.new n ids = .ok d) : d = ⟨n, ids⟩ ∧ 1 ≤ n ∧ n ≤ ids.length := by
  by_cases hc : 1 ≤ n ∧ n ≤ ids.length
  · rw [(roleDefinition_new n ids).1 hc] at h
    cases h
    exact ⟨rfl, hc⟩
  · rw [(roleDefinition_new n ids).2 hc] at h
    cases h

theorem rootBuild_ok {b : RootBuilder} {r : RootMetadata} : b.build = .ok r ↔
    (1 ≤ b.version ∧ (1 ≤ b.rootThreshold ∧ b.rootThreshold ≤ b.rootKeyIds.length) ∧
      (1 ≤ b.snapshotThreshold ∧ b.snapshotThreshold ≤ b.snapshotKeyIds.length) ∧
      (1 ≤ b.targetsThreshold ∧ b.targetsThreshold ≤ b.targetsKeyIds.length) ∧
      (1 ≤ b.timestampThreshold ∧ b.timestampThreshold ≤ b.timestampKeyIds.length)) ∧
    r = ⟨b.version, b.expires, b.consistentSnapshot, b.keys, ⟨b.rootThreshold, b.rootKeyIds⟩,
      ⟨b.snapshotThreshold, b.snapshotKeyIds⟩, ⟨b.targetsThreshold, b.targetsKeyIds⟩,
      ⟨b.timestampThreshold, b.timestampKeyIds⟩⟩ := by
  constructor
  · intro h
    unfold RootBuilder.build at h
    simp only [bind, Except.bind] at h
    repeat' split at h
    all_goals cases h
    rename_i h1 _ _ h2 _ _ h3 _ _ h4 hv
    obtain ⟨rfl, a1⟩ := roleDefinition_ok h1
    obtain ⟨rfl, a2⟩ := roleDefinition_ok h2
    obtain ⟨rfl, a3⟩ := roleDefinition_ok h3
    obtain ⟨rfl, a4⟩ := roleDefinition_ok h4
    exact ⟨⟨by omega, a1, a2, a3, a4⟩, rfl⟩
  · rintro ⟨⟨h0, h1, h2, h3, h4⟩, rfl⟩
    unfold RootBuilder.build
    rw [(roleDefinition_new _ _).1 h1, (roleDefinition_new _ _).1 h2, (roleDefinition_new _ _).1 h3,
      (roleDefinition_new _ _).1 h4]
    simp only [bind, Except.bind]
    rw [if_neg (by omega)]

/-- **C77.** A chain of calls on a new root builder, in any order and with any repetitions, builds
the root that was asked for. -/
theorem C77_root_is_as_asked (t : Time) (cs : List RootCall) (r : RootMetadata)
    (h : ((RootBuilder.new t).calls cs).build = .ok r) : AskedRoot t cs r := by
  have H := holds t cs
  obtain ⟨_, rfl⟩ := rootBuild_ok.1 h
  refine ⟨H.version, H.expires, H.consistent, ?_, H.keys⟩
  intro role
  cases role
  · exact congrArg₂ RoleDefinition.mk H.root.1 H.root.2
  · exact congrArg₂ RoleDefinition.mk H.snapshot.1 H.snapshot.2
  · exact congrArg₂ RoleDefinition.mk H.targets.1 H.targets.2
  · exact congrArg₂ RoleDefinition.mk H.timestamp.1 H.timestamp.2

/-- **C77.** It builds exactly if the version asked for is positive and every threshold lies between
1 and the number of keys added for the role. -/
theorem C77_root_builds_iff (t : Time) (cs : List RootCall) :
    (∃ r, ((RootBuilder.new t).calls cs).build = .ok r) ↔
      1 ≤ lastArg RootCall.version? 1 cs ∧
      ∀ role, 1 ≤ askedThreshold role cs ∧ askedThreshold role cs ≤ (askedKeys role cs).length := by
  have H := holds t cs
  constructor
  · rintro ⟨r, h⟩
    obtain ⟨⟨h0, h1, h2, h3, h4⟩, _⟩ := rootBuild_ok.1 h
    rw [H.version] at h0
    rw [H.root.1, H.root.2, List.length_map] at h1
    rw [H.snapshot.1, H.snapshot.2, List.length_map] at h2
    rw [H.targets.1, H.targets.2, List.length_map] at h3
    rw [H.timestamp.1, H.timestamp.2, List.length_map] at h4
    refine ⟨h0, fun role => ?_⟩
    cases role
    all_goals assumption
  · rintro ⟨h0, h⟩
    have a1 := h .root
    have a2 := h .snapshot
    have a3 := h .targets
    have a4 := h .timestamp
    refine ⟨_, rootBuild_ok.2 ⟨⟨by rw [H.version]; exact h0, ?_, ?_, ?_, ?_⟩, rfl⟩⟩
    · rw [H.root.1, H.root.2, List.length_map]; exact a1
    · rw [H.snapshot.1, H.snapshot.2, List.length_map]; exact a2
    · rw [H.targets.1, H.targets.2, List.length_map]; exact a3
    · rw [H.timestamp.1, H.timestamp.2, List.length_map]; exact a4

theorem lastArg_mem {C α : Type} (pick : C → Option α) (d : α) (cs : List C) :
    lastArg pick d cs = d ∨ ∃ c ∈ cs, pick c = some (lastArg pick d cs) := by
  unfold lastArg
  cases h : (cs.filterMap pick).getLast? with
  | none => exact .inl rfl
  | some a =>
    obtain ⟨c, hc, e⟩ := List.mem_filterMap.1 (List.mem_of_getLast? h)
    exact .inr ⟨c, hc, e⟩

/-- **C77.** A root built from good keys, no key twice in the same role, can be published. -/
theorem C77_built_root_is_publishable (X : ShimLib) (t : Time) (cs : List RootCall) (r : RootMetadata)
    (h : ((RootBuilder.new t).calls cs).build = .ok r)
    (hfit : ∀ c ∈ cs, RootCall.Fits c)
    (hkeys : ∀ k ∈ cs.filterMap RootCall.key?, IsKeyId k.keyId ∧ GoodKey X k)
    (hdate : GoodDate X r.expires) (hd : DistinctIds r) : PublishableRoot X r := by
  have A := C77_root_is_as_asked t cs r h
  have H := holds t cs
  obtain ⟨⟨h0, h1, h2, h3, h4⟩, e⟩ := rootBuild_ok.1 h
  have ids : ∀ role, ∀ i ∈ (askedKeys role cs).map PublicKey.keyId, IsKeyId i := by
    intro role i hi
    obtain ⟨k, hk, rfl⟩ := List.mem_map.1 hi
    obtain ⟨c, hc, e⟩ := List.mem_filterMap.1 hk
    refine (hkeys k (List.mem_filterMap.2 ⟨c, hc, ?_⟩)).1
    cases c with
    | key r' k' =>
      simp only [RootCall.keyOf?] at e
      split at e
      · exact e
      · cases e
    | _ => cases e
  have small : ∀ role, askedThreshold role cs < 2 ^ 32 := by
    intro role
    rcases lastArg_mem (RootCall.threshold? role) 1 cs with e | ⟨c, hc, e⟩
    · unfold askedThreshold; rw [e]; decide
    · have := hfit c hc
      cases c with
      | threshold r' n =>
        simp only [RootCall.threshold?] at e
        split at e
        · have e := Option.some.inj e
          unfold askedThreshold; rw [← e]; exact this
        · cases e
      | _ => cases e
  have vsmall : lastArg RootCall.version? 1 cs < 2 ^ 32 := by
    rcases lastArg_mem RootCall.version? 1 cs with e | ⟨c, hc, e⟩
    · rw [e]; decide
    · have := hfit c hc
      cases c with
      | version n =>
        have e := Option.some.inj e
        rw [← e]; exact this
      | _ => cases e
  have bounds := (C77_root_builds_iff t cs).1 ⟨r, h⟩
  have role : ∀ role, GoodRole (roleOf r role).threshold (roleOf r role).keyIds := by
    intro role
    have hn := hd role
    rw [A.roles role] at hn ⊢
    exact ⟨(bounds.2 role).1, by simpa using (bounds.2 role).2, hn, ids role⟩
  refine ⟨⟨⟨?_, ?_⟩, role .root, role .snapshot, role .targets, role .timestamp, ?_, ?_⟩, ?_, hdate,
    ?_, ?_, ?_, ?_⟩
  · rw [A.version]; exact bounds.1
  · rw [A.version]; exact vsmall
  · rw [e]; exact H.nodup
  · rw [e]; exact fun p hp => (H.own p hp).1
  · rw [e]
    intro p hp
    obtain ⟨g1, g2⟩ := H.own p hp
    rw [g1]
    exact hkeys _ g2
  all_goals
    first
    | (have := small .root; have := A.roles .root; simp only [roleOf] at this; rw [this]; assumption)
    | (have := small .snapshot; have := A.roles .snapshot; simp only [roleOf] at this; rw [this]; assumption)
    | (have := small .targets; have := A.roles .targets; simp only [roleOf] at this; rw [this]; assumption)
    | (have := small .timestamp; have := A.roles .timestamp; simp only [roleOf] at this; rw [this]; assumption)

/-- **C77.** Modifying existing metadata starts from exactly that metadata. -/
theorem C77_root_from_existing (r : RootMetadata) (h : GoodRoot r) :
    (RootBuilder.ofRoot r).build = .ok r := by
  refine rootBuild_ok.2 ⟨⟨h.version.1, ⟨h.root.least, h.root.most⟩, ⟨h.snapshot.least, h.snapshot.most⟩,
    ⟨h.targets.least, h.targets.most⟩, h.timestamp.least, h.timestamp.most⟩, rfl⟩

/-! ### A key added twice -/

theorem decodeRoleDefinition_repeated {d : RoleDefinition} (h : ¬ d.keyIds.Nodup) :
    decodeRoleDefinition (encodeRoleDefinition d).normal = none := by
  unfold decodeRoleDefinition encodeRoleDefinition
  rw [asStruct_normal]
  simp only [Option.bind_eq_bind, Option.bind_some]
  rw [field_members (j := natJson d.threshold) (of_decide_eq_true rfl) rfl,
    field_members (j := .arr (d.keyIds.map Json.str)) (of_decide_eq_true rfl) rfl]
  cases asU32 (natJson d.threshold).normal with
  | none => rfl
  | some n =>
    simp only [Option.bind_some]
    cases h2 : asVec decodeKeyId (Json.arr (d.keyIds.map Json.str)).normal with
    | none => rfl
    | some l =>
      have : l = d.keyIds := by
        rw [normal_strs, asVec] at h2
        have hm := mapAll_eq (f := decodeKeyId) (h := fun j => match j with | .str s => s | _ => [])
          (d.keyIds.map Json.str) fun a ha => by
            obtain ⟨s, hs, rfl⟩ := List.mem_map.1 ha
            obtain ⟨b, hb⟩ := mapAll_mem h2 _ ha
            simp only [decodeKeyId, asStr, Option.bind_some, keyIdOfStr] at hb ⊢
            split at hb
            · rename_i hl; rw [if_pos hl]
            · cases hb
        rw [hm, List.map_map] at h2
        have := Option.some.inj h2
        rw [← this]
        simp [Function.comp_def]
      simp only [Option.bind_some]
      rw [if_neg]
      rintro ⟨_, hn, _⟩
      rw [this] at hn
      exact h hn

theorem decodeRoles_repeated {r : RootMetadata} (h : ¬ DistinctIds r) :
    decodeRoles (Json.obj [(Role.root.name, encodeRoleDefinition r.root),
        (Role.snapshot.name, encodeRoleDefinition r.snapshot),
        (Role.targets.name, encodeRoleDefinition r.targets),
        (Role.timestamp.name, encodeRoleDefinition r.timestamp)]).normal = none := by
  unfold decodeRoles
  rw [asStruct_normal]
  simp only [Option.bind_eq_bind, Option.bind_some]
  rw [field_members (j := encodeRoleDefinition r.root) (of_decide_eq_true rfl) rfl,
    field_members (j := encodeRoleDefinition r.snapshot) (of_decide_eq_true rfl) rfl,
    field_members (j := encodeRoleDefinition r.targets) (of_decide_eq_true rfl) rfl,
    field_members (j := encodeRoleDefinition r.timestamp) (of_decide_eq_true rfl) rfl]
  have : ∃ role, ¬ (roleOf r role).keyIds.Nodup := by
    by_contra hc
    exact h fun role => by_contra fun hn => hc ⟨role, hn⟩
  obtain ⟨role, hn⟩ := this
  have hnone := decodeRoleDefinition_repeated hn
  cases role <;> simp only [roleOf] at hnone <;> simp [hnone]

theorem decodeRoot_repeated {X : ShimLib} {r : RootMetadata} (h : ¬ DistinctIds r) {j : Json}
    (hj : encodeRoot X r = some j) : decodeRoot X j.normal = none := by
  unfold encodeRoot at hj
  split at hj
  · cases hj
  · rw [← Option.some.inj hj]
    unfold decodeRoot
    rw [asStruct_normal]
    simp only [Option.bind_eq_bind, Option.bind_some]
    rw [field_members (n := "roles".toList) (of_decide_eq_true rfl) rfl, decodeRoles_repeated h]
    simp only [Option.bind_none, Option.bind_fun_none]

theorem decodeSigned_content {m : SignedMetadata JsonValue} {s : List Signature} {v : Json}
    (h : decodeSigned (encodeSigned m).normal = some (s, v)) : v = m.metadata.1 := by
  unfold decodeSigned encodeSigned at h
  rw [asStruct_normal] at h
  simp only [Option.bind_eq_bind, Option.bind_some] at h
  rw [field_members (n := "signed".toList) (j := m.metadata.1) (of_decide_eq_true rfl) rfl] at h
  simp only [Option.bind_some, Option.bind_eq_some_iff] at h
  obtain ⟨_, _, h⟩ := h
  have := (Prod.mk.inj (Option.some.inj h)).2
  rw [← this, m.metadata.2, m.metadata.2]

theorem root_never_accepted (X : ShimLib) (ring : Scheme → Bytes → Bytes → Bytes → Bool)
    (order : Map KeyId Signature → List (KeyId × Signature)) (perm : ∀ m, (order m).Perm m)
    (r : RootMetadata) (h : ∀ j, encodeRoot X r = some j → decodeRoot X j.normal = none)
    (sm : SignedMetadata JsonValue) (raw : Bytes)
    (hc : ∃ j, encodeRoot X r = some j ∧ sm.metadata = j.toValue) (hraw : sm.toRaw = .ok raw)
    (n : Nat) (keys : List PublicKey) (r' : RootMetadata) :
    verifySignatures (jsonEnv X ring order perm) (jsonEnv X ring order perm).rootFromSlice raw n keys ≠
      .ok r' := by
  intro hv
  obtain ⟨j, hj, hm⟩ := hc
  obtain ⟨msg, ⟨_, sigs, v, hp, hmsg, _⟩, hd⟩ := (verifySignatures_ok_iff ..).1 hv
  have hnest : nesting sm.metadata.1 ≤ 4 := by
    rw [hm]
    exact (nesting_normal _).trans (nesting_encodeRoot X hj)
  have hnest' := nesting_encodeSigned sm
  have hback := C68_canonical_bytes_read_back X.float _ raw (isValue_normal (encodeSigned sm))
    (by have := nesting_normal (encodeSigned sm); omega) hraw
  have hv' : v = sm.metadata := by
    have hp : RustTuf.fromSlice _ _ _ = _ := hp
    unfold RustTuf.fromSlice at hp
    rw [hback] at hp
    simp only at hp
    cases hq : decodeSigned (encodeSigned sm).normal with
    | none => rw [hq] at hp; cases hp
    | some q =>
      rw [hq] at hp
      simp only [Option.map_some] at hp
      have := (Prod.mk.inj (Except.ok.inj hp)).2
      rw [← this, decodeSigned_content (s := q.1) (v := q.2) hq]
      exact Subtype.ext sm.metadata.2
  subst hv'
  have hmsg : Json.canonicalize sm.metadata.1 = .ok msg := hmsg
  have hb2 := C68_canonical_bytes_read_back X.float sm.metadata.1 msg
    (by rw [← sm.metadata.2]; exact isValue_normal _) (by omega) hmsg
  have hd : RustTuf.fromSlice X.float (decodeRoot X) msg = .ok r' := hd
  unfold RustTuf.fromSlice at hd
  rw [hb2, hm] at hd
  simp only at hd
  have : decodeRoot X j.toValue.1 = none := h j hj
  rw [this] at hd
  cases hd

/-- **C77.** `RoleDefinition::new` and the builder do not notice a key added twice for a role, and
`signed` signs the result; but no client accepts it, whatever keys it trusts. -/
theorem C77_key_added_twice_is_never_accepted (X : ShimLib)
    (ring : Scheme → Bytes → Bytes → Bytes → Bool)
    (order : Map KeyId Signature → List (KeyId × Signature)) (perm : ∀ m, (order m).Perm m)
    (r : RootMetadata) (h : ¬ DistinctIds r) (sm : SignedMetadata JsonValue) (raw : Bytes)
    (hc : ∃ j, encodeRoot X r = some j ∧ sm.metadata = j.toValue) (hraw : sm.toRaw = .ok raw)
    (n : Nat) (keys : List PublicKey) (r' : RootMetadata) :
    verifySignatures (jsonEnv X ring order perm) (jsonEnv X ring order perm).rootFromSlice raw n keys ≠
      .ok r' :=
  root_never_accepted X ring order perm r (fun _ => decodeRoot_repeated h) sm raw hc hraw n keys r'

/-- **C77.** `SignedMetadataBuilder::from_metadata`, in contrast, refuses such a root. -/
theorem C77_key_added_twice_is_refused (X : ShimLib) (r : RootMetadata) (h : ¬ DistinctIds r) :
    SignedBuilder.fromMetadata (encodeRoot X) (decodeRoot X) r = .error .encoding := by
  unfold SignedBuilder.fromMetadata serialize
  cases hj : encodeRoot X r with
  | none => rfl
  | some j =>
    have : decodeRoot X j.toValue.1 = none := decodeRoot_repeated h hj
    simp only [SignedBuilder.fromRawMetadata, fromValue, this]
    rfl

end RustTuf.Props
