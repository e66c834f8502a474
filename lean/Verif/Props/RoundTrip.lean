import Verif.Lemmas.Encode

/-!
# C70: encoded metadata decodes to the same metadata
-/

namespace RustTuf.Props
open Spec RustTuf

theorem decodeKeyId_str {s : KeyId} (h : IsKeyId s) : decodeKeyId (.str s) = some s := by
  simp only [decodeKeyId, asStr, Option.bind_some, keyIdOfStr]
  exact if_pos h

theorem keyIdOfStr_eq {s : KeyId} (h : IsKeyId s) : keyIdOfStr s = some s := if_pos h

theorem decodeRole_name (r : Role) : decodeRole (.str r.name) = some r := by
  cases r <;> decide

theorem decodeHead_members {X : ShimLib} {role : Role} {v : Nat} {t : Time}
    {m : List (Str × Json)} (hn : (m.map Prod.fst).Nodup)
    (h1 : Map.get? m "_type".toList = some (.str role.name))
    (h2 : Map.get? m "spec_version".toList = some (.str specVersion))
    (h3 : Map.get? m "version".toList = some (natJson v))
    (h4 : Map.get? m "expires".toList = some (.str (X.formatDate t)))
    (hv : GoodVersion v) (ht : GoodDate X t) :
    decodeHead X role (members m) = some (v, t) := by
  unfold decodeHead
  rw [field_members hn h1, field_members hn h2, field_members hn h3, field_members hn h4]
  have e1 : decodeRole (Json.str role.name).normal = some role := decodeRole_name role
  have e2 : asStr (Json.str specVersion).normal = some specVersion := rfl
  have e3 : asU32 (natJson v).normal = some v := asU32_nat hv.2
  have e4 : asStr (Json.str (X.formatDate t)).normal = some (X.formatDate t) := rfl
  rw [e1, e2, e3, e4]
  simp only [Option.bind_eq_bind, Option.bind_some]
  have ht : X.parseDate (X.formatDate t) = some t := ht
  rw [ht]
  simp only [Option.bind_some]
  simp [hv.1]

theorem decodeRoleDefinition_encode {r : RoleDefinition} (h : GoodRole r.threshold r.keyIds)
    (ht : r.threshold < 2 ^ 32) :
    decodeRoleDefinition (encodeRoleDefinition r).normal = some r := by
  unfold decodeRoleDefinition encodeRoleDefinition
  rw [asStruct_normal]
  simp only [Option.bind_eq_bind, Option.bind_some]
  rw [field_members (j := natJson r.threshold) (of_decide_eq_true rfl) rfl,
    field_members (j := .arr (r.keyIds.map Json.str)) (of_decide_eq_true rfl) rfl]
  have e1 : asU32 (natJson r.threshold).normal = some r.threshold := asU32_nat ht
  rw [e1, asVec_strs (g := id) _ fun s hs => decodeKeyId_str (h.ids s hs)]
  simp only [Option.bind_some, List.map_id]
  refine if_pos ⟨?_, h.nodup, h.least, h.most⟩
  intro e
  have := h.least
  have := h.most
  rw [e] at this
  simp at this
  omega

/-! ### Keys -/

theorem decodeScheme_encode (s : Scheme) : decodeScheme (encodeScheme s).normal = some s := by
  cases s with
  | ed25519 => decide
  | rsaSsaPssSha256 => decide
  | rsaSsaPssSha512 => decide
  | unknown s => rfl

theorem decodeKeyType_text {t : KeyType} (h : t = .ed25519 ∨ t = .rsa) :
    decodeKeyType (.str t.text) = some t := by
  rcases h with rfl | rfl <;> decide

theorem decodeKeyShim_members {typ : KeyType} {scheme : Scheme} {algs : Option (List Str)} {t : Str}
    (h : typ = .ed25519 ∨ typ = .rsa) :
    decodeKeyShim (Json.obj
      ([("keytype".toList, .str typ.text), ("scheme".toList, encodeScheme scheme)] ++
        algsMember algs ++
        [("keyval".toList, .obj [("public".toList, .str t)])])).normal =
      some (typ, scheme, algs, t) := by
  have e1 : decodeKeyType (Json.str typ.text).normal = some typ := decodeKeyType_text h
  have e3 : (do
      let m ← asStruct ["public".toList] (Json.obj [("public".toList, .str t)]).normal
      field m "public".toList asStr) = some t := by
    rw [asStruct_normal]
    simp only [Option.bind_eq_bind, Option.bind_some]
    rw [field_members (j := .str t) (by simp) (by rfl)]
    rfl
  unfold decodeKeyShim
  rw [asStruct_normal]
  simp only [Option.bind_eq_bind, Option.bind_some]
  cases algs with
  | none =>
    rw [field_members (j := .str typ.text) (of_decide_eq_true rfl) rfl,
      field_members (j := encodeScheme scheme) (of_decide_eq_true rfl) rfl,
      fieldOpt_absent (of_decide_eq_true rfl) rfl,
      field_members (j := .obj [("public".toList, .str t)]) (of_decide_eq_true rfl) rfl, e1, decodeScheme_encode]
    simp only [Option.bind_some]
    simp only [Option.bind_eq_bind] at e3
    rw [e3]
    rfl
  | some l =>
    rw [field_members (j := .str typ.text) (of_decide_eq_true rfl) rfl,
      field_members (j := encodeScheme scheme) (of_decide_eq_true rfl) rfl,
      fieldOpt_members (j := .arr (l.map Json.str)) (of_decide_eq_true rfl) rfl,
      field_members (j := .obj [("public".toList, .str t)]) (of_decide_eq_true rfl) rfl, e1, decodeScheme_encode]
    have e2 : asOption (asVec asStr) (Json.arr (l.map Json.str)).normal = some (some l) := by
      have := asVec_strs (f := asStr) (g := id) l fun s _ => rfl
      rw [normal_strs] at this ⊢
      simp only [asOption, this, List.map_id, Option.map_some]
    rw [e2]
    simp only [Option.bind_some]
    simp only [Option.bind_eq_bind] at e3
    rw [e3]
    rfl

theorem encodePublicKey_good {X : ShimLib} {k : PublicKey} (h : GoodKey X k) :
    ∃ j, encodePublicKey X k = some j := by
  have := h.id
  unfold calculateKeyId at this
  unfold encodePublicKey
  split at this
  · cases this
  · rename_i j hj
    exact ⟨j, hj⟩

theorem decodePublicKey_encode {X : ShimLib} (L : Laws X) {k : PublicKey} (h : GoodKey X k)
    {j : Json} (he : encodePublicKey X k = some j) : decodePublicKey X j.normal = some k := by
  have hid := h.id
  obtain ⟨typ, id, scheme, algs, value⟩ := k
  simp only at hid
  unfold encodePublicKey encodeKey at he
  unfold decodePublicKey
  rcases h.kind with ⟨h1, h2, h3⟩ | ⟨h1, der, hw, hr⟩
  · simp only at h1 h2 h3
    subst h1 h2
    simp only [Option.some.injEq] at he
    subst he
    rw [decodeKeyShim_members (.inl rfl)]
    simp only [Option.bind_eq_bind, Option.bind_some, if_true]
    rw [hexLowerDecode_hexLower]
    simp only [Option.bind_some]
    unfold PublicKey.fromEd25519 PublicKey.make
    rw [if_pos h3, hid]
    simp
  · simp only at h1 hw hr
    subst h1
    simp only at he
    rw [hw] at he
    simp only [Option.map_some, Option.some.injEq] at he
    subst he
    rw [decodeKeyShim_members (.inr rfl)]
    simp only [Option.bind_eq_bind, Option.bind_some]
    rw [L.base64]
    simp only [Option.bind_some]
    unfold PublicKey.fromSpki
    rw [hr]
    simp only
    unfold PublicKey.make
    rw [hid]
    simp

theorem decodeKeys_encode {X : ShimLib} (L : Laws X) {m : Map KeyId PublicKey}
    (hn : (m.map Prod.fst).Nodup) (hk : ∀ p ∈ m, IsKeyId p.1 ∧ GoodKey X p.2) :
    ∃ j r, encodeEntries some (encodePublicKey X) m = some j ∧
      asMapNoDup keyIdOfStr (decodePublicKey X) j.normal = some r ∧ SameMap Eq m r ∧
      (r.map Prod.fst).Nodup ∧ (m ≠ [] → r ≠ []) := by
  obtain ⟨j, r, h1, h2, h3, h4, h5, _, h7⟩ := asEntries_normal (ek := some) (ev := encodePublicKey X)
    (dk := keyIdOfStr) (dv := decodePublicKey X) (R := Eq) hn
    (fun p hp => ⟨p.1, rfl, keyIdOfStr_eq (hk p hp).1⟩)
    (fun p hp => by
      obtain ⟨j, hj⟩ := encodePublicKey_good (hk p hp).2
      exact ⟨j, p.2, hj, decodePublicKey_encode L (hk p hp).2 hj, rfl⟩)
  refine ⟨j, r, h1, ?_, h4, h3, h7⟩
  unfold asMapNoDup
  rw [h2]
  exact if_pos h3

/-! ### Root -/

/-- Root metadata that can be published: as in C54, with the keys and the date in the form that the
format provides for. -/
structure PublishableRoot (X : ShimLib) (r : RootMetadata) : Prop where
  good : GoodRoot r
  keys : ∀ p ∈ r.keys, IsKeyId p.1 ∧ GoodKey X p.2
  date : GoodDate X r.expires
  small : r.root.threshold < 2 ^ 32 ∧ r.snapshot.threshold < 2 ^ 32 ∧
    r.targets.threshold < 2 ^ 32 ∧ r.timestamp.threshold < 2 ^ 32

/-- **C70.** Encoding and decoding root metadata gives the same metadata. -/
theorem C70_root (X : ShimLib) (L : Laws X) (r : RootMetadata) (h : PublishableRoot X r) :
    ∃ j r', encodeRoot X r = some j ∧ decodeRoot X j.normal = some r' ∧ SameRoot r r' := by
  obtain ⟨jk, ks, hk1, hk2, hk3, hk4, _⟩ := decodeKeys_encode L h.good.keys h.keys
  have own : ks.filter (fun p => decide (p.1 = p.2.keyId)) = ks := by
    rw [List.filter_eq_self]
    intro p hp
    have h1 := Map.get?_of_mem_nodup hk4 (k := p.1) (v := p.2) hp
    cases h2 : Map.get? r.keys p.1 with
    | none => rw [hk3.none _ h2] at h1; cases h1
    | some v =>
      obtain ⟨w, h3, rfl⟩ := hk3.there _ _ h2
      rw [h1] at h3
      cases h3
      simpa using h.good.own _ (Map.mem_of_get? h2)
  refine ⟨?j, ⟨r.version, r.expires, r.consistentSnapshot, ks, r.root, r.snapshot, r.targets,
    r.timestamp⟩, ?_, ?_, ⟨rfl, rfl, rfl, hk3, rfl, rfl, rfl, rfl⟩⟩
  rotate_left
  · unfold encodeRoot
    rw [hk1]
  · unfold decodeRoot
    rw [asStruct_normal]
    simp only [Option.bind_eq_bind, Option.bind_some]
    rw [field_members (j := .bool r.consistentSnapshot) (of_decide_eq_true rfl) rfl,
      field_members (j := jk) (of_decide_eq_true rfl) rfl, field_members (of_decide_eq_true rfl) rfl,
      decodeHead_members (of_decide_eq_true rfl) rfl rfl rfl rfl h.good.version h.date, hk2]
    have hr : decodeRoles (Json.obj [(Role.root.name, encodeRoleDefinition r.root),
        (Role.snapshot.name, encodeRoleDefinition r.snapshot),
        (Role.targets.name, encodeRoleDefinition r.targets),
        (Role.timestamp.name, encodeRoleDefinition r.timestamp)]).normal =
        some (r.root, r.snapshot, r.targets, r.timestamp) := by
      unfold decodeRoles
      rw [asStruct_normal]
      simp only [Option.bind_eq_bind, Option.bind_some]
      rw [field_members (j := encodeRoleDefinition r.root) (of_decide_eq_true rfl) rfl,
        field_members (j := encodeRoleDefinition r.snapshot) (of_decide_eq_true rfl) rfl,
        field_members (j := encodeRoleDefinition r.targets) (of_decide_eq_true rfl) rfl,
        field_members (j := encodeRoleDefinition r.timestamp) (of_decide_eq_true rfl) rfl,
        decodeRoleDefinition_encode h.good.root h.small.1,
        decodeRoleDefinition_encode h.good.snapshot h.small.2.1,
        decodeRoleDefinition_encode h.good.targets h.small.2.2.1,
        decodeRoleDefinition_encode h.good.timestamp h.small.2.2.2]
      rfl
    rw [hr]
    have hb : asBool (Json.bool r.consistentSnapshot).normal = some r.consistentSnapshot := rfl
    rw [hb]
    simp only [Option.bind_some, own]

/-! ### Descriptions, timestamp, snapshot -/

theorem decodeHashes_encode {h : Map HashAlg HashValue} (g : GoodHashes h) :
    ∃ j r, encodeHashes h = some j ∧ decodeHashes j.normal = some r ∧ SameMap Eq h r ∧ r ≠ [] := by
  obtain ⟨j, r, h1, h2, h3, h4, _, _, h7⟩ := asEntries_normal (ek := hashAlgKey)
    (ev := fun v => some (encodeHex v)) (dk := hashAlgOfKey) (dv := decodeHex) (R := Eq) g.nodup
    (fun p hp => by
      rcases g.known p hp with e | e
      · exact ⟨"sha256".toList, by rw [e]; rfl, by rw [e]; decide⟩
      · exact ⟨"sha512".toList, by rw [e]; rfl, by rw [e]; decide⟩)
    (fun p hp => ⟨_, p.2, rfl, hexLowerDecode_hexLower p.2, rfl⟩)
  refine ⟨j, Map.collect r, h1, ?_, SameMap.collect h4 h3, ?_⟩
  · unfold decodeHashes asMap
    rw [h2]
    rfl
  · intro e
    have hr := h7 g.nonempty
    obtain ⟨p, hp⟩ := List.exists_mem_of_ne_nil _ hr
    have := Map.get?_of_mem_nodup h3 (k := p.1) (v := p.2) hp
    rw [← Map.get?_collect_nodup h3, e] at this
    cases this

theorem decodeMetadataDescription_encode {d : MetadataDescription} (g : GoodDescription d) :
    ∃ j d', encodeMetadataDescription d = some j ∧ decodeMetadataDescription j.normal = some d' ∧
      SameDescription d d' := by
  obtain ⟨jh, hs, h1, h2, h3, h4⟩ := decodeHashes_encode g.hashes
  refine ⟨?j, ⟨d.version, d.length, hs⟩, ?_, ?_, ⟨rfl, rfl, h3⟩⟩
  rotate_left
  · unfold encodeMetadataDescription
    rw [h1]
    rfl
  · unfold decodeMetadataDescription
    rw [asStruct_normal]
    simp only [Option.bind_eq_bind, Option.bind_some]
    rw [field_members (j := natJson d.version) (of_decide_eq_true rfl) rfl,
      field_members (j := natJson d.length) (of_decide_eq_true rfl) rfl,
      field_members (j := jh) (of_decide_eq_true rfl) rfl, h2]
    have e1 : asU32 (natJson d.version).normal = some d.version := asU32_nat g.version.2
    have e2 : asU64 (natJson d.length).normal = some d.length := asU64_nat g.length
    rw [e1, e2]
    exact if_pos ⟨g.version.1, h4⟩

/-- **C70.** Encoding and decoding timestamp metadata gives the same metadata. -/
theorem C70_timestamp (X : ShimLib) (m : TimestampMetadata) (h : GoodTimestamp m)
    (hd : GoodDate X m.expires) :
    ∃ j m', encodeTimestamp X m = some j ∧ decodeTimestamp X j.normal = some m' ∧
      SameTimestamp m m' := by
  obtain ⟨jd, d', h1, h2, h3⟩ := decodeMetadataDescription_encode h.snapshot
  refine ⟨?j, ⟨m.version, m.expires, d'⟩, ?_, ?_, ⟨rfl, rfl, h3⟩⟩
  rotate_left
  · unfold encodeTimestamp
    rw [h1]
    rfl
  · unfold decodeTimestamp
    rw [asStruct_normal]
    simp only [Option.bind_eq_bind, Option.bind_some]
    rw [field_members (j := .obj [("snapshot.json".toList, jd)]) (of_decide_eq_true rfl) rfl,
      decodeHead_members (of_decide_eq_true rfl) rfl rfl rfl rfl h.version hd]
    have e : asStructStrict ["snapshot.json".toList]
        (Json.obj [("snapshot.json".toList, jd)]).normal =
        some (members [("snapshot.json".toList, jd)]) := by
      unfold asStructStrict
      rw [asStruct_normal]
      rfl
    rw [e]
    simp only [Option.bind_some]
    rw [field_members (j := jd) (by simp) (by rfl), h2]
    rfl

theorem stripJson_append {p : Str} (h : safePath p = .ok ()) :
    stripJson (p ++ jsonExt) = some p := by
  have e : (p ++ jsonExt).length - jsonExt.length = p.length := by simp
  unfold stripJson
  rw [e, List.drop_left, List.take_left]
  rw [if_pos ⟨by simp, rfl⟩, accepted_iff_meta.2 ⟨rfl, h⟩]

/-- **C70.** Encoding and decoding snapshot metadata gives the same metadata. -/
theorem C70_snapshot (X : ShimLib) (m : SnapshotMetadata) (h : GoodSnapshot m)
    (hp : ∀ p ∈ m.metas, MetadataPath.new p.1 = .ok p.1) (hd : GoodDate X m.expires) :
    ∃ j m', encodeSnapshot X m = some j ∧ decodeSnapshot X j.normal = some m' ∧
      SameSnapshot m m' := by
  have hp : ∀ p ∈ m.metas, safePath p.1 = .ok () := fun p h => (accepted_iff_meta.1 (hp p h)).2
  -- the entries with their file names
  let m1 : Map Str MetadataDescription := m.metas.map fun p => (p.1 ++ jsonExt, p.2)
  have hn1 : (m1.map Prod.fst).Nodup := by
    have e : m1.map Prod.fst = (m.metas.map Prod.fst).map (· ++ jsonExt) := by
      simp [m1, List.map_map, Function.comp_def]
    rw [e]
    exact h.nodup.map fun a b e => by simpa using e
  obtain ⟨j, r, h1, h2, h3, h4, h5, _, _⟩ := asEntries_normal (ek := some)
    (ev := encodeMetadataDescription) (dk := some) (dv := decodeMetadataDescription)
    (R := SameDescription) hn1 (fun p hp => ⟨p.1, rfl, rfl⟩)
    (fun p hp => by
      obtain ⟨q, hq, rfl⟩ := List.mem_map.1 hp
      exact decodeMetadataDescription_encode (h.metas q hq))
  have hr : ∀ p ∈ r, ∃ q ∈ m.metas, p.1 = q.1 ++ jsonExt := by
    intro p hp
    obtain ⟨q, hq, e⟩ := h5 p hp
    obtain ⟨q', hq', rfl⟩ := List.mem_map.1 hq
    exact ⟨q', hq', e.symm⟩
  -- stripping the extension again
  let strip : Str → Str := fun s => s.take (s.length - jsonExt.length)
  have hstrip : ∀ p : Str, strip (p ++ jsonExt) = p := by
    intro p
    have e : (p ++ jsonExt).length - jsonExt.length = p.length := by simp
    show (p ++ jsonExt).take _ = p
    rw [e, List.take_left]
  let r' : Map Str MetadataDescription := r.map fun p => (strip p.1, p.2)
  have hm : mapAll (fun p : Str × MetadataDescription => (stripJson p.1).map fun q => (q, p.2)) r =
      some r' := by
    refine mapAll_eq _ fun p h => ?_
    obtain ⟨q, hq, e⟩ := hr p h
    show (stripJson p.1).map _ = some (strip p.1, p.2)
    rw [e, stripJson_append (hp q hq), hstrip]
    rfl
  have hn' : (r'.map Prod.fst).Nodup := by
    have e : r'.map Prod.fst = (r.map Prod.fst).map strip := by
      simp [r', List.map_map, Function.comp_def]
    rw [e]
    refine List.Nodup.map_on ?_ h3
    intro a ha b hb e
    obtain ⟨p, hp1, rfl⟩ := List.mem_map.1 ha
    obtain ⟨q, hq1, rfl⟩ := List.mem_map.1 hb
    obtain ⟨p', _, ep⟩ := hr p hp1
    obtain ⟨q', _, eq⟩ := hr q hq1
    rw [ep, eq, hstrip, hstrip] at e
    rw [ep, eq, e]
  have hget1 : ∀ k, Map.get? m1 (k ++ jsonExt) = Map.get? m.metas k := by
    intro k
    simp only [m1]
    generalize m.metas = l
    induction l with
    | nil => rfl
    | cons p l ih =>
      simp only [List.map_cons, Map.get?_cons, List.append_cancel_right_eq, ih]
  have hget2 : ∀ k, Map.get? r' k = Map.get? r (k ++ jsonExt) := by
    intro k
    have : ∀ l : Map Str MetadataDescription, (∀ p ∈ l, ∃ q : Str, p.1 = q ++ jsonExt) →
        Map.get? (l.map fun p => (strip p.1, p.2)) k = Map.get? l (k ++ jsonExt) := by
      intro l
      induction l with
      | nil => intro _; rfl
      | cons p l ih =>
        intro hl
        obtain ⟨q, hq⟩ := hl p (by simp)
        simp only [List.map_cons, Map.get?_cons, hq, hstrip, List.append_cancel_right_eq,
          ih fun p hp => hl p (by simp [hp])]
    exact this r fun p hp => by
      obtain ⟨q, _, e⟩ := hr p hp
      exact ⟨q.1, e⟩
  have hsame : SameMap SameDescription m.metas r' :=
    ⟨fun k v e => by rw [hget2]; exact h4.there _ _ (by rw [hget1]; exact e),
      fun k e => by rw [hget2]; exact h4.none _ (by rw [hget1]; exact e)⟩
  refine ⟨?j, ⟨m.version, m.expires, Map.collect r'⟩, ?_, ?_,
    ⟨rfl, rfl, SameMap.collect hsame hn'⟩⟩
  rotate_left
  · unfold encodeSnapshot
    have e : encodeEntries (fun p => some (p ++ jsonExt)) encodeMetadataDescription m.metas =
        encodeEntries some encodeMetadataDescription m1 := by
      unfold encodeEntries
      have : ∀ l : List (Str × MetadataDescription),
          mapAll (fun p : Str × MetadataDescription =>
            match some (p.1 ++ jsonExt) with
            | none => none
            | some s =>
              match encodeMetadataDescription p.2 with
              | none => none
              | some j => some (s, j)) l =
          mapAll (fun p : Str × MetadataDescription =>
            match some p.1 with
            | none => none
            | some s =>
              match encodeMetadataDescription p.2 with
              | none => none
              | some j => some (s, j)) (l.map fun p => (p.1 ++ jsonExt, p.2)) := by
        intro l
        induction l with
        | nil => rfl
        | cons p l ih =>
          simp only [mapAll, List.map_cons] at ih ⊢
          rw [ih]
      exact congrArg _ (this m.metas)
    rw [e, h1]
    rfl
  · unfold decodeSnapshot
    rw [asStruct_normal]
    simp only [Option.bind_eq_bind, Option.bind_some]
    rw [field_members (j := j) (of_decide_eq_true rfl) rfl,
      decodeHead_members (of_decide_eq_true rfl) rfl rfl rfl rfl h.version hd]
    have e : asMapNoDup some decodeMetadataDescription j.normal = some r := by
      unfold asMapNoDup
      rw [h2]
      exact if_pos h3
    rw [e]
    simp only [Option.bind_some]
    rw [hm]
    rfl

/-! ### Targets -/

theorem decodeDelegation_encode {d : Delegation} (h : GoodDelegation d) (ht : d.threshold < 2 ^ 32)
    (hr : MetadataPath.new d.role = .ok d.role)
    (hp : ∀ p ∈ d.paths, VirtualTargetPath.new p = .ok p) :
    decodeDelegation (encodeDelegation d).normal =
      some ⟨d.role, d.terminating, d.threshold, strSort d.keyIds, strSort d.paths⟩ := by
  unfold decodeDelegation encodeDelegation
  rw [asStruct_normal]
  simp only [Option.bind_eq_bind, Option.bind_some]
  rw [field_members (j := .str d.role) (of_decide_eq_true rfl) rfl,
    field_members (j := .bool d.terminating) (of_decide_eq_true rfl) rfl,
    field_members (j := natJson d.threshold) (of_decide_eq_true rfl) rfl,
    field_members (j := .arr ((strSort d.keyIds).map Json.str)) (of_decide_eq_true rfl) rfl,
    field_members (j := .arr ((strSort d.paths).map Json.str)) (of_decide_eq_true rfl) rfl]
  have e1 : (asStr (Json.str d.role).normal).bind metadataPathOfStr = some d.role := by
    simp only [Json.normal, asStr, Option.bind_some, metadataPathOfStr, hr]
  have e2 : asBool (Json.bool d.terminating).normal = some d.terminating := rfl
  have e3 : asU32 (natJson d.threshold).normal = some d.threshold := asU32_nat ht
  rw [e1, e2, e3, asVec_strs (g := id) _ fun s hs =>
      decodeKeyId_str (h.role.ids s ((strSort_perm _).mem_iff.1 hs)),
    asVec_strs (g := id) _ fun s hs => by
      simp only [asStr, Option.bind_some, virtualPathOfStr,
        hp s ((strSort_perm _).mem_iff.1 hs), id]]
  simp only [Option.bind_some, List.map_id]
  have hl := h.role.least
  have hm := h.role.most
  refine if_pos ⟨(strSort_perm _).nodup_iff.2 h.nodup, (strSort_perm _).nodup_iff.2 h.role.nodup,
    ?_, ?_, hl, by rw [(strSort_perm _).length_eq]; exact hm⟩
  · intro e
    have := (strSort_perm d.keyIds).length_eq
    rw [e] at this
    simp at this
    rw [← this] at hm
    omega
  · intro e
    have := (strSort_perm d.paths)
    rw [e] at this
    exact h.paths this.nil_eq.symm

/-- Targets metadata that can be published. -/
structure PublishableTargets (X : ShimLib) (m : TargetsMetadata) : Prop where
  good : GoodTargets m
  date : GoodDate X m.expires
  paths : ∀ p ∈ m.targets, VirtualTargetPath.new p.1 = .ok p.1
  /-- custom members are a map of `serde_json::Value`s -/
  custom : ∀ p ∈ m.targets, ∀ c, p.2.custom = some c →
    (c.map Prod.fst).Nodup ∧ ∀ q ∈ c, q.2.normal = q.2
  keys : ∀ d, m.delegations = some d → ∀ p ∈ d.keys, IsKeyId p.1 ∧ GoodKey X p.2
  roles : ∀ d, m.delegations = some d → ∀ r ∈ d.roles, r.threshold < 2 ^ 32 ∧
    MetadataPath.new r.role = .ok r.role ∧ ∀ p ∈ r.paths, VirtualTargetPath.new p = .ok p

theorem encodeEntries_values (c : Map Str Json) : encodeEntries some some c = some (.obj c) := by
  have : ∀ l : List (Str × Json), mapAll (fun p : Str × Json =>
      match some p.1 with
      | none => none
      | some s =>
        match some p.2 with
        | none => none
        | some j => some (s, j)) l = some l := by
    intro l
    induction l with
    | nil => rfl
    | cons p l ih => rw [mapAll, ih]
  unfold encodeEntries
  exact congrArg (Option.map Json.obj) (this c)

theorem decodeTargetDescription_encode {d : TargetDescription} (g : GoodTarget d)
    (hc : ∀ c, d.custom = some c → (c.map Prod.fst).Nodup ∧ ∀ q ∈ c, q.2.normal = q.2) :
    ∃ j d', encodeTargetDescription d = some j ∧ decodeTargetDescription j.normal = some d' ∧
      SameTarget d d' := by
  obtain ⟨jh, hs, h1, h2, h3, h4⟩ := decodeHashes_encode g.hashes
  have e2 : asU64 (natJson d.length).normal = some d.length := asU64_nat g.length
  have hf : ∀ m, targetFields (Json.obj m).normal = some (members m) := by
    intro m
    have := asStruct_normal ["length".toList, "hashes".toList, "custom".toList] m
    rw [Json.normal] at this ⊢
    exact this
  obtain ⟨len, hashes, custom⟩ := d
  cases custom with
  | none =>
    refine ⟨?j, ⟨len, hs, none⟩, ?_, ?_, ⟨rfl, h3, trivial⟩⟩
    rotate_left
    · unfold encodeTargetDescription
      rw [h1]
      rfl
    · unfold decodeTargetDescription
      rw [hf]
      simp only [Option.bind_eq_bind, Option.bind_some]
      rw [field_members (j := natJson len) (of_decide_eq_true rfl) rfl,
        field_members (j := jh) (of_decide_eq_true rfl) rfl, fieldOpt_absent (of_decide_eq_true rfl) rfl, h2, e2]
      exact if_pos h4
  | some c =>
    obtain ⟨c1, c2⟩ := hc c rfl
    obtain ⟨jc, r, k1, k2, k3, k4, _, k6, _⟩ := asEntries_normal (ek := some) (ev := some)
      (dk := some) (dv := fun j => some j.normal) (R := Eq) c1 (fun p _ => ⟨p.1, rfl, rfl⟩)
      (fun p hp => ⟨p.2, p.2, rfl, by rw [c2 p hp, c2 p hp], rfl⟩)
    have hj : jc = .obj c := by
      rw [encodeEntries_values] at k1
      exact (Option.some.inj k1).symm
    subst hj
    refine ⟨?k, ⟨len, hs, some (Map.collect r)⟩, ?_, ?_, ⟨rfl, h3, SameMap.collect k4 k3⟩⟩
    rotate_left
    · unfold encodeTargetDescription
      rw [h1]
      rfl
    · unfold decodeTargetDescription
      rw [hf]
      simp only [Option.bind_eq_bind, Option.bind_some]
      rw [field_members (j := natJson len) (of_decide_eq_true rfl) rfl,
        field_members (j := jh) (of_decide_eq_true rfl) rfl,
        fieldOpt_members (j := .obj c) (of_decide_eq_true rfl) rfl, h2, e2]
      have e : asOption (asMap some fun j => some j.normal) (Json.obj c).normal =
          some (some (Map.collect r)) := by
        have : asMap some (fun j => some j.normal) (Json.obj c).normal = some (Map.collect r) := by
          unfold asMap
          rw [k2]
          rfl
        rw [Json.normal] at this ⊢
        simp only [asOption, this, Option.map_some]
      rw [e]
      exact if_pos h4

theorem decodeDelegations_encode {X : ShimLib} (L : Laws X) {d : Delegations}
    (h : GoodDelegations d) (hk : ∀ p ∈ d.keys, IsKeyId p.1 ∧ GoodKey X p.2)
    (hr : ∀ r ∈ d.roles, r.threshold < 2 ^ 32 ∧ MetadataPath.new r.role = .ok r.role ∧
      ∀ p ∈ r.paths, VirtualTargetPath.new p = .ok p) :
    ∃ j d', encodeDelegations X d = some j ∧ decodeDelegations X j.normal = some d' ∧
      SameDelegations d d' ∧ j.normal ≠ .null := by
  obtain ⟨jk, ks, hk1, hk2, hk3, hk4, hk5⟩ := decodeKeys_encode L h.keys hk
  let g : Delegation → Delegation := fun d =>
    ⟨d.role, d.terminating, d.threshold, strSort d.keyIds, strSort d.paths⟩
  refine ⟨?j, ⟨ks, d.roles.map g⟩, ?_, ?_, ⟨hk3, ?_⟩, ?_⟩
  rotate_left
  · unfold encodeDelegations
    rw [hk1]
    rfl
  · unfold decodeDelegations
    rw [asStruct_normal]
    simp only [Option.bind_eq_bind, Option.bind_some]
    rw [field_members (j := jk) (of_decide_eq_true rfl) rfl,
      field_members (j := .arr (d.roles.map encodeDelegation)) (of_decide_eq_true rfl) rfl, hk2]
    have e : asVec decodeDelegation (Json.arr (d.roles.map encodeDelegation)).normal =
        some (d.roles.map g) := by
      rw [Json.normal, normalL_eq, List.map_map, asVec]
      refine mapAll_map _ fun r hr' => ?_
      obtain ⟨a, b, c⟩ := hr r hr'
      exact decodeDelegation_encode (h.roles r hr') a b c
    rw [e]
    simp only [Option.bind_some]
    refine if_pos ⟨hk5 h.some_key, ?_, ?_⟩
    · intro e
      exact h.some_role (List.map_eq_nil_iff.1 e)
    · rw [List.map_map]
      exact h.names
  · have key : ∀ l : List Delegation, (∀ r ∈ l, GoodDelegation r) →
        List.Forall₂ SameDelegation l (l.map g) := by
      intro l
      induction l with
      | nil => intro _; exact .nil
      | cons r l ih =>
        intro hl
        have hr := hl r (by simp)
        exact .cons ⟨rfl, rfl, rfl, sameSet_strSort hr.role.nodup, sameSet_strSort hr.nodup⟩
          (ih fun r h => hl r (by simp [h]))
    exact key _ h.roles
  · rw [Json.normal]
    exact fun h => by cases h

/-- **C70.** Encoding and decoding targets metadata gives the same metadata. -/
theorem C70_targets (X : ShimLib) (L : Laws X) (m : TargetsMetadata) (h : PublishableTargets X m) :
    ∃ j m', encodeTargets X m = some j ∧ decodeTargets X j.normal = some m' ∧
      SameTargets m m' := by
  obtain ⟨jt, r, h1, h2, h3, h4, _, _, _⟩ := asEntries_normal (ek := some)
    (ev := encodeTargetDescription) (dk := virtualPathOfStr) (dv := decodeTargetDescription)
    (R := SameTarget) h.good.nodup
    (fun p hp => ⟨p.1, rfl, by unfold virtualPathOfStr; rw [h.paths p hp]⟩)
    (fun p hp => decodeTargetDescription_encode (h.good.targets p hp) (h.custom p hp))
  have e : asMap virtualPathOfStr decodeTargetDescription jt.normal = some (Map.collect r) := by
    unfold asMap
    rw [h2]
    rfl
  cases hd : m.delegations with
  | none =>
    refine ⟨?j, ⟨m.version, m.expires, Map.collect r, none⟩, ?_, ?_,
      ⟨rfl, rfl, SameMap.collect h4 h3, by rw [hd]; exact .none⟩⟩
    rotate_left
    · unfold encodeTargets
      rw [h1, hd]
    · unfold decodeTargets
      rw [asStruct_normal]
      simp only [Option.bind_eq_bind, Option.bind_some]
      rw [field_members (j := jt) (of_decide_eq_true rfl) rfl, fieldOpt_absent (of_decide_eq_true rfl) rfl,
        decodeHead_members (of_decide_eq_true rfl) rfl rfl rfl rfl h.good.version h.date, e]
      rfl
  | some d =>
    obtain ⟨jd, d', k1, k2, k3, k4⟩ := decodeDelegations_encode L (h.good.delegations d hd)
      (h.keys d hd) (h.roles d hd)
    refine ⟨?k, ⟨m.version, m.expires, Map.collect r, some d'⟩, ?_, ?_,
      ⟨rfl, rfl, SameMap.collect h4 h3, by rw [hd]; exact .some k3⟩⟩
    rotate_left
    · unfold encodeTargets
      rw [h1, hd]
      simp only [k1]
      rfl
    · unfold decodeTargets
      rw [asStruct_normal]
      simp only [Option.bind_eq_bind, Option.bind_some]
      rw [field_members (j := jt) (of_decide_eq_true rfl) rfl, fieldOpt_members (j := jd) (of_decide_eq_true rfl) rfl,
        decodeHead_members (of_decide_eq_true rfl) rfl rfl rfl rfl h.good.version h.date, e]
      have : asOption (decodeDelegations X) jd.normal = some (some d') := by
        unfold asOption
        split
        · rename_i hn; exact absurd hn k4
        · rw [k2]; rfl
      rw [this]
      rfl

/-! ### Whatever was decoded can be published again -/

theorem make_good {X : ShimLib} {typ scheme algs value} {k : PublicKey}
    (h : PublicKey.make X typ scheme algs value = some k) :
    calculateKeyId X k.typ k.scheme k.keyidHashAlgorithms k.value = some k.keyId ∧ k.typ = typ ∧
      k.scheme = scheme ∧ k.value = value := by
  unfold PublicKey.make at h
  split at h
  · cases h
  · rename_i id hid
    cases h
    exact ⟨hid, rfl, rfl, rfl⟩

theorem decodeKeyType_known {j : Json} {t : KeyType} (h : decodeKeyType j = some t) :
    t = .ed25519 ∨ t = .rsa := by
  unfold decodeKeyType at h
  split at h
  · cases h
  · split at h
    · exact .inl (Option.some.inj h).symm
    · split at h
      · exact .inr (Option.some.inj h).symm
      · cases h

theorem decodePublicKey_good {X : ShimLib} (L : Laws X) {j : Json} {k : PublicKey}
    (h : decodePublicKey X j = some k) : GoodKey X k := by
  unfold decodePublicKey at h
  simp only [Option.bind_eq_bind, Option.bind_eq_some_iff] at h
  obtain ⟨⟨typ, scheme, algs, pub⟩, hs, h⟩ := h
  have ht : typ = .ed25519 ∨ typ = .rsa := by
    unfold decodeKeyShim at hs
    simp only [Option.bind_eq_bind, Option.bind_eq_some_iff] at hs
    obtain ⟨_, _, t, ht, _, _, _, _, _, _, e⟩ := hs
    obtain ⟨_, _, ht⟩ := field_some ht
    cases e
    exact decodeKeyType_known ht
  rcases ht with rfl | rfl
  · simp only at h
    split at h
    · rename_i hsch
      simp only [Option.bind_eq_some_iff] at h
      obtain ⟨bytes, _, key, hk, h⟩ := h
      split at h
      · cases h
        unfold PublicKey.fromEd25519 at hk
        split at hk
        · rename_i hl
          obtain ⟨h1, h2, h3, h4⟩ := make_good hk
          exact ⟨h1, .inl ⟨h2, h3, by rw [h4]; exact hl⟩⟩
        · cases hk
      · cases h
    · cases h
  · simp only [Option.bind_eq_some_iff] at h
    obtain ⟨der, _, key, hk, h⟩ := h
    split at h
    · rename_i ht
      cases h
      unfold PublicKey.fromSpki at hk
      split at hk
      · cases hk
      · rename_i typ value hr
        obtain ⟨h1, h2, _, h4⟩ := make_good hk
        refine ⟨h1, .inr ⟨ht, ?_⟩⟩
        rw [h4, ← ht, h2]
        exact L.spki _ _ _ hr
    · cases h

theorem decodeKeys_good {X : ShimLib} (L : Laws X) {j : Json} {m : Map KeyId PublicKey}
    (h : asMapNoDup keyIdOfStr (decodePublicKey X) j = some m) :
    ∀ p ∈ m, IsKeyId p.1 ∧ GoodKey X p.2 := by
  intro p hp
  obtain ⟨⟨s, h1⟩, ⟨_, h2⟩⟩ := (asMapNoDup_some h).2 p hp
  refine ⟨?_, decodePublicKey_good L h2⟩
  unfold keyIdOfStr at h1
  split at h1
  · rename_i hl
    rw [Option.some.inj h1] at hl
    exact hl
  · cases h1

theorem decodeRoleDefinition_small {j : Json} {r : RoleDefinition}
    (h : decodeRoleDefinition j = some r) : r.threshold < 2 ^ 32 := by
  unfold decodeRoleDefinition at h
  simp only [Option.bind_eq_bind, Option.bind_eq_some_iff] at h
  obtain ⟨_, _, t, ht, ids, hids, h⟩ := h
  obtain ⟨_, _, ht⟩ := field_some ht
  split at h
  · cases h
    exact asU32_some ht
  · cases h

theorem decodeRoot_publishable {X : ShimLib} (L : Laws X) {j : Json} {r : RootMetadata}
    (h : decodeRoot X j = some r) (hd : GoodDate X r.expires) : PublishableRoot X r := by
  refine ⟨decodeRoot_some h, ?_, hd, ?_⟩
  all_goals
    unfold decodeRoot at h
    simp only [Option.bind_eq_bind, Option.bind_eq_some_iff] at h
    obtain ⟨_, _, c, _, keys, hk, ⟨a1, a2, a3, a4⟩, hr, ⟨v, t⟩, hh, h⟩ := h
    cases h
  · obtain ⟨_, _, hk⟩ := field_some hk
    intro p hp
    exact decodeKeys_good L hk p (List.mem_filter.1 hp).1
  · obtain ⟨_, _, hr⟩ := field_some hr
    unfold decodeRoles at hr
    simp only [Option.bind_eq_bind, Option.bind_eq_some_iff] at hr
    obtain ⟨_, _, a, ha, b, hb, c, hc, d, hd, h⟩ := hr
    cases h
    obtain ⟨_, _, ha⟩ := field_some ha
    obtain ⟨_, _, hb⟩ := field_some hb
    obtain ⟨_, _, hc⟩ := field_some hc
    obtain ⟨_, _, hd⟩ := field_some hd
    exact ⟨decodeRoleDefinition_small ha, decodeRoleDefinition_small hb,
      decodeRoleDefinition_small hc, decodeRoleDefinition_small hd⟩

theorem decodeDelegation_small {j : Json} {d : Delegation} (h : decodeDelegation j = some d) :
    d.threshold < 2 ^ 32 ∧ MetadataPath.new d.role = .ok d.role ∧
      ∀ p ∈ d.paths, VirtualTargetPath.new p = .ok p := by
  unfold decodeDelegation at h
  simp only [Option.bind_eq_bind, Option.bind_eq_some_iff] at h
  obtain ⟨_, _, role, hr, term, _, t, ht, ids, hids, paths, hp, h⟩ := h
  obtain ⟨_, _, hr⟩ := field_some hr
  obtain ⟨_, _, ht⟩ := field_some ht
  obtain ⟨_, _, hp⟩ := field_some hp
  rw [Option.bind_eq_some_iff] at hr
  obtain ⟨_, _, hr⟩ := hr
  split at h
  · cases h
    refine ⟨asU32_some ht, accepted_iff_meta.2 ⟨rfl, (metadataPathOfStr_some hr).2⟩, fun p h => ?_⟩
    obtain ⟨_, e⟩ := asVec_some hp p h
    rw [Option.bind_eq_some_iff] at e
    obtain ⟨_, _, e⟩ := e
    have := (virtualPathOfStr_some e).2
    unfold VirtualTargetPath.new
    rw [this]
  · cases h

theorem decodeTargetDescription_custom {j : Json} {d : TargetDescription}
    (h : decodeTargetDescription j = some d) :
    ∀ c, d.custom = some c → (c.map Prod.fst).Nodup ∧ ∀ q ∈ c, q.2.normal = q.2 := by
  unfold decodeTargetDescription at h
  simp only [Option.bind_eq_bind, Option.bind_eq_some_iff] at h
  obtain ⟨_, _, l, hl, hs, hh, cu, hc, h⟩ := h
  split at h
  · cases h
    rintro c rfl
    obtain ⟨_, e⟩ := fieldOpt_some hc
    obtain ⟨h1, h2⟩ := asMap_some e
    refine ⟨h1, fun q hq => ?_⟩
    obtain ⟨_, j', e⟩ := h2 q hq
    rw [← Option.some.inj e]
    exact normal_isValue _ (isValue_normal j')
  · cases h

theorem decodeTargets_publishable {X : ShimLib} (L : Laws X) {j : Json} {m : TargetsMetadata}
    (h : decodeTargets X j = some m) (hd : GoodDate X m.expires) : PublishableTargets X m := by
  have hg := (decodeTargets_some h).1
  unfold decodeTargets at h
  simp only [Option.bind_eq_bind, Option.bind_eq_some_iff] at h
  obtain ⟨_, _, ts, ht, ds, hds, ⟨v, t⟩, hh, h⟩ := h
  cases h
  obtain ⟨_, _, ht⟩ := field_some ht
  have hdel : ∀ d, ds = some d → (∀ p ∈ d.keys, IsKeyId p.1 ∧ GoodKey X p.2) ∧
      ∀ r ∈ d.roles, r.threshold < 2 ^ 32 ∧ MetadataPath.new r.role = .ok r.role ∧
        ∀ p ∈ r.paths, VirtualTargetPath.new p = .ok p := by
    rintro d rfl
    obtain ⟨_, e⟩ := fieldOpt_some hds
    unfold decodeDelegations at e
    simp only [Option.bind_eq_bind, Option.bind_eq_some_iff] at e
    obtain ⟨_, _, keys, hk, roles, hr, e⟩ := e
    obtain ⟨_, _, hk⟩ := field_some hk
    obtain ⟨_, _, hr⟩ := field_some hr
    split at e
    · cases e
      refine ⟨decodeKeys_good L hk, fun r h => ?_⟩
      obtain ⟨_, e⟩ := asVec_some hr r h
      exact decodeDelegation_small e
    · cases e
  refine ⟨hg, hd, fun p hp => ?_, fun p hp => ?_, fun d e => (hdel d e).1, fun d e => (hdel d e).2⟩
  · obtain ⟨⟨_, e⟩, _⟩ := (asMap_some ht).2 p hp
    have := (virtualPathOfStr_some e).2
    unfold VirtualTargetPath.new
    rw [this]
  · obtain ⟨_, _, e⟩ := (asMap_some ht).2 p hp
    exact decodeTargetDescription_custom e

/-- **C70.** Root metadata that was decoded can be encoded, and decodes to the same metadata again. -/
theorem C70_root_again (X : ShimLib) (L : Laws X) (j : Json) (r : RootMetadata)
    (h : decodeRoot X j = some r) (hd : GoodDate X r.expires) :
    ∃ j' r', encodeRoot X r = some j' ∧ decodeRoot X j'.normal = some r' ∧ SameRoot r r' :=
  C70_root X L r (decodeRoot_publishable L h hd)

/-- **C70.** Timestamp metadata that was decoded can be encoded, and decodes to the same again. -/
theorem C70_timestamp_again (X : ShimLib) (j : Json) (m : TimestampMetadata)
    (h : decodeTimestamp X j = some m) (hd : GoodDate X m.expires) :
    ∃ j' m', encodeTimestamp X m = some j' ∧ decodeTimestamp X j'.normal = some m' ∧
      SameTimestamp m m' := C70_timestamp X m (decodeTimestamp_some h) hd

/-- **C70.** Snapshot metadata that was decoded can be encoded, and decodes to the same again. -/
theorem C70_snapshot_again (X : ShimLib) (j : Json) (m : SnapshotMetadata)
    (h : decodeSnapshot X j = some m) (hd : GoodDate X m.expires) :
    ∃ j' m', encodeSnapshot X m = some j' ∧ decodeSnapshot X j'.normal = some m' ∧
      SameSnapshot m m' := by
  refine C70_snapshot X m (decodeSnapshot_some h).1 (fun p hp => ?_) hd
  unfold decodeSnapshot at h
  simp only [Option.bind_eq_bind, Option.bind_eq_some_iff] at h
  obtain ⟨_, _, ms, hm, ⟨v, t⟩, hh, ms', hm', h⟩ := h
  cases h
  obtain ⟨q, hq, e⟩ := mapAll_some hm' p (mem_collect hp)
  rw [Option.map_eq_some_iff] at e
  obtain ⟨n, hn, rfl⟩ := e
  exact accepted_iff_meta.2 ⟨rfl, (stripJson_some hn).1⟩

/-- **C70.** Targets metadata that was decoded can be encoded, and decodes to the same again. -/
theorem C70_targets_again (X : ShimLib) (L : Laws X) (j : Json) (m : TargetsMetadata)
    (h : decodeTargets X j = some m) (hd : GoodDate X m.expires) :
    ∃ j' m', encodeTargets X m = some j' ∧ decodeTargets X j'.normal = some m' ∧ SameTargets m m' :=
  C70_targets X L m (decodeTargets_publishable L h hd)

end RustTuf.Props
