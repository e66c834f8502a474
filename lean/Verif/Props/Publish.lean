import Verif.Props.RoundTrip
import Verif.Props.Signed
import Verif.Props.Verify

/-!
# C71: what is signed and published with this crate is accepted by a client with the right keys
-/

namespace RustTuf.Props
open Spec RustTuf Json

/-- The JSON interchange as the functions that make signed metadata use it. -/
def jsonInterchange {M : Type} (decode : Json → Option M) : Interchange JsonValue :=
  ⟨fun v => Json.canonicalize v.1, fun v => (fromValue decode v.1).map fun _ => ()⟩

instance : DecidableEq JsonValue := inferInstanceAs (DecidableEq {v : Json // v.normal = v})

/-! ### Reading a published document -/

theorem decodeSignature_encode {s : Signature} (h : IsKeyId s.keyId) :
    decodeSignature (encodeSignature s).normal = some s := by
  unfold decodeSignature encodeSignature
  rw [asStruct_normal]
  simp only [Option.bind_eq_bind, Option.bind_some]
  rw [field_members (j := .str s.keyId) (of_decide_eq_true rfl) rfl,
    field_members (j := encodeHex s.value) (of_decide_eq_true rfl) rfl]
  have e1 : decodeKeyId (Json.str s.keyId).normal = some s.keyId := decodeKeyId_str h
  have e2 : decodeHex (encodeHex s.value).normal = some s.value := by
    simp only [encodeHex, Json.normal, decodeHex, asStr, Option.bind_some]
    exact hexLowerDecode_hexLower _
  rw [e1, e2]
  rfl

theorem decodeSigned_encode (m : SignedMetadata JsonValue) (h : ∀ s ∈ m.signatures, IsKeyId s.keyId) :
    decodeSigned (encodeSigned m).normal = some (m.signatures, m.metadata.1) := by
  unfold decodeSigned encodeSigned
  rw [asStruct_normal]
  simp only [Option.bind_eq_bind, Option.bind_some]
  rw [field_members (j := .arr (m.signatures.map encodeSignature)) (of_decide_eq_true rfl) rfl,
    field_members (j := m.metadata.1) (of_decide_eq_true rfl) rfl]
  have e1 : asVec decodeSignature (Json.arr (m.signatures.map encodeSignature)).normal =
      some m.signatures := by
    rw [Json.normal, normalL_eq, List.map_map, asVec]
    rw [mapAll_map (g := normal ∘ encodeSignature) (h := id) _
      fun s hs => decodeSignature_encode (h s hs), List.map_id]
  rw [e1]
  simp only [Option.bind_some, m.metadata.2]

theorem integral_encodeSigned (m : SignedMetadata JsonValue) :
    integral (encodeSigned m) = integral m.metadata.1 := by
  have : integralL (m.signatures.map encodeSignature) = true := by
    rw [integralL_eq, List.all_map, List.all_eq_true]
    intro s _
    rfl
  simp [encodeSigned, integral, integralM, this]

mutual
theorem depth_eq : ∀ v : Json, depth v = nesting v
  | .null => rfl
  | .bool _ => rfl
  | .int _ => rfl
  | .float _ => rfl
  | .str _ => rfl
  | .arr l => by simp only [depth, nesting, depthL_eq l]
  | .obj m => by simp only [depth, nesting, depthM_eq m]
theorem depthL_eq : ∀ l : List Json, depthL l = nestingL l
  | [] => rfl
  | v :: l => by simp only [depthL, nestingL, depth_eq v, depthL_eq l]
theorem depthM_eq : ∀ m : List (Str × Json), depthM m = nestingM m
  | [] => rfl
  | (_, v) :: m => by simp only [depthM, nestingM, depth_eq v, depthM_eq m]
end

theorem nesting_normal (v : Json) : nesting (normal v) ≤ nesting v := by
  rw [← depth_eq]
  exact depth_normal v

theorem nesting_encodeSigned (m : SignedMetadata JsonValue) :
    nesting (encodeSigned m) ≤ max 3 (nesting m.metadata.1 + 1) := by
  have : nestingL (m.signatures.map encodeSignature) ≤ 1 := by
    induction m.signatures with
    | nil => simp [nestingL]
    | cons s l ih =>
      simp only [List.map_cons, nestingL]
      have : nesting (encodeSignature s) = 1 := rfl
      omega
  simp only [encodeSigned, nesting, nestingM]
  omega

variable (X : ShimLib) (ring : Scheme → Bytes → Bytes → Bytes → Bool)
  (order : Map KeyId Signature → List (KeyId × Signature)) (perm : ∀ m, (order m).Perm m)

/-- **C71.** Publishing and parsing: the bytes of signed metadata can be made whenever its content
has a canonical form, and whoever parses them gets the same signatures and the same content. -/
theorem C71_to_raw_parses (m : SignedMetadata JsonValue) (msg : Bytes)
    (hc : Json.canonicalize m.metadata.1 = .ok msg)
    (hids : ∀ s ∈ m.signatures, IsKeyId s.keyId) (hn : nesting m.metadata.1 < 127) :
    ∃ raw, m.toRaw = .ok raw ∧
      (jsonEnv X ring order perm).parseSigned raw = .ok (m.signatures, m.metadata) := by
  have hi : integral (encodeSigned m) = true := by
    rw [integral_encodeSigned]
    exact (canonicalize_ok hc).1
  have hi' : integral (encodeSigned m).normal = true :=
    integral_canon _ (canon_normal _ hi)
  obtain ⟨raw, hraw⟩ := (C52_total_on_integers _).1 hi'
  have hd := nesting_encodeSigned m
  have hp := C68_canonical_bytes_read_back X.float _ raw (isValue_normal _)
    (by have := nesting_normal (encodeSigned m); omega) hraw
  refine ⟨raw, hraw, ?_⟩
  show RustTuf.fromSlice _ _ _ = _
  unfold RustTuf.fromSlice
  rw [hp]
  simp only
  rw [decodeSigned_encode m hids]
  simp only [Option.map_some]
  congr 2
  exact Subtype.ext m.metadata.2

/-- A set of keys in which an ID stands for one key only. -/
def OneKeyPerId (keys : List PublicKey) : Prop :=
  ∀ k ∈ keys, ∀ k' ∈ keys, k.keyId = k'.keyId → k = k'

/-- **C71.** Signed metadata made with this crate, in whatever way, is accepted by a client: if its
content decodes to `m`, if at least `n ≥ 1` of the keys the client trusts accept the signature listed
for them, the published bytes exist and verify at threshold `n` with result `m`. -/
theorem C71_published_is_accepted {M : Type} (decode : Json → Option M)
    (sm : SignedMetadata JsonValue) (hm : Made (jsonInterchange decode) sm) (m : M)
    (hd : decode sm.metadata.1 = some m) (hn : nesting sm.metadata.1 < 127)
    (hids : ∀ s ∈ sm.signatures, IsKeyId s.keyId)
    (msg : Bytes) (hc : Json.canonicalize sm.metadata.1 = .ok msg)
    (keys : List PublicKey) (hk : OneKeyPerId keys) (n : Nat) (h1 : 1 ≤ n)
    (signers : List PublicKey) (hs : signers.Nodup) (hlen : n ≤ signers.length)
    (hsig : ∀ k ∈ signers, k ∈ keys ∧ ∃ s ∈ sm.signatures, s.keyId = k.keyId ∧
      Valid (jsonEnv X ring order perm) k msg s) :
    ∃ raw, sm.toRaw = .ok raw ∧
      verifySignatures (jsonEnv X ring order perm) (RustTuf.fromSlice X.float decode) raw n keys =
        .ok m := by
  obtain ⟨raw, hraw, hp⟩ := C71_to_raw_parses X ring order perm sm msg hc hids hn
  refine ⟨raw, hraw, (verifySignatures_ok_iff ..).2 ⟨msg, ⟨h1, _, _, hp, hc,
    signers.map PublicKey.keyId, ?_, by simpa using hlen, ?_⟩, ?_⟩⟩
  · refine (List.nodup_map_iff_inj_on hs).2 fun a ha b hb e => ?_
    exact hk a (hsig a ha).1 b (hsig b hb).1 e
  · intro id hid
    obtain ⟨k, hkm, rfl⟩ := List.mem_map.1 hid
    obtain ⟨hkk, s, hs, hsk, hv⟩ := hsig k hkm
    refine ⟨k, s, (lastWith_iff_mem hk _ _).2 ⟨hkk, rfl⟩, ?_, hv⟩
    refine ⟨hsk, ?_⟩
    obtain ⟨pre, post, e⟩ := List.append_of_mem hs
    refine ⟨pre, post, e, fun y hy hyk => ?_⟩
    have := C53_one_signature_per_key _ sm hm
    unfold OnePerKey at this
    rw [e, List.map_append, List.map_cons, List.nodup_append, List.nodup_cons] at this
    exact this.2.1.1 (List.mem_map.2 ⟨y, hy, hyk.trans hsk.symm⟩)
  · have := C68_canonical_bytes_read_back X.float sm.metadata.1 msg
      (by rw [← sm.metadata.2]; exact isValue_normal _) (by omega) hc
    unfold RustTuf.fromSlice
    rw [this]
    simp only
    rw [hd]

/-! ### How deeply the encoders nest -/

theorem nestingM_le {m : List (Str × Json)} {c : Nat} : nestingM m ≤ c ↔ ∀ p ∈ m, nesting p.2 ≤ c := by
  rw [← depthM_eq, depthM_le]
  simp only [depth_eq]

theorem nestingL_le {l : List Json} {c : Nat} : nestingL l ≤ c ↔ ∀ v ∈ l, nesting v ≤ c := by
  induction l with
  | nil => simp [nestingL]
  | cons v l ih => simp [nestingL, ih]

theorem nesting_strs (l : List Str) : nesting (Json.arr (l.map Json.str)) = 1 := by
  have : nestingL (l.map Json.str) ≤ 0 := nestingL_le.2 fun v hv => by
    obtain ⟨s, _, rfl⟩ := List.mem_map.1 hv
    exact Nat.le_refl _
  simp only [nesting]
  omega

theorem nesting_encodeEntries {K V : Type} {key : K → Option Str} {value : V → Option Json}
    {m : Map K V} {j : Json} {c : Nat} (h : encodeEntries key value m = some j)
    (hv : ∀ p ∈ m, ∀ j, value p.2 = some j → nesting j ≤ c) : nesting j ≤ c + 1 := by
  unfold encodeEntries at h
  rw [Option.map_eq_some_iff] at h
  obtain ⟨l, hl, rfl⟩ := h
  have : nestingM l ≤ c := nestingM_le.2 fun q hq => by
    obtain ⟨p, hp, e⟩ := mapAll_some hl q hq
    repeat' split at e
    all_goals cases e
    rename_i hj
    exact hv p hp _ hj
  simp only [nesting]
  omega

theorem nesting_encodePublicKey {k : PublicKey} {j : Json} (h : encodePublicKey X k = some j) :
    nesting j ≤ 2 := by
  have hp : ∀ s : Str, nesting (Json.obj
      ([("keytype".toList, .str k.typ.text), ("scheme".toList, encodeScheme k.scheme)] ++
        algsMember k.keyidHashAlgorithms ++
        [("keyval".toList, .obj [("public".toList, .str s)])])) ≤ 2 := by
    intro s
    have hs : nesting (encodeScheme k.scheme) ≤ 1 := by
      cases k.scheme <;> simp [encodeScheme, nesting, nestingM]
    cases k.keyidHashAlgorithms with
    | none =>
      simp only [algsMember, nesting, nestingM, List.append_nil, List.cons_append, List.nil_append]
      omega
    | some l =>
      have := nesting_strs l
      simp only [algsMember, nesting, nestingM, List.cons_append, List.nil_append] at this ⊢
      omega
  unfold encodePublicKey encodeKey at h
  simp only at h
  split at h
  · cases h
  · rw [← Option.some.inj h]
    exact hp _

theorem nesting_encodeHashes {m : Map HashAlg HashValue} {j : Json} (h : encodeHashes m = some j) :
    nesting j ≤ 1 :=
  nesting_encodeEntries (c := 0) h fun p _ j e => by cases e; exact Nat.le_refl _

theorem nesting_encodeMetadataDescription {d : MetadataDescription} {j : Json}
    (h : encodeMetadataDescription d = some j) : nesting j ≤ 2 := by
  unfold encodeMetadataDescription at h
  rw [Option.map_eq_some_iff] at h
  obtain ⟨j', h1, rfl⟩ := h
  have := nesting_encodeHashes h1
  simp only [nesting, nestingM, natJson]
  omega

theorem nesting_encodeRoleDefinition (r : RoleDefinition) : nesting (encodeRoleDefinition r) ≤ 2 := by
  have := nesting_strs r.keyIds
  simp only [encodeRoleDefinition, nesting, nestingM, natJson] at this ⊢
  omega

theorem nesting_encodeRoot {r : RootMetadata} {j : Json} (h : encodeRoot X r = some j) :
    nesting j ≤ 4 := by
  unfold encodeRoot at h
  split at h
  · cases h
  · rename_i keys hk
    rw [← Option.some.inj h]
    have h0 := nesting_encodeEntries (c := 2) hk fun p _ j e => nesting_encodePublicKey X e
    have h1 := nesting_encodeRoleDefinition r.root
    have h2 := nesting_encodeRoleDefinition r.snapshot
    have h3 := nesting_encodeRoleDefinition r.targets
    have h4 := nesting_encodeRoleDefinition r.timestamp
    simp only [encodeHead, nesting, nestingM, natJson, List.cons_append, List.nil_append]
    omega

theorem nesting_encodeTimestamp {m : TimestampMetadata} {j : Json} (h : encodeTimestamp X m = some j) :
    nesting j ≤ 4 := by
  unfold encodeTimestamp at h
  rw [Option.map_eq_some_iff] at h
  obtain ⟨d, h1, rfl⟩ := h
  have := nesting_encodeMetadataDescription h1
  simp only [encodeHead, nesting, nestingM, natJson, List.cons_append, List.nil_append]
  omega

theorem nesting_encodeSnapshot {m : SnapshotMetadata} {j : Json} (h : encodeSnapshot X m = some j) :
    nesting j ≤ 4 := by
  unfold encodeSnapshot at h
  rw [Option.map_eq_some_iff] at h
  obtain ⟨d, h1, rfl⟩ := h
  have := nesting_encodeEntries (c := 2) h1 fun p _ j e => nesting_encodeMetadataDescription e
  simp only [encodeHead, nesting, nestingM, natJson, List.cons_append, List.nil_append]
  omega

theorem nesting_encodeTargetDescription {d : TargetDescription} {j : Json} {c : Nat}
    (hc : ∀ m, d.custom = some m → ∀ p ∈ m, nesting p.2 ≤ c)
    (h : encodeTargetDescription d = some j) : nesting j ≤ c + 2 := by
  unfold encodeTargetDescription at h
  rw [Option.map_eq_some_iff] at h
  obtain ⟨hs, h1, rfl⟩ := h
  have := nesting_encodeHashes h1
  cases hd : d.custom with
  | none =>
    simp only [nesting, nestingM, natJson, List.append_nil]
    omega
  | some m =>
    have : nestingM m ≤ c := nestingM_le.2 (hc m hd)
    simp only [nesting, nestingM, natJson, List.cons_append, List.nil_append]
    omega

theorem nesting_encodeDelegations {d : Delegations} {j : Json} (h : encodeDelegations X d = some j) :
    nesting j ≤ 4 := by
  unfold encodeDelegations at h
  rw [Option.map_eq_some_iff] at h
  obtain ⟨ks, h1, rfl⟩ := h
  have h0 := nesting_encodeEntries (c := 2) h1 fun p _ j e => nesting_encodePublicKey X e
  have : nestingL (d.roles.map encodeDelegation) ≤ 2 := nestingL_le.2 fun v hv => by
    obtain ⟨r, _, rfl⟩ := List.mem_map.1 hv
    have h1 := nesting_strs (strSort r.keyIds)
    have h2 := nesting_strs (strSort r.paths)
    simp only [encodeDelegation, nesting, nestingM, natJson] at h1 h2 ⊢
    omega
  simp only [nesting, nestingM]
  omega

theorem nesting_encodeTargets {m : TargetsMetadata} {j : Json} {c : Nat}
    (hc : ∀ p ∈ m.targets, ∀ cu, p.2.custom = some cu → ∀ q ∈ cu, nesting q.2 ≤ c)
    (h : encodeTargets X m = some j) : nesting j ≤ max 5 (c + 4) := by
  unfold encodeTargets at h
  split at h
  · cases h
  · rename_i ts ht
    have h0 := nesting_encodeEntries (c := c + 2) ht
      fun p hp j e => nesting_encodeTargetDescription (hc p hp) e
    split at h
    · rw [← Option.some.inj h]
      simp only [encodeHead, nesting, nestingM, natJson, List.cons_append, List.nil_append]
      omega
    · rw [Option.map_eq_some_iff] at h
      obtain ⟨dj, hd, rfl⟩ := h
      have := nesting_encodeDelegations X hd
      simp only [encodeHead, nesting, nestingM, natJson, List.cons_append, List.nil_append]
      omega

/-! ### The four kinds of metadata -/

theorem made_canonical {M : Type} {decode : Json → Option M} {sm : SignedMetadata JsonValue}
    (h : Made (jsonInterchange decode) sm) : ∃ msg, Json.canonicalize sm.metadata.1 = .ok msg := by
  induction h with
  | build b hb => exact ⟨_, (madeBuilder_inv hb).2.2⟩
  | new raw k m hk h =>
    unfold SignedMetadata.new at h
    repeat' split at h
    all_goals cases h
    rename_i hc _ _ _
    exact ⟨_, hc⟩
  | add m k _ _ ih =>
    unfold SignedMetadata.addSignature
    repeat' split
    all_goals exact ih
  | merge m other _ _ ih _ =>
    unfold SignedMetadata.mergeSignatures
    split
    all_goals exact ih

/-- Signed metadata made with this crate whose content is the encoding of `m`, with signatures of at
least `n ≥ 1` of the client's keys. -/
structure Published {M : Type} (encode : M → Option Json) (decode : Json → Option M) (m : M)
    (sm : SignedMetadata JsonValue) (keys : List PublicKey) (n : Nat) : Prop where
  made : Made (jsonInterchange decode) sm
  content : ∃ j, encode m = some j ∧ sm.metadata = j.toValue
  ids : ∀ s ∈ sm.signatures, IsKeyId s.keyId
  oneKey : OneKeyPerId keys
  positive : 1 ≤ n
  enough : ∃ signers : List PublicKey, signers.Nodup ∧ n ≤ signers.length ∧
    ∀ k ∈ signers, k ∈ keys ∧ ∃ s ∈ sm.signatures, s.keyId = k.keyId ∧
      ∀ msg, Json.canonicalize sm.metadata.1 = .ok msg → Valid (jsonEnv X ring order perm) k msg s

theorem Published.accepted {M : Type} {encode : M → Option Json} {decode : Json → Option M} {m : M}
    {sm : SignedMetadata JsonValue} {keys : List PublicKey} {n : Nat}
    (h : Published X ring order perm encode decode m sm keys n)
    (hn : ∀ j, encode m = some j → nesting j < 127) {j' : Json} {m' : M} (hj : encode m = some j')
    (hd : decode j'.normal = some m') :
    ∃ raw, sm.toRaw = .ok raw ∧
      verifySignatures (jsonEnv X ring order perm) (RustTuf.fromSlice X.float decode) raw n keys =
        .ok m' := by
  obtain ⟨j, e1, e2⟩ := h.content
  rw [hj] at e1
  cases e1
  obtain ⟨msg, hc⟩ := made_canonical h.made
  obtain ⟨signers, h1, h2, h3⟩ := h.enough
  refine C71_published_is_accepted X ring order perm decode sm h.made m' ?_ ?_ h.ids msg hc keys
    h.oneKey n h.positive signers h1 h2 fun k hk => ?_
  · rw [e2]; exact hd
  · rw [e2]
    exact lt_of_le_of_lt (nesting_normal _) (hn _ hj)
  · obtain ⟨hm, s, hs, hsk, hv⟩ := h3 k hk
    exact ⟨hm, s, hs, hsk, hv msg hc⟩

/-- **C71.** A root that is signed and published is accepted as the same root. -/
theorem C71_root (L : Laws X) (r : RootMetadata) (hr : PublishableRoot X r)
    (sm : SignedMetadata JsonValue) (keys : List PublicKey) (n : Nat)
    (h : Published X ring order perm (encodeRoot X) (decodeRoot X) r sm keys n) :
    ∃ raw r', sm.toRaw = .ok raw ∧
      verifySignatures (jsonEnv X ring order perm) (jsonEnv X ring order perm).rootFromSlice raw n
        keys = .ok r' ∧ SameRoot r r' := by
  obtain ⟨j, r', h1, h2, h3⟩ := C70_root X L r hr
  obtain ⟨raw, h4, h5⟩ := h.accepted X ring order perm
    (fun j e => by have := nesting_encodeRoot X e; omega) h1 h2
  exact ⟨raw, r', h4, h5, h3⟩

/-- **C71.** A timestamp that is signed and published is accepted as the same timestamp. -/
theorem C71_timestamp (m : TimestampMetadata) (hm : GoodTimestamp m) (hd : GoodDate X m.expires)
    (sm : SignedMetadata JsonValue) (keys : List PublicKey) (n : Nat)
    (h : Published X ring order perm (encodeTimestamp X) (decodeTimestamp X) m sm keys n) :
    ∃ raw m', sm.toRaw = .ok raw ∧
      verifySignatures (jsonEnv X ring order perm) (jsonEnv X ring order perm).timestampFromSlice raw
        n keys = .ok m' ∧ SameTimestamp m m' := by
  obtain ⟨j, m', h1, h2, h3⟩ := C70_timestamp X m hm hd
  obtain ⟨raw, h4, h5⟩ := h.accepted X ring order perm
    (fun j e => by have := nesting_encodeTimestamp X e; omega) h1 h2
  exact ⟨raw, m', h4, h5, h3⟩

/-- **C71.** A snapshot that is signed and published is accepted as the same snapshot. -/
theorem C71_snapshot (m : SnapshotMetadata) (hm : GoodSnapshot m)
    (hp : ∀ p ∈ m.metas, MetadataPath.new p.1 = .ok p.1) (hd : GoodDate X m.expires)
    (sm : SignedMetadata JsonValue) (keys : List PublicKey) (n : Nat)
    (h : Published X ring order perm (encodeSnapshot X) (decodeSnapshot X) m sm keys n) :
    ∃ raw m', sm.toRaw = .ok raw ∧
      verifySignatures (jsonEnv X ring order perm) (jsonEnv X ring order perm).snapshotFromSlice raw n
        keys = .ok m' ∧ SameSnapshot m m' := by
  obtain ⟨j, m', h1, h2, h3⟩ := C70_snapshot X m hm hp hd
  obtain ⟨raw, h4, h5⟩ := h.accepted X ring order perm
    (fun j e => by have := nesting_encodeSnapshot X e; omega) h1 h2
  exact ⟨raw, m', h4, h5, h3⟩

/-- **C71.** Targets that are signed and published are accepted as the same targets, if the custom
data of targets is not nested too deeply. -/
theorem C71_targets (L : Laws X) (m : TargetsMetadata) (hm : PublishableTargets X m)
    (hc : ∀ p ∈ m.targets, ∀ c, p.2.custom = some c → ∀ q ∈ c, nesting q.2 ≤ 122)
    (sm : SignedMetadata JsonValue) (keys : List PublicKey) (n : Nat)
    (h : Published X ring order perm (encodeTargets X) (decodeTargets X) m sm keys n) :
    ∃ raw m', sm.toRaw = .ok raw ∧
      verifySignatures (jsonEnv X ring order perm) (jsonEnv X ring order perm).targetsFromSlice raw n
        keys = .ok m' ∧ SameTargets m m' := by
  obtain ⟨j, m', h1, h2, h3⟩ := C70_targets X L m hm
  obtain ⟨raw, h4, h5⟩ := h.accepted X ring order perm
    (fun j e => by have := nesting_encodeTargets X hc e; omega) h1 h2
  exact ⟨raw, m', h4, h5, h3⟩

/-! ### Starting from metadata -/

/-- **C71.** `SignedMetadataBuilder::from_metadata` holds exactly the encoding of the metadata. -/
theorem C71_builder_content {M : Type} (encode : M → Option Json) (decode : Json → Option M) (m : M)
    (b : SignedBuilder JsonValue) (h : SignedBuilder.fromMetadata encode decode m = .ok b) :
    MadeBuilder (jsonInterchange decode) b ∧ ∃ j, encode m = some j ∧ b.metadata = j.toValue := by
  unfold SignedBuilder.fromMetadata at h
  split at h
  · cases h
  · rename_i v hv
    refine ⟨.start _ _ h, ?_⟩
    unfold serialize at hv
    split at hv
    · cases hv
    · rename_i j hj
      cases hv
      refine ⟨j, hj, ?_⟩
      unfold SignedBuilder.fromRawMetadata at h
      repeat' split at h
      all_goals cases h
      rfl

/-- **C71.** `from_metadata` succeeds if the metadata can be encoded and decoded and all its numbers
are integers. -/
theorem C71_builder_succeeds {M : Type} (encode : M → Option Json) (decode : Json → Option M)
    (m m' : M) (j : Json) (h1 : encode m = some j) (h2 : decode j.normal = some m')
    (h3 : integral j = true) : ∃ b, SignedBuilder.fromMetadata encode decode m = .ok b := by
  have hi : integral j.normal = true := integral_canon _ (canon_normal _ h3)
  obtain ⟨msg, hc⟩ := (C52_total_on_integers _).1 hi
  have e1 : (fromValue decode j.toValue.1).map (fun _ => ()) = .ok () := by
    unfold fromValue Json.toValue
    simp only
    rw [h2]
    rfl
  have e2 : Json.canonicalize j.toValue.1 = .ok msg := hc
  unfold SignedBuilder.fromMetadata serialize
  rw [h1]
  simp only
  unfold SignedBuilder.fromRawMetadata
  simp only
  rw [e1, e2]
  exact ⟨_, rfl⟩

theorem integral_nat {n : Nat} (h : n < 2 ^ 64) : integral (natJson n) = true := by
  simp only [natJson, integral, decide_eq_true_eq]
  omega

theorem integral_strs (l : List Str) : integral (Json.arr (l.map Json.str)) = true := by
  rw [integral, integralL_eq, List.all_map, List.all_eq_true]
  intro s _
  rfl

theorem integral_encodeEntries {K V : Type} {key : K → Option Str} {value : V → Option Json}
    {m : Map K V} {j : Json} (h : encodeEntries key value m = some j)
    (hv : ∀ p ∈ m, ∀ j, value p.2 = some j → integral j = true) : integral j = true := by
  unfold encodeEntries at h
  rw [Option.map_eq_some_iff] at h
  obtain ⟨l, hl, rfl⟩ := h
  rw [integral, integralM_eq, List.all_eq_true]
  intro q hq
  obtain ⟨p, hp, e⟩ := mapAll_some hl q hq
  repeat' split at e
  all_goals cases e
  rename_i hj
  exact hv p hp _ hj

theorem integral_encodePublicKey {k : PublicKey} {j : Json} (h : encodePublicKey X k = some j) :
    integral j = true := by
  unfold encodePublicKey encodeKey at h
  simp only at h
  split at h
  · cases h
  · rw [← Option.some.inj h]
    have hs : integral (encodeScheme k.scheme) = true := by
      cases k.scheme <;> simp [encodeScheme, integral, integralM]
    cases k.keyidHashAlgorithms with
    | none => simp [algsMember, integral, integralM, hs]
    | some l =>
      have := integral_strs l
      simp only [integral] at this
      simp [algsMember, integral, integralM, hs, this]

theorem integral_encodeRoot {r : RootMetadata} (hr : PublishableRoot X r) {j : Json}
    (h : encodeRoot X r = some j) : integral j = true := by
  have role : ∀ d : RoleDefinition, d.threshold < 2 ^ 32 → integral (encodeRoleDefinition d) = true := by
    intro d hd
    have h1 := integral_strs d.keyIds
    have h2 := integral_nat (n := d.threshold) (by omega)
    simp only [integral] at h1
    simp [encodeRoleDefinition, integral, integralM, h1, h2]
  unfold encodeRoot at h
  split at h
  · cases h
  · rename_i keys hk
    rw [← Option.some.inj h]
    have h0 := integral_encodeEntries hk fun p _ j e => integral_encodePublicKey X e
    obtain ⟨h1, h2, h3, h4⟩ := hr.small
    have hv := integral_nat (n := r.version) (by have := hr.good.version.2; omega)
    simp [encodeHead, integral, integralM, role _ h1, role _ h2, role _ h3, role _ h4, h0, hv]

/-- **C71.** A builder can be made for every publishable root. -/
theorem C71_root_builder (L : Laws X) (r : RootMetadata) (hr : PublishableRoot X r) :
    ∃ b, SignedBuilder.fromMetadata (encodeRoot X) (decodeRoot X) r = .ok b := by
  obtain ⟨j, r', h1, h2, _⟩ := C70_root X L r hr
  exact C71_builder_succeeds _ _ r r' j h1 h2 (integral_encodeRoot X hr h1)

end RustTuf.Props
