import Verif.Props.RoundTrip
import Verif.Props.Shims
import Verif.Props.PublishExample

/-!
# C76: key IDs
-/

namespace RustTuf.Props
open Spec RustTuf Json

/-- The canonical JSON documents of these two keys are different byte strings with the same SHA-256
digest: the keys exhibit a collision. (That some collision exists says nothing: it is true of every
function to 32 bytes.) -/
def Collide (X : ShimLib) (k k' : PublicKey) : Prop :=
  ∃ j j' b b', encodeKey X k.typ k.scheme k.keyidHashAlgorithms k.value = some j ∧
    encodeKey X k'.typ k'.scheme k'.keyidHashAlgorithms k'.value = some j' ∧
    Json.canonicalize j = .ok b ∧ Json.canonicalize j' = .ok b' ∧
    b ≠ b' ∧ X.sha256 b = X.sha256 b'

theorem hexLower_inj {a b : Bytes} (h : hexLower a = hexLower b) : a = b := by
  have := congrArg hexLowerDecode h
  rw [hexLowerDecode_hexLower, hexLowerDecode_hexLower] at this
  exact Option.some.inj this

/-- What an ID is computed from. -/
theorem keyId_of {X : ShimLib} {typ scheme algs value} {id : KeyId}
    (h : calculateKeyId X typ scheme algs value = some id) :
    ∃ j b, encodeKey X typ scheme algs value = some j ∧ Json.canonicalize j = .ok b ∧
      id = hexLower (X.sha256 b) := by
  unfold calculateKeyId at h
  split at h
  · cases h
  · rename_i j hj
    split at h
    · cases h
    · rename_i b hb
      cases h
      exact ⟨j, b, hj, hb, rfl⟩

/-- **C76.** A key ID stands for one key: if two keys, each with its computed ID, have the same ID,
they agree in type, scheme, declared hash algorithms and key material, or their two documents are a
SHA-256 collision. -/
theorem C76_key_id_determines_key (X : ShimLib) (L : Laws X) (k k' : PublicKey) (hk : GoodKey X k)
    (hk' : GoodKey X k') (h : k.keyId = k'.keyId) : k = k' ∨ Collide X k k' := by
  obtain ⟨j, b, h1, h2, h3⟩ := keyId_of hk.id
  obtain ⟨j', b', h1', h2', h3'⟩ := keyId_of hk'.id
  by_cases hb : b = b'
  · subst hb
    have hn := canonicalize_same h2 h2'
    have d := decodePublicKey_encode L hk (j := j) h1
    have d' := decodePublicKey_encode L hk' (j := j') h1'
    rw [hn, d'] at d
    exact .inl (Option.some.inj d).symm
  · refine .inr ⟨j, j', b, b', h1, h1', h2, h2', hb, hexLower_inj ?_⟩
    rw [← h3, ← h3', h]

theorem decodeRoot_keys {X : ShimLib} (L : Laws X) {j : Json} {r : RootMetadata}
    (h : decodeRoot X j = some r) : ∀ p ∈ r.keys, p.1 = p.2.keyId ∧ GoodKey X p.2 := by
  intro p hp
  refine ⟨(decodeRoot_some h).own p hp, ?_⟩
  unfold decodeRoot at h
  simp only [Option.bind_eq_bind, Option.bind_eq_some_iff] at h
  obtain ⟨_, _, c, _, keys, hk, ⟨a1, a2, a3, a4⟩, hr, ⟨v, t⟩, hh, h⟩ := h
  cases h
  obtain ⟨_, _, hk⟩ := field_some hk
  exact (decodeKeys_good L hk p (List.mem_filter.1 hp).1).2

theorem decodeTargets_keys {X : ShimLib} (L : Laws X) {j : Json} {m : TargetsMetadata}
    (h : decodeTargets X j = some m) : ∀ d, m.delegations = some d → ∀ p ∈ d.keys, GoodKey X p.2 := by
  unfold decodeTargets at h
  simp only [Option.bind_eq_bind, Option.bind_eq_some_iff] at h
  obtain ⟨_, _, ts, ht, ds, hds, ⟨v, t⟩, hh, h⟩ := h
  cases h
  rintro d rfl
  obtain ⟨_, e⟩ := fieldOpt_some hds
  unfold decodeDelegations at e
  simp only [Option.bind_eq_bind, Option.bind_eq_some_iff] at e
  obtain ⟨_, _, keys, hk, roles, hr, e⟩ := e
  obtain ⟨_, _, hk⟩ := field_some hk
  split at e
  · cases e
    exact fun p hp => (decodeKeys_good L hk p hp).2
  · cases e

/-- A key that a root document or the delegations of a targets document list. -/
inductive Listed (X : ShimLib) : PublicKey → Prop
  | root (j : Json) (r : RootMetadata) (id : KeyId) (k : PublicKey) :
      decodeRoot X j = some r → (id, k) ∈ r.keys → Listed X k
  | delegations (j : Json) (m : TargetsMetadata) (d : Delegations) (id : KeyId) (k : PublicKey) :
      decodeTargets X j = some m → m.delegations = some d → (id, k) ∈ d.keys → Listed X k

/-- **C76.** So whoever serves metadata cannot give a known key ID a new meaning: any two keys listed
in decoded root or targets documents that have the same ID are the same key, or exhibit a SHA-256
collision. -/
theorem C76_listed_keys (X : ShimLib) (L : Laws X) (k k' : PublicKey) (h : Listed X k)
    (h' : Listed X k') (e : k.keyId = k'.keyId) : k = k' ∨ Collide X k k' := by
  have good : ∀ k, Listed X k → GoodKey X k := by
    intro k h
    cases h with
    | root j r id k hd hk => exact (decodeRoot_keys L hd _ hk).2
    | delegations j m d id k hd e hk => exact decodeTargets_keys L hd d e _ hk
  exact C76_key_id_determines_key X L k k' (good k h) (good k' h') e

/-- **C76.** In particular a key ID that the roles of two root documents name means the same key in
both. -/
theorem C76_root_key_ids (X : ShimLib) (L : Laws X) (j j' : Json) (r r' : RootMetadata)
    (h : decodeRoot X j = some r) (h' : decodeRoot X j' = some r') (id : KeyId) (k k' : PublicKey)
    (hk : r.keys.get? id = some k) (hk' : r'.keys.get? id = some k') : k = k' ∨ Collide X k k' := by
  have m := Map.mem_of_get? hk
  have m' := Map.mem_of_get? hk'
  refine C76_listed_keys X L k k' (.root j r id k h m) (.root j' r' id k' h' m') ?_
  rw [← (decodeRoot_keys L h _ m).1, ← (decodeRoot_keys L h' _ m').1]

/-- The ID of a key made by `PublicKey::from_ed25519`. -/
theorem fromEd25519_good {X : ShimLib} {value : Bytes} {algs : Option (List Str)} {k : PublicKey}
    (h : PublicKey.fromEd25519 X value algs = some k) :
    GoodKey X k ∧ k.value = value ∧ k.scheme = .ed25519 ∧ k.keyidHashAlgorithms = algs := by
  unfold PublicKey.fromEd25519 at h
  split at h
  · rename_i hl
    obtain ⟨h1, h2, h3, h4⟩ := make_good h
    refine ⟨⟨h1, .inl ⟨h2, h3, by rw [h4]; exact hl⟩⟩, h4, h3, ?_⟩
    unfold PublicKey.make at h
    split at h
    · cases h
    · cases h; rfl
  · cases h

/-- **C76.** The converse fails: one and the same Ed25519 key has a different ID for every way to
declare hash algorithms, unless the two documents are a SHA-256 collision. -/
theorem C76_two_ids_for_one_key (X : ShimLib) (L : Laws X) (value : Bytes)
    (algs algs' : Option (List Str)) (hne : algs ≠ algs') (k k' : PublicKey)
    (h : PublicKey.fromEd25519 X value algs = some k)
    (h' : PublicKey.fromEd25519 X value algs' = some k') :
    k.value = k'.value ∧ k.scheme = k'.scheme ∧ (k.keyId ≠ k'.keyId ∨ Collide X k k') := by
  obtain ⟨g, e1, e2, e3⟩ := fromEd25519_good h
  obtain ⟨g', e1', e2', e3'⟩ := fromEd25519_good h'
  refine ⟨by rw [e1, e1'], by rw [e2, e2'], ?_⟩
  by_cases hid : k.keyId = k'.keyId
  · rcases C76_key_id_determines_key X L k k' g g' hid with rfl | hc
    · exact absurd (by rw [← e3, ← e3']) hne
    · exact .inr hc
  · exact .inl hid

namespace PublishExample

/-- The library with a digest function that keeps its input apart (the identity). -/
def idLib : ShimLib := { lib with sha256 := id }

theorem idLaws : Laws idLib := ⟨laws.base64, laws.spki⟩

/-- With it there are no collisions, so the two keys have different IDs. -/
example : (∀ k k', ¬ Collide idLib k k') ∧ ∃ k k', PublicKey.fromEd25519 idLib (List.replicate 32 7) none = some k ∧
    PublicKey.fromEd25519 idLib (List.replicate 32 7) (some ["sha256".toList]) = some k' ∧
    k.keyId ≠ k'.keyId := by
  refine ⟨fun k k' ⟨_, _, b, b', _, _, _, _, h1, h2⟩ => h1 h2, ?_⟩
  have h1 : (PublicKey.fromEd25519 idLib (List.replicate 32 7) none).isSome = true := by decide +kernel
  have h2 : (PublicKey.fromEd25519 idLib (List.replicate 32 7) (some ["sha256".toList])).isSome = true := by
    decide +kernel
  obtain ⟨k, hk⟩ := Option.isSome_iff_exists.1 h1
  obtain ⟨k', hk'⟩ := Option.isSome_iff_exists.1 h2
  refine ⟨k, k', hk, hk', ?_⟩
  rcases (C76_two_ids_for_one_key idLib idLaws _ none _ (by simp) k k' hk hk').2.2 with h | ⟨_, _, b, b', _, _, _, _, h3, h4⟩
  · exact h
  · exact absurd h4 h3

/-- Listed keys exist: the root of the other examples lists one. -/
example : ∃ k, Listed lib k := by
  obtain ⟨j, r', _, h2, h3⟩ := C70_root lib laws root publishable
  obtain ⟨w, hw, _⟩ := h3.keys.there id0 key (by simp [root, Map.get?])
  exact ⟨w, .root j.normal r' id0 w h2 (Map.mem_of_get? hw)⟩

end PublishExample

end RustTuf.Props
