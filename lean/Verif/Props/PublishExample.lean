import Verif.Props.Publish

/-!
# Examples for C70 and C71
-/

namespace RustTuf.Props
open Spec RustTuf Json

namespace PublishExample

/-- A library with a constant digest, one date, hexadecimal in place of base64, and the key itself in
place of its SPKI form. -/
def lib : ShimLib where
  float := ⟨fun _ => none⟩
  sha256 := fun _ => List.replicate 32 0
  parseDate := fun s => if s = "1".toList then some 1 else none
  formatDate := fun _ => "1".toList
  base64Decode := hexLowerDecode
  base64Encode := hexLower
  readSpki := fun d => some (.rsa, d)
  writeSpki := fun _ v => some v

theorem laws : Laws lib where
  base64 := hexLowerDecode_hexLower
  spki := by
    intro t v d h
    have h : some (KeyType.rsa, d) = some (t, v) := h
    cases h
    exact ⟨v, rfl, rfl⟩

instance (s : KeyId) : Decidable (IsKeyId s) := inferInstanceAs (Decidable ((utf8 s).length = 64))
instance (n : Nat) : Decidable (GoodVersion n) := inferInstanceAs (Decidable (1 ≤ n ∧ n < 2 ^ 32))

def id0 : KeyId := List.replicate 64 '0'

/-- An Ed25519 key. -/
def key : PublicKey := ⟨.ed25519, id0, .ed25519, none, List.replicate 32 7⟩

/-- An RSA key. -/
def rsa : PublicKey := ⟨.rsa, id0, .rsaSsaPssSha256, some ["sha256".toList], [1, 2, 3]⟩

def role : RoleDefinition := ⟨1, [id0]⟩

def root : RootMetadata := ⟨3, 1, true, [(id0, key)], role, role, role, role⟩

theorem goodKey : GoodKey lib key := ⟨by decide +kernel, .inl ⟨rfl, rfl, rfl⟩⟩
theorem goodRsa : GoodKey lib rsa := ⟨by decide +kernel, .inr ⟨rfl, _, rfl, rfl⟩⟩

theorem isKeyId : IsKeyId id0 := by decide +kernel

theorem goodRole : GoodRole role.threshold role.keyIds := by
  constructor
  all_goals decide +kernel

-- Hypotheses of `C70_root`.
theorem publishable : PublishableRoot lib root where
  good := by
    constructor
    all_goals first | exact goodRole | decide +kernel
  keys := by
    intro p hp
    rw [List.mem_singleton.1 hp]
    exact ⟨isKeyId, goodKey⟩
  date := rfl
  small := by decide

def hashes : Map HashAlg HashValue := [(.sha512, [255, 1]), (.sha256, [16])]
def description : MetadataDescription := ⟨4, 100, hashes⟩
def timestamp : TimestampMetadata := ⟨5, 1, description⟩
def snapshot : SnapshotMetadata :=
  ⟨6, 1, [("targets".toList, description), ("a/b".toList, description)]⟩

theorem goodHashes : GoodHashes hashes := by
  constructor
  all_goals decide +kernel

theorem goodDescription : GoodDescription description :=
  ⟨by decide +kernel, by decide, goodHashes⟩

-- Hypotheses of `C70_timestamp` and `C70_snapshot`.
example : GoodTimestamp timestamp ∧ GoodDate lib timestamp.expires :=
  ⟨⟨by decide +kernel, goodDescription⟩, rfl⟩
example : GoodSnapshot snapshot ∧ GoodDate lib snapshot.expires ∧
    ∀ p ∈ snapshot.metas, MetadataPath.new p.1 = .ok p.1 := by
  refine ⟨⟨by decide +kernel, ?_, by decide +kernel⟩, rfl, by decide +kernel⟩
  intro p hp
  simp only [snapshot, List.mem_cons, List.not_mem_nil, or_false] at hp
  rcases hp with rfl | rfl <;> exact goodDescription

def custom : Map Str Json := [("z".toList, .arr [.int 1, .null]), ("a".toList, .obj [("k".toList, .bool true)])]

def delegation : Delegation :=
  ⟨"b".toList, true, 1, [id0], ["y/".toList, "x/z".toList]⟩

def targets : TargetsMetadata :=
  ⟨7, 1, [("x/y".toList, ⟨5, hashes, some custom⟩), ("w".toList, ⟨0, hashes, none⟩)],
    some ⟨[(id0, rsa)], [delegation]⟩⟩

-- Hypotheses of `C70_targets` and `C71_targets`.
theorem publishableTargets : PublishableTargets lib targets where
  good := by
    refine ⟨by decide +kernel, ?_, by decide +kernel, ?_⟩
    · intro p hp
      simp only [targets, List.mem_cons, List.not_mem_nil, or_false] at hp
      rcases hp with rfl | rfl
      · exact ⟨by decide, goodHashes⟩
      · exact ⟨by decide, goodHashes⟩
    · rintro d hd
      cases hd
      refine ⟨by decide +kernel, ?_, by decide +kernel, by simp, by simp⟩
      intro r hr
      rw [List.mem_singleton.1 hr]
      exact ⟨goodRole, by decide +kernel, by decide +kernel⟩
  date := rfl
  paths := by decide +kernel
  custom := by
    intro p hp c hc
    simp only [targets, List.mem_cons, List.not_mem_nil, or_false] at hp
    rcases hp with rfl | rfl
    · cases hc
      decide +kernel
    · cases hc
  keys := by
    rintro d hd p hp
    cases hd
    rw [List.mem_singleton.1 hp]
    exact ⟨isKeyId, goodRsa⟩
  roles := by
    rintro d hd r hr
    cases hd
    rw [List.mem_singleton.1 hr]
    decide +kernel

example : ∀ p ∈ targets.targets, ∀ c, p.2.custom = some c → ∀ q ∈ c, nesting q.2 ≤ 122 := by
  intro p hp c hc
  simp only [targets, List.mem_cons, List.not_mem_nil, or_false] at hp
  rcases hp with rfl | rfl
  · cases hc
    decide +kernel
  · cases hc

/-! Signing and publishing the root. -/

def signer : PrivateKey := ⟨fun msg => .ok ⟨id0, msg.take 3⟩, id0⟩

/-- A signature consists of the first three bytes. -/
def ring : Scheme → Bytes → Bytes → Bytes → Bool := fun _ _ msg s => s == msg.take 3

def encoded : Json := (encodeRoot lib root).getD .null

theorem encoded_eq : encodeRoot lib root = some encoded := by decide +kernel

def signed : SignedMetadata JsonValue := ⟨[⟨id0, "{\"_".toList.map fun c => c.toNat.toUInt8⟩], encoded.toValue⟩

theorem published :
    Published lib ring id (fun _ => .refl _) (encodeRoot lib) (decodeRoot lib) root signed [key] 1 := by
  have hc : ∃ msg, Json.canonicalize encoded.toValue.1 = .ok msg ∧
      msg.take 3 = "{\"_".toList.map fun c => c.toNat.toUInt8 := by
    refine ⟨match Json.canonicalize encoded.toValue.1 with | .ok b => b | .error _ => [], ?_, ?_⟩
    · decide +kernel
    · decide +kernel
  obtain ⟨msg, hc, ht⟩ := hc
  refine ⟨.new encoded.toValue signer signed ?_ ?_, ⟨encoded, encoded_eq, rfl⟩, ?_, ?_, by decide,
    [key], by decide, by decide, ?_⟩
  · intro m s h
    cases h
    rfl
  · unfold SignedMetadata.new
    have : (jsonInterchange (decodeRoot lib)).canonicalize encoded.toValue = .ok msg := hc
    rw [this]
    simp only [signer, ht, signed]
  · intro s hs
    rw [List.mem_singleton.1 hs]
    exact isKeyId
  · intro k hk k' hk' _
    rw [List.mem_singleton.1 hk, List.mem_singleton.1 hk']
  · intro k hk
    rw [List.mem_singleton.1 hk]
    refine ⟨by simp, _, List.mem_singleton.2 rfl, rfl, fun m hm => ⟨by decide, ?_⟩⟩
    have hm : Json.canonicalize encoded.toValue.1 = .ok m := hm
    rw [hc] at hm
    cases hm
    show (_ == msg.take 3) = true
    rw [ht]
    decide

example : ∃ raw r', signed.toRaw = .ok raw ∧
    verifySignatures (jsonEnv lib ring id fun _ => .refl _)
      (jsonEnv lib ring id fun _ => .refl _).rootFromSlice raw 1 [key] = .ok r' ∧ SameRoot root r' :=
  C71_root lib ring id (fun _ => .refl _) laws root publishable signed [key] 1 published

end PublishExample

end RustTuf.Props
