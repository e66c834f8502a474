import Verif.Props.Signing
import Verif.Props.PublishExample

/-!
# Example for C81
An Ed25519 key and an RSA key sign a root whose threshold is two.
-/

namespace RustTuf.Props
open Spec RustTuf Formats Keys Json

namespace SigningExample
open PrivateKeyExample

/-- A digest that tells documents of different lengths apart. -/
def digest (b : Bytes) : Bytes := List.replicate 31 0 ++ [UInt8.ofNat b.length]

abbrev lib : ShimLib := Formats.lib ⟨fun _ => none⟩ digest

/-- Keys that sign with three bytes of the message; RSA keys put the public key in front. -/
def ring : Ring where
  Ed := Unit
  edFromSeed _ p := if p = List.replicate 32 7 then some () else none
  edFromPkcs8 _ := some ()
  edPublic _ := List.replicate 32 7
  edSign _ msg := msg.take 3
  Rsa := Bytes
  rsaFromPkcs8 d := if d.length ≤ 65535 then extractRsaPublic d else none
  rsaModulusLen _ := 256
  rsaSign p _ _ msg := some (p ++ msg.take 3)

def verify : Scheme → Bytes → Bytes → Bytes → Bool
  | .ed25519, _, msg, s => s == msg.take 3
  | _, p, msg, s => s == p ++ msg.take 3

-- Hypothesis of all theorems on signing.
theorem law : RingLaw ring verify where
  ed _ _ := by simp [verify, ring]
  edLength _ := rfl
  rsa := by
    intro d k n e null p a random msg s h1 _ h3 h4 h5
    simp only [ring] at h1 h5
    split at h1
    · rename_i hl
      obtain ⟨n', e', null', -, -, h6, h7, -⟩ := C81_extract_only d k h1
      obtain ⟨rfl, rfl⟩ := C81_private_key_unique n e n' e' null null' d hl h3 h6
      have : p = k := (C81_public_key_unique n e k h7).1 p h4
      subst this
      cases h5
      cases a <;> simp [verify, schemeOf]
    · cases h1

def edKey : Ed25519Key ring :=
  ⟨(), ⟨.ed25519, (calculateKeyId lib .ed25519 .ed25519 none (List.replicate 32 7)).getD [], .ed25519,
    none, List.replicate 32 7⟩⟩

def rsaValue : Bytes := [48, 8, 2, 3, 0, 140, 161, 2, 1, 17]

def rsaKey : RsaKey ring :=
  ⟨rsaValue, ⟨.rsa, (calculateKeyId lib .rsa .rsaSsaPssSha512 pythonAlgs rsaValue).getD [],
    .rsaSsaPssSha512, pythonAlgs, rsaValue⟩⟩

theorem ed_id : calculateKeyId lib .ed25519 .ed25519 none (List.replicate 32 7) = some edKey.pub.keyId := by
  decide +kernel
theorem rsa_id : calculateKeyId lib .rsa .rsaSsaPssSha512 pythonAlgs rsaValue = some rsaKey.pub.keyId := by
  decide +kernel

-- Hypotheses of `C81_ed25519_signs` and `C81_rsa_signs`.
theorem ed_loaded : ed25519FromBytes lib ring (List.replicate 32 1 ++ List.replicate 32 7) = .ok edKey := by
  unfold ed25519FromBytes ed25519FromPair PublicKey.make
  rw [if_neg (by decide)]
  have : ring.edFromSeed ((List.replicate 32 1 ++ List.replicate 32 7 : Bytes).take 32)
    ((List.replicate 32 1 ++ List.replicate 32 7 : Bytes).drop 32) = some () := by
    simp only [ring]
    exact if_pos (by decide)
  rw [this]
  have : ring.edPublic () = List.replicate 32 7 := rfl
  simp only [this]
  rw [ed_id]
  rfl

theorem rsa_loaded : rsaFromPkcs8 lib ring der .rsaSsaPssSha512 = .ok rsaKey := by
  have e : extractRsaPublic der = some rsaValue := extracted
  unfold rsaFromPkcs8 PublicKey.make
  rw [if_neg (by decide)]
  have : ring.rsaFromPkcs8 der = some rsaValue := by
    simp only [ring]
    rw [if_pos (by decide)]
    exact e
  rw [this]
  simp only
  rw [if_neg (show ¬ ring.rsaModulusLen rsaValue < 256 by decide), e]
  simp only
  rw [rsa_id]
  rfl

-- Both sides of `C81_ed25519_loads` and `C81_rsa_loads_iff`.
example : ∃ seed pub : Bytes, List.replicate 32 1 ++ List.replicate 32 7 = seed ++ pub ∧
    seed.length = 32 ∧ pub.length = 32 ∧ ring.edFromSeed seed pub = some edKey.pair ∧
    HasFields lib .ed25519 .ed25519 none (ring.edPublic edKey.pair) edKey.pub :=
  ((C81_ed25519_loads lib ring edKey).1 _).1 ed_loaded
example : ∃ n e null p, 0 < n ∧ 0 < e ∧ Pkcs8Rsa n e null der ∧ RsaPublicKey n e p ∧
    HasFields lib .rsa .rsaSsaPssSha512 (some ["sha256".toList, "sha512".toList]) p rsaKey.pub :=
  ((C81_rsa_loads_iff lib ring der (by decide) _ rsaKey).1 rsa_loaded).2.2.2

/-- Different random numbers for different messages. -/
def random (msg : Bytes) : Bytes := msg.reverse

def keys : List PrivateKey := [rsaKey.private ring random, edKey.private ring]

theorem edIs : Loaded lib ring (edKey.private ring) edKey.pub := .ed25519 _ (.inl ⟨_, ed_loaded⟩)
theorem rsaIs : Loaded lib ring (rsaKey.private ring random) rsaKey.pub := .rsa _ _ _ _ rsa_loaded

theorem digest_length (b : Bytes) : (digest b).length = 32 := by
  unfold digest
  rw [List.length_append, List.length_replicate]
  rfl

theorem edGood : GoodKey lib edKey.pub ∧ IsKeyId edKey.pub.keyId :=
  C81_keys_are_good ring verify ⟨fun _ => none⟩ digest law digest_length _ _ edIs
theorem rsaGood : GoodKey lib rsaKey.pub ∧ IsKeyId rsaKey.pub.keyId :=
  C81_keys_are_good ring verify ⟨fun _ => none⟩ digest law digest_length _ _ rsaIs

theorem apart : edKey.pub.keyId ≠ rsaKey.pub.keyId := by decide +kernel

/-! ### A root with both keys and threshold two -/

def both : RoleDefinition := ⟨2, [edKey.pub.keyId, rsaKey.pub.keyId]⟩

/-- It expires on 1 March 2020, 1.5 seconds after midnight. -/
def root : RootMetadata :=
  ⟨3, 737484 * 86400 * second + second + 500000000, true,
    [(edKey.pub.keyId, edKey.pub), (rsaKey.pub.keyId, rsaKey.pub)], both, both, both, both⟩

theorem goodBoth : GoodRole both.threshold both.keyIds where
  least := by decide
  most := by decide
  nodup := by
    show [edKey.pub.keyId, rsaKey.pub.keyId].Nodup
    simp [apart]
  ids := by
    intro i hi
    simp only [both, List.mem_cons, List.not_mem_nil, or_false] at hi
    rcases hi with rfl | rfl
    · exact edGood.2
    · exact rsaGood.2

theorem goodRoot : GoodRoot root where
  version := ⟨by decide, by decide⟩
  root := goodBoth
  snapshot := goodBoth
  targets := goodBoth
  timestamp := goodBoth
  keys := by
    show [edKey.pub.keyId, rsaKey.pub.keyId].Nodup
    simp [apart]
  own := by
    intro p hp
    simp only [root, List.mem_cons, List.not_mem_nil, or_false] at hp
    rcases hp with rfl | rfl <;> rfl

def encoded : Json := (encodeRoot lib root).getD .null

theorem encoded_eq : encodeRoot lib root = some encoded := by decide +kernel

/-- The bytes that are signed. -/
def message : Bytes := match Json.canonicalize encoded.toValue.1 with | .ok b => b | .error _ => []

theorem message_eq : Json.canonicalize encoded.toValue.1 = .ok message := by decide +kernel

/-- Signed by the Ed25519 key. -/
def first (v : JsonValue) (msg : Bytes) : SignedMetadata JsonValue := ⟨[⟨edKey.pub.keyId, msg.take 3⟩], v⟩

/-- Signed by both keys. -/
def signedAs (v : JsonValue) (msg : Bytes) : SignedMetadata JsonValue :=
  ⟨[⟨edKey.pub.keyId, msg.take 3⟩, ⟨rsaKey.pub.keyId, rsaValue ++ msg.take 3⟩], v⟩

theorem ed_sign (msg : Bytes) : (edKey.private ring).sign msg = .ok ⟨edKey.pub.keyId, msg.take 3⟩ := rfl
theorem rsa_sign (msg : Bytes) : (rsaKey.private ring random).sign msg =
    .ok ⟨rsaKey.pub.keyId, rsaValue ++ msg.take 3⟩ := rfl

theorem signedWith {M : Type} (decode : Json → Option M) (v : JsonValue) (msg : Bytes)
    (hc : Json.canonicalize v.1 = .ok msg) :
    SignedWith (jsonInterchange decode) v keys (signedAs v msg) := by
  have hc : (jsonInterchange decode).canonicalize v = .ok msg := hc
  refine .add [edKey.private ring] (first v msg) _ _ (.new _ _ ?_) ?_
  · unfold SignedMetadata.new
    rw [hc]
    simp only [ed_sign]
    rfl
  · unfold SignedMetadata.addSignature
    have : (first v msg).metadata = v := rfl
    rw [this, hc]
    simp only [rsa_sign]
    have : (rsaKey.private ring random).publicKeyId = rsaKey.pub.keyId := rfl
    rw [this]
    have : (first v msg).signatures.filter (fun s => decide (s.keyId ≠ rsaKey.pub.keyId)) =
        (first v msg).signatures := by
      simp [first, apart]
    rw [this]
    rfl

def signed : SignedMetadata JsonValue := signedAs encoded.toValue message

-- All hypotheses of `C81_root_is_accepted`, and with them those of `C81_signed_is_published`.
example : ∃ raw r', signed.toRaw = .ok raw ∧
    verifySignatures (jsonEnv lib verify id fun _ => .refl _)
      (jsonEnv lib verify id fun _ => .refl _).rootFromSlice raw 2 [edKey.pub, rsaKey.pub] = .ok r' ∧
    SameRoot { root with expires := wholeSecond root.expires } r' := by
  have two : ∀ {p : PublicKey}, p ∈ [edKey.pub, rsaKey.pub] → p = edKey.pub ∨ p = rsaKey.pub := by
    intro p hp
    simpa using hp
  refine C81_root_is_accepted ring verify ⟨fun _ => none⟩ digest id (fun _ => .refl _) law digest_length
    root (by show -262144 ≤ (dateOf root.expires).year; decide +kernel) (by decide +kernel) goodRoot
    ?_ ⟨by decide, by decide, by decide, by decide⟩ encoded encoded_eq keys signed
    (by exact signedWith (decodeRoot lib) encoded.toValue message message_eq)
    [edKey.pub, rsaKey.pub] ?_ ?_ [edKey.pub, rsaKey.pub] (fun _ h => h) 2 (by decide)
    [edKey.pub, rsaKey.pub] ?_ (by decide) ?_
  · intro p hp
    simp only [root, List.mem_cons, List.not_mem_nil, or_false] at hp
    rcases hp with rfl | rfl
    · exact ⟨edGood.2, edGood.1⟩
    · exact ⟨rsaGood.2, rsaGood.1⟩
  · intro a ha b hb e
    rcases two ha with rfl | rfl <;> rcases two hb with rfl | rfl
    · rfl
    · exact absurd e apart
    · exact absurd e.symm apart
    · rfl
  · intro k hk
    simp only [keys, List.mem_cons, List.not_mem_nil, or_false] at hk
    rcases hk with rfl | rfl
    · exact ⟨_, by simp, rsaIs⟩
    · exact ⟨_, by simp, edIs⟩
  · have : edKey.pub ≠ rsaKey.pub := fun e => apart (congrArg _ e)
    simp [this]
  · intro p hp
    refine ⟨hp, ?_⟩
    rcases two hp with rfl | rfl
    · exact ⟨_, .tail _ (.head _), edIs⟩
    · exact ⟨_, .head _, rsaIs⟩

end SigningExample

end RustTuf.Props
