import Verif.Spec.KeyForms
import Verif.Props.Formats
import Verif.Props.Builders
import Verif.Props.Nesting
import Verif.Props.Unknown
import Verif.Props.ReleaseExample

/-!
# Which keys made with `PublicKey::from_spki` can be listed in metadata (C79)
-/

namespace RustTuf.Props
open Spec RustTuf Formats Json

theorem make_id {X : ShimLib} {typ : KeyType} {scheme : Scheme} {algs : Option (List Str)} {v : Bytes}
    {k : PublicKey} (h : PublicKey.make X typ scheme algs v = some k) :
    k = ⟨typ, k.keyId, scheme, algs, v⟩ ∧ calculateKeyId X typ scheme algs v = some k.keyId := by
  unfold PublicKey.make at h
  split at h
  · cases h
  · rename_i id hid
    cases h
    exact ⟨rfl, hid⟩

theorem decodePublicKey_ed25519 {X : ShimLib} {id : KeyId} {scheme : Scheme} {algs : Option (List Str)}
    {v : Bytes} (h : ¬ (scheme = .ed25519 ∧ v.length = 32)) :
    ∃ j, encodePublicKey X ⟨.ed25519, id, scheme, algs, v⟩ = some j ∧
      decodePublicKey X j.normal = none := by
  refine ⟨_, rfl, ?_⟩
  unfold decodePublicKey
  rw [decodeKeyShim_members (.inl rfl)]
  simp only [Option.bind_eq_bind, Option.bind_some]
  split
  · rename_i hs
    rw [hexLowerDecode_hexLower]
    simp only [Option.bind_some]
    unfold PublicKey.fromEd25519
    rw [if_neg fun hl => h ⟨hs, hl⟩]
    rfl
  · rfl

variable (F : FloatLib) (H : Bytes → Bytes)

/-- **C79.** A key that `PublicKey::from_spki` made can be written. What was written is read as the same
key, whatever the scheme, except for Ed25519 keys with another scheme or another length: those cannot be
read at all. -/
theorem C79_from_spki_keys (der : Bytes) (scheme : Scheme) (algs : Option (List Str)) (k : PublicKey)
    (h : PublicKey.fromSpki (lib F H) der scheme algs = some k) :
    ∃ j, encodePublicKey (lib F H) k = some j ∧
      (¬ OddKey k → decodePublicKey (lib F H) j.normal = some k) ∧
      (OddKey k → decodePublicKey (lib F H) j.normal = none) := by
  unfold PublicKey.fromSpki at h
  split at h
  · cases h
  · rename_i typ v hr
    obtain ⟨e, hid⟩ := make_id h
    by_cases ho : OddKey k
    · rw [e] at ho
      obtain ⟨h1, h2⟩ := ho
      simp only at h1 h2
      subst h1
      obtain ⟨j, a, b⟩ := decodePublicKey_ed25519 (X := lib F H) (id := k.keyId) (algs := algs) h2
      rw [← e] at a
      refine ⟨j, a, fun hn => absurd ?_ hn, fun _ => b⟩
      rw [e]
      exact ⟨rfl, h2⟩
    · have hg : GoodKey (lib F H) k := by
        rw [e] at ho ⊢
        refine ⟨hid, ?_⟩
        obtain ⟨oid, _, h1, -⟩ := readSpki_some hr
        cases typ with
        | ed25519 =>
          left
          by_contra hc
          exact ho ⟨rfl, fun hh => hc ⟨rfl, hh⟩⟩
        | rsa => exact .inr ⟨rfl, (C79_laws F H).spki _ _ _ hr⟩
        | unknown s => cases h1
      obtain ⟨j, hj⟩ := encodePublicKey_good hg
      exact ⟨j, hj, fun _ => decodePublicKey_encode (C79_laws F H) hg hj, fun h => absurd h ho⟩

theorem decodeRoot_odd {X : ShimLib} {r : RootMetadata} (hk : (Map.keys r.keys).Nodup) {id : KeyId}
    {k : PublicKey} (hm : (id, k) ∈ r.keys) (ho : OddKey k) {j : Json} (hj : encodeRoot X r = some j) :
    decodeRoot X j.normal = none := by
  obtain ⟨typ, kid, scheme, algs, v⟩ := k
  obtain ⟨h1, h2⟩ := ho
  simp only at h1 h2
  subst h1
  obtain ⟨kj, hkj, hn⟩ := decodePublicKey_ed25519 (X := X) (id := kid) (algs := algs) h2
  unfold encodeRoot at hj
  split at hj
  · cases hj
  · rename_i keys hkeys
    rw [← Option.some.inj hj]
    unfold encodeEntries at hkeys
    rw [Option.map_eq_some_iff] at hkeys
    obtain ⟨es, hes, rfl⟩ := hkeys
    obtain ⟨e1, e2⟩ := mapAll_entries hes
    obtain ⟨kj', hkj', hin⟩ := e2 id _ hm
    rw [hkj] at hkj'
    cases hkj'
    have hl := last_of_nodup (p := (id, kj)) (by rw [e1]; exact hk) hin
    have hmem : (id, normal kj) ∈ btreeCollect (normalM es) := by
      have := get?_normal es id
      rw [last_iff.1 hl] at this
      exact Map.mem_of_get? this
    unfold decodeRoot
    rw [asStruct_normal]
    simp only [Option.bind_eq_bind, Option.bind_some]
    rw [field_members (n := "keys".toList) (j := .obj es) (of_decide_eq_true rfl) rfl]
    have : asMapNoDup keyIdOfStr (decodePublicKey X) (normal (.obj es)) = none := by
      show asMapNoDup _ _ (.obj (btreeCollect (normalM es))) = none
      unfold asMapNoDup
      rw [asEntries_none hmem (.inr hn)]
    rw [this]
    simp only [Option.bind_none, Option.bind_fun_none]

/-- **Limit of C79.** A root that lists such a key, although for no role, can be built and signed, but
no client accepts it. -/
theorem C79_odd_key_is_never_accepted (X : ShimLib)
    (ring : Scheme → Bytes → Bytes → Bytes → Bool)
    (order : Map KeyId Signature → List (KeyId × Signature)) (perm : ∀ m, (order m).Perm m)
    (r : RootMetadata) (hk : (Map.keys r.keys).Nodup) (id : KeyId) (k : PublicKey) (hm : (id, k) ∈ r.keys)
    (ho : OddKey k) (sm : SignedMetadata JsonValue) (raw : Bytes)
    (hc : ∃ j, encodeRoot X r = some j ∧ sm.metadata = j.toValue) (hraw : sm.toRaw = .ok raw)
    (n : Nat) (keys : List PublicKey) (r' : RootMetadata) :
    verifySignatures (jsonEnv X ring order perm) (jsonEnv X ring order perm).rootFromSlice raw n keys ≠
      .ok r' :=
  root_never_accepted X ring order perm r (fun _ => decodeRoot_odd hk hm ho) sm raw hc hraw n keys r'

namespace KeyFormsExample

/-- The SPKI form of an Ed25519 key of one byte. -/
def der : Bytes := element 0x30 (element 0x30 (element 0x06 ed25519Oid ++ element 0x05 []) ++
  element 0x03 [0, 7])

def fmt : ShimLib := lib ⟨fun _ => none⟩ fun _ => List.replicate 32 0

-- Hypothesis of `C79_from_spki_keys`, for a key that cannot be listed.
example : ∃ k, PublicKey.fromSpki fmt der .ed25519 none = some k ∧ OddKey k :=
  ⟨⟨.ed25519, PublishExample.id0, .ed25519, none, [7]⟩, by decide +kernel, rfl, fun h => absurd h.2 (by decide)⟩

/-- The SPKI form of an RSA key of two bytes. -/
def derRsa : Bytes := element 0x30 (element 0x30 (element 0x06 rsaOid ++ element 0x05 []) ++
  element 0x03 [0, 7, 8])

-- The same for a key that can be listed: the scheme of an RSA key may be anything.
example : ∃ k, PublicKey.fromSpki fmt derRsa (.unknown "any".toList) none = some k ∧ ¬ OddKey k :=
  ⟨⟨.rsa, PublishExample.id0, .unknown "any".toList, none, [7, 8]⟩, by decide +kernel, fun h => nomatch h.1⟩

def odd : PublicKey := ⟨.ed25519, PublishExample.id0, .ed25519, none, [7]⟩

/-- A root that lists the odd key under another ID, for no role. -/
def root : RootMetadata :=
  { PublishExample.root with keys := (List.replicate 64 '1', odd) :: PublishExample.root.keys }

def encoded : Json := (encodeRoot PublishExample.lib root).getD .null

-- Hypotheses of `C79_odd_key_is_never_accepted`.
example : (Map.keys root.keys).Nodup ∧ (List.replicate 64 '1', odd) ∈ root.keys ∧ OddKey odd ∧
    ∃ sm raw, SignedMetadata.ofMetadata (encodeRoot PublishExample.lib) root PublishExample.signer = .ok sm ∧
      (∃ j, encodeRoot PublishExample.lib root = some j ∧ sm.metadata = j.toValue) ∧
      sm.toRaw = .ok raw := by
  refine ⟨by decide +kernel, List.mem_cons_self .., ⟨rfl, fun h => absurd h.2 (by decide)⟩, ?_⟩
  have e : encodeRoot PublishExample.lib root = some encoded := by decide +kernel
  have hi : integral encoded.toValue.1 = true := by decide +kernel
  obtain ⟨msg, hc⟩ := (C52_total_on_integers _).1 hi
  let sm : SignedMetadata JsonValue := ⟨[⟨PublishExample.id0, msg.take 3⟩], encoded.toValue⟩
  have hi' : integral (encodeSigned sm) = true := by
    rw [integral_encodeSigned]
    exact hi
  obtain ⟨raw, hraw⟩ := (C52_total_on_integers _).1 (integral_canon _ (canon_normal _ hi'))
  refine ⟨sm, raw, ?_, ⟨encoded, e, rfl⟩, hraw⟩
  unfold SignedMetadata.ofMetadata
  rw [e]
  simp only [serialize, SignedMetadata.new, hc, PublishExample.signer]
  rfl

end KeyFormsExample

end RustTuf.Props
