import Verif.Props.PrivateKeys
import Verif.Props.Publish
import Verif.Props.Dates
import Verif.Spec.Keys

/-!
# C81: signatures by private keys
-/

namespace RustTuf.Props
open Spec RustTuf Formats Keys Json

variable (X : ShimLib) (R : Ring) (verify : Scheme → Bytes → Bytes → Bytes → Bool)

theorem make_some {t : KeyType} {s : Scheme} {a : Option (List Str)} {v : Bytes} {k : PublicKey}
    (h : PublicKey.make X t s a v = some k) :
    k.typ = t ∧ k.scheme = s ∧ k.keyidHashAlgorithms = a ∧ k.value = v ∧
      calculateKeyId X t s a v = some k.keyId := by
  unfold PublicKey.make at h
  split at h
  · cases h
  · rename_i id e
    cases h
    exact ⟨rfl, rfl, rfl, rfl, e⟩

theorem ed25519FromPair_ok {p : R.Ed} {a : Option (List Str)} {k : Ed25519Key R}
    (h : ed25519FromPair X R p a = .ok k) :
    PublicKey.make X .ed25519 .ed25519 a (R.edPublic k.pair) = some k.pub := by
  unfold ed25519FromPair at h
  split at h
  · cases h
  · rename_i e
    cases h
    exact e

/-- How Ed25519 keys come about. -/
def LoadedEd25519 (k : Ed25519Key R) : Prop :=
  (∃ b, ed25519FromBytes X R b = .ok k) ∨ ∃ d, ed25519FromPkcs8 X R d = .ok k

theorem loadedEd25519_make {k : Ed25519Key R} (h : LoadedEd25519 X R k) :
    ∃ a, PublicKey.make X .ed25519 .ed25519 a (R.edPublic k.pair) = some k.pub := by
  rcases h with ⟨b, h⟩ | ⟨d, h⟩
  · unfold ed25519FromBytes at h
    split at h
    · cases h
    · split at h
      · cases h
      · exact ⟨_, ed25519FromPair_ok X R h⟩
  · unfold ed25519FromPkcs8 at h
    split at h
    · cases h
    · exact ⟨_, ed25519FromPair_ok X R h⟩

/-- **C81.** What an Ed25519 private key signs verifies with its public key and carries its ID. -/
theorem C81_ed25519_signs (L : RingLaw R verify) (k : Ed25519Key R) (h : LoadedEd25519 X R k) :
    SignsFor verify (k.private R) k.pub := by
  obtain ⟨a, h⟩ := loadedEd25519_make X R h
  obtain ⟨-, h2, -, h4, -⟩ := make_some X h
  refine ⟨rfl, by rw [h2]; simp, ?_⟩
  intro msg s hs
  unfold Ed25519Key.private at hs
  simp only [h2, ne_eq, not_true_eq_false, if_false, Except.ok.injEq] at hs
  subst hs
  exact ⟨rfl, by rw [h2, h4]; exact L.ed _ _⟩

/-- A public key with these fields and the ID computed from them. -/
def HasFields (t : KeyType) (s : Scheme) (algs : Option (List Str)) (value : Bytes)
    (pub : PublicKey) : Prop :=
  pub.typ = t ∧ pub.scheme = s ∧ pub.keyidHashAlgorithms = algs ∧ pub.value = value ∧
    calculateKeyId X t s algs value = some pub.keyId

theorem make_iff {t : KeyType} {s : Scheme} {a : Option (List Str)} {v : Bytes} {k : PublicKey} :
    PublicKey.make X t s a v = some k ↔ HasFields X t s a v k := by
  constructor
  · exact make_some X
  · rintro ⟨rfl, rfl, rfl, rfl, h⟩
    unfold PublicKey.make
    rw [h]

theorem ed25519FromPair_iff (pair : R.Ed) (algs : Option (List Str)) (k : Ed25519Key R) :
    ed25519FromPair X R pair algs = .ok k ↔
      k.pair = pair ∧ HasFields X .ed25519 .ed25519 algs (R.edPublic pair) k.pub := by
  rw [← make_iff]
  unfold ed25519FromPair
  obtain ⟨p, pub⟩ := k
  cases PublicKey.make X .ed25519 .ed25519 algs (R.edPublic pair) with
  | none => simp
  | some i =>
    simp only [Except.ok.injEq, Ed25519Key.mk.injEq, Option.some.injEq]
    exact and_congr_left fun _ => eq_comm

/-- **C81.** An Ed25519 key is loaded from 64 bytes exactly if `ring` takes the first 32 bytes as the
seed and the other 32 as its public key, and from PKCS#8 exactly if `ring` reads it. The loaded key
is the pair `ring` made, and its public key is the one of that pair. -/
theorem C81_ed25519_loads (k : Ed25519Key R) :
    (∀ key, ed25519FromBytes X R key = .ok k ↔ ∃ seed pub : Bytes, key = seed ++ pub ∧
      seed.length = 32 ∧ pub.length = 32 ∧ R.edFromSeed seed pub = some k.pair ∧
      HasFields X .ed25519 .ed25519 none (R.edPublic k.pair) k.pub) ∧
    (∀ der, ed25519FromPkcs8 X R der = .ok k ↔ R.edFromPkcs8 der = some k.pair ∧
      HasFields X .ed25519 .ed25519 (some ["sha256".toList, "sha512".toList]) (R.edPublic k.pair)
        k.pub) := by
  constructor
  · intro key
    constructor
    · intro h
      unfold ed25519FromBytes at h
      split at h
      · cases h
      · rename_i hl
        split at h
        · cases h
        · rename_i pair hp
          obtain ⟨h1, h2⟩ := (ed25519FromPair_iff X R _ _ _).1 h
          exact ⟨key.take 32, key.drop 32, (List.take_append_drop 32 key).symm,
            by simp; omega, by simp; omega, by rw [hp, h1], by rw [h1]; exact h2⟩
    · rintro ⟨seed, pub, rfl, h1, h2, h3, h4⟩
      unfold ed25519FromBytes
      rw [if_neg (by simp [h1, h2]), List.take_left' h1, List.drop_left' h1, h3]
      exact (ed25519FromPair_iff X R _ _ _).2 ⟨rfl, h4⟩
  · intro der
    unfold ed25519FromPkcs8
    cases R.edFromPkcs8 der with
    | none => simp
    | some pair =>
      simp only [Option.some.injEq]
      rw [ed25519FromPair_iff]
      constructor
      · rintro ⟨rfl, h⟩; exact ⟨rfl, h⟩
      · rintro ⟨rfl, h⟩; exact ⟨rfl, h⟩

theorem rsaFromPkcs8_ok {d : Bytes} {scheme : Scheme} {k : RsaKey R}
    (h : rsaFromPkcs8 X R d scheme = .ok k) :
    (scheme = .rsaSsaPssSha256 ∨ scheme = .rsaSsaPssSha512) ∧ R.rsaFromPkcs8 d = some k.pair ∧
      256 ≤ R.rsaModulusLen k.pair ∧ ∃ p, extractRsaPublic d = some p ∧
        PublicKey.make X .rsa scheme pythonAlgs p = some k.pub := by
  unfold rsaFromPkcs8 at h
  split at h
  · cases h
  · rename_i h1
    split at h
    · cases h
    · rename_i pair h2
      split at h
      · cases h
      · rename_i h3
        split at h
        · cases h
        · rename_i p h4
          split at h
          · cases h
          · rename_i pub h5
            cases h
            exact ⟨Classical.not_not.1 h1, h2, Nat.le_of_not_lt h3, p, h4, h5⟩

/-- **C81.** What an RSA private key signs verifies with its public key and carries its ID, whatever
the random numbers. -/
theorem C81_rsa_signs (L : RingLaw R verify) (d : Bytes) (scheme : Scheme) (k : RsaKey R)
    (h : rsaFromPkcs8 X R d scheme = .ok k) (random : Bytes → Bytes) :
    SignsFor verify (k.private R random) k.pub := by
  obtain ⟨h1, h2, h3, p, h4, h5⟩ := rsaFromPkcs8_ok X R h
  obtain ⟨-, e2, -, e4, -⟩ := make_some X h5
  obtain ⟨n, e, null, -, -, h6, h7, -⟩ := C81_extract_only d p h4
  refine ⟨rfl, by rw [e2]; rcases h1 with rfl | rfl <;> simp, ?_⟩
  intro msg s hs
  unfold RsaKey.private at hs
  simp only [e2] at hs
  have key : ∀ a, scheme = schemeOf a →
      (match R.rsaSign k.pair a (random msg) msg with
        | none => Except.error Err.opaqueErr
        | some s => Except.ok (⟨k.pub.keyId, s⟩ : Signature)) = .ok s →
      s.keyId = k.pub.keyId ∧ verify k.pub.scheme k.pub.value msg s.value = true := by
    intro a ha hs
    split at hs
    · cases hs
    · rename_i s' h8
      cases hs
      refine ⟨rfl, ?_⟩
      rw [e2, e4, ha]
      exact L.rsa d k.pair n e null p a _ msg s' h2 h3 h6 h7 h8
  rcases h1 with rfl | rfl
  · exact key .sha256 rfl hs
  · exact key .sha512 rfl hs

/-- **C81.** Signing never panics: neither the assertion on the scheme of an Ed25519 key nor the
`unreachable` for an RSA key can fire. -/
theorem C81_sign_never_panics :
    (∀ k : Ed25519Key R, LoadedEd25519 X R k → ∀ msg, (k.private R).sign msg ≠ .error .panic) ∧
    (∀ d scheme (k : RsaKey R), rsaFromPkcs8 X R d scheme = .ok k →
      ∀ random msg, (k.private R random).sign msg ≠ .error .panic) := by
  constructor
  · intro k h msg
    obtain ⟨a, h⟩ := loadedEd25519_make X R h
    obtain ⟨-, h2, -⟩ := make_some X h
    simp [Ed25519Key.private, h2]
  · intro d scheme k h random msg
    obtain ⟨h1, -, -, p, -, h5⟩ := rsaFromPkcs8_ok X R h
    obtain ⟨-, e2, -⟩ := make_some X h5
    unfold RsaKey.private
    rcases h1 with rfl | rfl
    all_goals
      simp only [e2]
      split <;> simp

/-- **C81.** An RSA key is loaded with exactly the requested scheme, which must be one for RSA, and
only if its modulus has at least 2048 bits. -/
theorem C81_rsa_loads (d : Bytes) (scheme : Scheme) (k : RsaKey R)
    (h : rsaFromPkcs8 X R d scheme = .ok k) :
    k.pub.typ = .rsa ∧ k.pub.scheme = scheme ∧
      (scheme = .rsaSsaPssSha256 ∨ scheme = .rsaSsaPssSha512) ∧ 2048 ≤ 8 * R.rsaModulusLen k.pair ∧
      ∃ n e null, Pkcs8Rsa n e null d ∧ RsaPublicKey n e k.pub.value := by
  obtain ⟨h1, -, h3, p, h4, h5⟩ := rsaFromPkcs8_ok X R h
  obtain ⟨e1, e2, -, e4, -⟩ := make_some X h5
  obtain ⟨n, e, null, -, -, h6, h7, -⟩ := C81_extract_only d p h4
  exact ⟨e1, e2, h1, by omega, n, e, null, h6, by rw [e4]; exact h7⟩

/-- **C81.** An RSA key is loaded from at most 65535 bytes exactly if the scheme is one for RSA, `ring`
reads the bytes, the modulus has at least 2048 bits, and the bytes are a PKCS#8 document of an RSA key
with a positive modulus and exponent; the public key is then the DER form of these two numbers. -/
theorem C81_rsa_loads_iff (d : Bytes) (hd : d.length ≤ 65535) (scheme : Scheme) (k : RsaKey R) :
    rsaFromPkcs8 X R d scheme = .ok k ↔
      (scheme = .rsaSsaPssSha256 ∨ scheme = .rsaSsaPssSha512) ∧ R.rsaFromPkcs8 d = some k.pair ∧
      2048 ≤ 8 * R.rsaModulusLen k.pair ∧
      ∃ n e null p, 0 < n ∧ 0 < e ∧ Pkcs8Rsa n e null d ∧ RsaPublicKey n e p ∧
        HasFields X .rsa scheme (some ["sha256".toList, "sha512".toList]) p k.pub := by
  constructor
  · intro h
    obtain ⟨h1, h2, h3, p, h4, h5⟩ := rsaFromPkcs8_ok X R h
    obtain ⟨n, e, null, h6, h7, h8, h9, -⟩ := C81_extract_only d p h4
    exact ⟨h1, h2, by omega, n, e, null, p, h6, h7, h8, h9, (make_iff X).1 h5⟩
  · rintro ⟨h1, h2, h3, n, e, null, p, h4, h5, h6, h7, h8⟩
    obtain ⟨p', h9, h10⟩ := C81_extract n e null d h6 h4 h5 hd
    obtain rfl := (C81_public_key_unique n e p h7).1 p' h10
    unfold rsaFromPkcs8
    rw [if_neg (not_not_intro h1), h2]
    simp only
    rw [if_neg (by omega), h9]
    simp only
    rw [show pythonAlgs = some ["sha256".toList, "sha512".toList] from rfl, (make_iff X).2 h8]

variable (F : FloatLib) (H : Bytes → Bytes)

/-- A private key that was loaded with one of the functions for it, and its public key. -/
inductive Loaded : PrivateKey → PublicKey → Prop
  | ed25519 (k : Ed25519Key R) : LoadedEd25519 X R k → Loaded (k.private R) k.pub
  | rsa (d scheme) (k : RsaKey R) (random) : rsaFromPkcs8 X R d scheme = .ok k →
      Loaded (k.private R random) k.pub

/-- **C81.** What a loaded private key signs verifies with its public key and carries its ID. -/
theorem C81_loaded_signs (L : RingLaw R verify) (k : PrivateKey) (pub : PublicKey)
    (h : Loaded X R k pub) : SignsFor verify k pub := by
  cases h with
  | ed25519 k h => exact C81_ed25519_signs X R verify L k h
  | rsa d scheme k random h => exact C81_rsa_signs X R verify L d scheme k h random

theorem utf8_hexLower (b : Bytes) : (utf8 (hexLower b)).length = 2 * b.length := by
  have digit : ∀ n, n < 16 → (String.utf8EncodeChar (hexDigit n)).length = 1 := by decide
  induction b with
  | nil => rfl
  | cons x b ih =>
    have hx := x.toNat_lt
    have : utf8 (hexLower (x :: b)) = String.utf8EncodeChar (hexDigit (x.toNat / 16)) ++
        (String.utf8EncodeChar (hexDigit (x.toNat % 16)) ++ utf8 (hexLower b)) := by
      simp [utf8, hexLower]
    rw [this, List.length_append, List.length_append, ih, digit _ (by omega), digit _ (by omega),
      List.length_cons]
    omega

theorem calculateKeyId_isKeyId (hX : ∀ b, (X.sha256 b).length = 32) {t : KeyType} {s : Scheme}
    {a : Option (List Str)} {v : Bytes} {id : KeyId} (h : calculateKeyId X t s a v = some id) :
    IsKeyId id := by
  unfold calculateKeyId at h
  repeat' split at h
  all_goals cases h
  unfold IsKeyId
  rw [utf8_hexLower, hX]

variable (F : FloatLib) (H : Bytes → Bytes)

/-- **C81.** The public key of a loaded private key can be listed in metadata under its ID. -/
theorem C81_keys_are_good (L : RingLaw R verify) (hH : ∀ b, (H b).length = 32) (k : PrivateKey)
    (pub : PublicKey) (h : Loaded (lib F H) R k pub) : GoodKey (lib F H) pub ∧ IsKeyId pub.keyId := by
  have key : GoodKey (lib F H) pub := by
    cases h with
    | ed25519 k h =>
      obtain ⟨a, h⟩ := loadedEd25519_make (lib F H) R h
      obtain ⟨e1, e2, e3, e4, e5⟩ := make_some (lib F H) h
      refine ⟨by rw [e1, e2, e3, e4]; exact e5, .inl ⟨e1, e2, by rw [e4]; exact L.edLength _⟩⟩
    | rsa d scheme k random h =>
      obtain ⟨-, -, -, p, h4, h5⟩ := rsaFromPkcs8_ok (lib F H) R h
      obtain ⟨e1, e2, e3, e4, e5⟩ := make_some (lib F H) h5
      obtain ⟨n, e, null, -, -, -, -, hl⟩ := C81_extract_only d p h4
      refine ⟨by rw [e1, e2, e3, e4]; exact e5, .inr ⟨e1, ?_⟩⟩
      rw [e4]
      exact (C79_rsa_keys F H p).2 hl
  exact ⟨key, calculateKeyId_isKeyId (lib F H) hH key.id⟩

/-! ### Signed documents -/

section
variable {Raw : Type} [DecidableEq Raw]

theorem signsFor_own {k : PrivateKey} {pub : PublicKey} (h : SignsFor verify k pub) :
    PrivateKey.Own k := fun msg s hs => by rw [(h.2.2 msg s hs).1, h.1]

omit [DecidableEq Raw] in
theorem builtWith_inv {I : Interchange Raw} {raw : Raw} {ks : List PrivateKey} {b : SignedBuilder Raw}
    (h : BuiltWith I raw ks b) (ho : ∀ k ∈ ks, PrivateKey.Own k) :
    MadeBuilder I b ∧ b.metadata = raw ∧
      (∀ s ∈ b.build.signatures, ∃ k ∈ ks, k.sign b.metadataBytes = .ok s) ∧
      ∀ k ∈ ks, ∃ s ∈ b.build.signatures, s.keyId = k.publicKeyId := by
  have hb : ∀ (b : SignedBuilder Raw) s, s ∈ b.build.signatures ↔ s ∈ b.signatures.map Prod.snd :=
    fun b s => (perm_sortByKeyId _).mem_iff
  induction h with
  | start b h =>
    refine ⟨.start _ _ h, ?_⟩
    unfold SignedBuilder.fromRawMetadata at h
    split at h
    · cases h
    · split at h
      · cases h
      · cases h
        exact ⟨rfl, by simp [hb], by simp⟩
  | sign ks b k b' _ h ih =>
    obtain ⟨h1, h2, h3, h4⟩ := ih fun k hk => ho k (.tail _ hk)
    have hk := ho k (.head _)
    obtain ⟨bytes, sig, e1, e2, e3⟩ := C53_builder_sign I b b' k h1 hk h
    have e4 := (madeBuilder_inv h1).2.2
    rw [e1] at e4
    have e4 := Except.ok.inj e4
    have e5 : b'.metadata = b.metadata ∧ b'.metadataBytes = b.metadataBytes := by
      unfold SignedBuilder.sign at h
      split at h
      · cases h
      · cases h; exact ⟨rfl, rfl⟩
    refine ⟨.sign _ _ _ h1 hk h, e5.1.trans h2, ?_, ?_⟩
    · intro s hs
      rw [e5.2]
      rcases (e3 s).1 hs with rfl | ⟨hs, -⟩
      · exact ⟨k, .head _, by rw [← e4]; exact e2⟩
      · obtain ⟨k', hk', e⟩ := h3 s hs
        exact ⟨k', .tail _ hk', e⟩
    · intro k' hk'
      by_cases e : k'.publicKeyId = k.publicKeyId
      · exact ⟨sig, (e3 _).2 (.inl rfl), by rw [e]; exact hk _ _ e2⟩
      · rcases List.mem_cons.1 hk' with rfl | hk'
        · exact absurd rfl e
        · obtain ⟨s, hs, e6⟩ := h4 k' hk'
          exact ⟨s, (e3 _).2 (.inr ⟨hs, by rw [e6]; exact e⟩), e6⟩
  | reorder ks b l _ hl ih =>
    obtain ⟨h1, h2, h3, h4⟩ := ih ho
    have hp : ∀ s, s ∈ (SignedBuilder.build { b with signatures := l }).signatures ↔
        s ∈ b.build.signatures := fun s => by
      rw [hb, hb]
      exact (hl.map Prod.snd).mem_iff
    refine ⟨.reorder _ _ h1 hl, h2, fun s hs => h3 s ((hp s).1 hs), fun k hk => ?_⟩
    obtain ⟨s, hs, e⟩ := h4 k hk
    exact ⟨s, (hp s).2 hs, e⟩

/-- Signed metadata hold a signature by each of the keys, and no others. -/
theorem signedWith_inv {I : Interchange Raw} {raw : Raw} {ks : List PrivateKey} {m : SignedMetadata Raw}
    (h : SignedWith I raw ks m) (ho : ∀ k ∈ ks, PrivateKey.Own k) :
    Made I m ∧ m.metadata = raw ∧ ∃ bytes, I.canonicalize raw = .ok bytes ∧
      (∀ s ∈ m.signatures, ∃ k ∈ ks, k.sign bytes = .ok s) ∧
      ∀ k ∈ ks, ∃ s ∈ m.signatures, s.keyId = k.publicKeyId := by
  induction h with
  | build ks b h =>
    obtain ⟨h1, h2, h3, h4⟩ := builtWith_inv h ho
    exact ⟨.build _ h1, h2, _, by rw [← h2]; exact (madeBuilder_inv h1).2.2, h3, h4⟩
  | new k m h =>
    have hk := ho k (.head _)
    refine ⟨.new _ _ _ hk h, ?_⟩
    unfold SignedMetadata.new at h
    split at h
    · cases h
    · rename_i bytes hb
      split at h
      · cases h
      · rename_i sig hs
        cases h
        refine ⟨rfl, bytes, hb, fun s h => ⟨k, .head _, ?_⟩, fun k' hk' => ⟨sig, .head _, ?_⟩⟩
        · rw [List.mem_singleton.1 h]; exact hs
        · rw [List.mem_singleton.1 hk']; exact hk _ _ hs
  | add ks m k m' _ h ih =>
    obtain ⟨h1, h2, bytes, h3, h4, h5⟩ := ih fun k hk => ho k (.tail _ hk)
    have hk := ho k (.head _)
    have hm := Made.add m k h1 hk
    rw [h] at hm
    refine ⟨hm, ?_⟩
    unfold SignedMetadata.addSignature at h
    rw [h2, h3] at h
    simp only at h
    split at h
    · cases h
    · rename_i sig hs
      cases h
      refine ⟨rfl, bytes, h3, ?_, ?_⟩
      · intro s h
        rcases List.mem_append.1 h with h | h
        · obtain ⟨k', hk', e⟩ := h4 s (List.mem_filter.1 h).1
          exact ⟨k', .tail _ hk', e⟩
        · rw [List.mem_singleton.1 h]
          exact ⟨k, .head _, hs⟩
      · intro k' hk'
        by_cases e : k'.publicKeyId = k.publicKeyId
        · exact ⟨sig, List.mem_append_right _ (.head _), by rw [e]; exact hk _ _ hs⟩
        · rcases List.mem_cons.1 hk' with rfl | hk'
          · exact absurd rfl e
          · obtain ⟨s, h6, e6⟩ := h5 k' hk'
            exact ⟨s, List.mem_append_left _ (List.mem_filter.2 ⟨h6, by rw [e6]; simpa using e⟩), e6⟩
  | merge ks ks' m other m' _ _ h ih ih' =>
    obtain ⟨h1, h2, bytes, h3, h4, h5⟩ := ih fun k hk => ho k (List.mem_append_left _ hk)
    obtain ⟨g1, g2, bytes', g3, g4, g5⟩ := ih' fun k hk => ho k (List.mem_append_right _ hk)
    rw [h3] at g3
    have hb : bytes = bytes' := Except.ok.inj g3
    subst hb
    have hm := Made.merge m other h1 g1
    rw [h] at hm
    obtain ⟨-, e2, e3⟩ := (C53_merge_adds_missing m m' other).1.1 h
    refine ⟨hm, by rw [e2, h2], bytes, h3, ?_, ?_⟩
    · intro s hs
      rw [e3] at hs
      rcases List.mem_append.1 hs with hs | hs
      · obtain ⟨k, hk, e⟩ := h4 s hs
        exact ⟨k, List.mem_append_left _ hk, e⟩
      · obtain ⟨k, hk, e⟩ := g4 s (List.mem_filter.1 hs).1
        exact ⟨k, List.mem_append_right _ hk, e⟩
    · intro k hk
      rcases List.mem_append.1 hk with hk | hk
      · obtain ⟨s, hs, e⟩ := h5 k hk
        exact ⟨s, by rw [e3]; exact List.mem_append_left _ hs, e⟩
      · obtain ⟨s, hs, e⟩ := g5 k hk
        by_cases c : ∀ o ∈ m.signatures, o.keyId ≠ s.keyId
        · exact ⟨s, by rw [e3]; exact List.mem_append_right _ (List.mem_filter.2 ⟨hs, by simpa using c⟩), e⟩
        · have ⟨o, c⟩ := Classical.not_forall.1 c
          have ⟨h6, h7⟩ := Classical.not_imp.1 c
          exact ⟨o, by rw [e3]; exact List.mem_append_left _ h6, (Classical.not_not.1 h7).trans e⟩

end

/-- **C81.** Signed metadata hold exactly one signature for each key ID that signed and no others, each
made by one of the keys over the canonical form of the content. -/
theorem C81_exactly_the_signers {Raw : Type} [DecidableEq Raw] (I : Interchange Raw) (raw : Raw)
    (ks : List PrivateKey) (m : SignedMetadata Raw) (h : SignedWith I raw ks m)
    (ho : ∀ k ∈ ks, PrivateKey.Own k) :
    m.metadata = raw ∧ OnePerKey m ∧
      (∀ id, (∃ s ∈ m.signatures, s.keyId = id) ↔ ∃ k ∈ ks, k.publicKeyId = id) ∧
      ∃ bytes, I.canonicalize raw = .ok bytes ∧ ∀ s ∈ m.signatures, ∃ k ∈ ks, k.sign bytes = .ok s := by
  obtain ⟨h1, h2, bytes, h3, h4, h5⟩ := signedWith_inv h ho
  refine ⟨h2, C53_one_signature_per_key I m h1, fun id => ⟨?_, ?_⟩, bytes, h3, h4⟩
  · rintro ⟨s, hs, e⟩
    obtain ⟨k, hk, e'⟩ := h4 s hs
    exact ⟨k, hk, by rw [← e, ho k hk _ _ e']⟩
  · rintro ⟨k, hk, e⟩
    obtain ⟨s, hs, e'⟩ := h5 k hk
    exact ⟨s, hs, e'.trans e⟩

variable (order : Map KeyId Signature → List (KeyId × Signature)) (perm : ∀ m, (order m).Perm m)

/-- **C81.** Metadata that is signed in whatever way (builder, `new`,
`add_signature`, `merge_signatures`), for example with loaded private keys, is published with valid signatures of these keys. `known` are the
public keys of all signers and of the role. -/
theorem C81_signed_is_published {M : Type} (encode : M → Option Json) (decode : Json → Option M) (m : M)
    (j : Json) (he : encode m = some j) (ks : List PrivateKey) (sm : SignedMetadata JsonValue)
    (h : SignedWith (jsonInterchange decode) j.toValue ks sm)
    (known : List PublicKey) (hone : OneKeyPerId known)
    (hks : ∀ k ∈ ks, ∃ pub ∈ known, SignsFor verify k pub ∧ IsKeyId pub.keyId)
    (keys : List PublicKey) (hkeys : ∀ k ∈ keys, k ∈ known)
    (n : Nat) (hn : 1 ≤ n) (signers : List PublicKey) (hs : signers.Nodup) (hl : n ≤ signers.length)
    (hsig : ∀ p ∈ signers, p ∈ keys ∧ ∃ k ∈ ks, SignsFor verify k p) :
    Published X verify order perm encode decode m sm keys n := by
  have ho : ∀ k ∈ ks, PrivateKey.Own k := fun k hk => by
    obtain ⟨_, _, h, _⟩ := hks k hk
    exact signsFor_own verify h
  obtain ⟨h1, h2, bytes, h3, h4, h5⟩ := signedWith_inv h ho
  refine ⟨h1, ⟨j, he, h2⟩, ?_, fun a ha b hb => hone a (hkeys a ha) b (hkeys b hb), hn,
    signers, hs, hl, ?_⟩
  · intro s hs
    obtain ⟨k, hk, e⟩ := h4 s hs
    obtain ⟨pub, hp, hf, hid⟩ := hks k hk
    rw [(hf.2.2 _ _ e).1]
    exact hid
  · intro p hp
    obtain ⟨hpk, k, hk, hf⟩ := hsig p hp
    obtain ⟨s, hs, e⟩ := h5 k hk
    refine ⟨hpk, s, hs, by rw [e, hf.1], ?_⟩
    intro msg hc
    have hmsg : msg = bytes := by
      have h3 : Json.canonicalize j.toValue.1 = .ok bytes := h3
      rw [h2, h3] at hc
      exact (Except.ok.inj hc).symm
    subst hmsg
    obtain ⟨k', hk', e'⟩ := h4 s hs
    obtain ⟨p', hp', hf', -⟩ := hks k' hk'
    obtain ⟨e1, e2⟩ := hf'.2.2 _ _ e'
    have : p' = p := hone p' hp' p (hkeys p hpk) (by rw [← e1, e, hf.1])
    subst this
    exact ⟨hf'.2.1, e2⟩

/-- **C81.** A root that is signed with private keys, enough of which belong to the keys of a client,
is accepted by the client as the same root up to fractions of a second. Nothing is assumed but the law
of `ring`, a digest of 32 bytes and that no two of the keys involved have the same ID. -/
theorem C81_root_is_accepted (L : RingLaw R verify) (hH : ∀ b, (H b).length = 32) (r : RootMetadata)
    (hrep : Representable r.expires) (hyear : (dateOf r.expires).year ≤ 9999) (hr : GoodRoot r)
    (hk : ∀ p ∈ r.keys, IsKeyId p.1 ∧ GoodKey (lib F H) p.2)
    (ht : r.root.threshold < 2 ^ 32 ∧ r.snapshot.threshold < 2 ^ 32 ∧
      r.targets.threshold < 2 ^ 32 ∧ r.timestamp.threshold < 2 ^ 32)
    (j : Json) (he : encodeRoot (lib F H) r = some j) (ks : List PrivateKey)
    (sm : SignedMetadata JsonValue)
    (h : SignedWith (jsonInterchange (decodeRoot (lib F H))) j.toValue ks sm)
    (known : List PublicKey) (hone : OneKeyPerId known)
    (hks : ∀ k ∈ ks, ∃ pub ∈ known, Loaded (lib F H) R k pub)
    (keys : List PublicKey) (hkeys : ∀ k ∈ keys, k ∈ known)
    (n : Nat) (hn : 1 ≤ n) (signers : List PublicKey) (hs : signers.Nodup) (hl : n ≤ signers.length)
    (hsig : ∀ p ∈ signers, p ∈ keys ∧ ∃ k ∈ ks, Loaded (lib F H) R k p) :
    ∃ raw r', sm.toRaw = .ok raw ∧
      verifySignatures (jsonEnv (lib F H) verify order perm)
        (jsonEnv (lib F H) verify order perm).rootFromSlice raw n keys = .ok r' ∧
      SameRoot { r with expires := wholeSecond r.expires } r' := by
  obtain ⟨j', r', h1, h2, h3⟩ := C80_root F H r hrep hyear hr hk ht
  have hp := C81_signed_is_published (lib F H) verify order perm (encodeRoot (lib F H))
    (decodeRoot (lib F H)) r j he ks sm h known hone
    (fun k hk => by
      obtain ⟨pub, h4, h5⟩ := hks k hk
      exact ⟨pub, h4, C81_loaded_signs _ R verify L k pub h5,
        (C81_keys_are_good R verify F H L hH k pub h5).2⟩)
    keys hkeys n hn signers hs hl
    (fun p hp => by
      obtain ⟨h4, k, h5, h6⟩ := hsig p hp
      exact ⟨h4, k, h5, C81_loaded_signs _ R verify L k p h6⟩)
  obtain ⟨raw, h4, h5⟩ := hp.accepted (lib F H) verify order perm
    (fun j e => by have := nesting_encodeRoot (lib F H) e; omega) h1 h2
  exact ⟨raw, r', h4, h5, h3⟩

end RustTuf.Props
