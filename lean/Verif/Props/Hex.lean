import Verif.Spec.Hex
import Verif.Props.Shims
import Verif.Lemmas.Encode
import Verif.Props.KeyIds

/-!
# C111: values written in hexadecimal have one spelling
-/

namespace RustTuf.Props
open Spec RustTuf

theorem hexLowerVal_iff (c : Char) (n : Nat) : hexLowerVal c = some n ↔ hexAlphabet[n]? = some c := by
  constructor
  · intro h
    have e : c = Char.ofNat c.toNat := (Char.ofNat_toNat c).symm
    unfold hexLowerVal at h
    split at h
    · rename_i hc
      cases h
      generalize c.toNat = k at *
      subst e
      have : ∀ k : Fin 58, 48 ≤ k.1 → hexAlphabet[k.1 - 48]? = some (Char.ofNat k.1) := by decide
      exact this ⟨k, by omega⟩ hc.1
    · split at h
      · rename_i hc
        cases h
        generalize c.toNat = k at *
        subst e
        have : ∀ k : Fin 103, 97 ≤ k.1 → hexAlphabet[k.1 - 87]? = some (Char.ofNat k.1) := by decide
        exact this ⟨k, by omega⟩ hc.1
      · cases h
  · intro h
    have hn : n < 16 := (List.getElem?_eq_some_iff.1 h).1
    have : ∀ n : Fin 16, (hexAlphabet[n.1]?.bind hexLowerVal) = some n.1 := by decide
    have := this ⟨n, hn⟩
    rw [h] at this
    exact this

/-- **C111.** A text in hexadecimal is read as the bytes it spells, and as nothing else: upper-case digits,
an odd number of digits, spaces and prefixes are refused. -/
theorem C111_hex_is_read_exactly (s : Str) (b : Bytes) :
    hexLowerDecode s = some b ↔ Spells s b := by
  constructor
  · intro h
    induction s using hexLowerDecode.induct generalizing b with
    | case1 => cases h; exact .nil
    | case2 => cases h
    | case3 c d s x y r hr hy hx ih =>
      unfold hexLowerDecode at h
      simp only [hx, hy, hr] at h
      cases h
      have h1 := (hexLowerVal_iff c x).1 hx
      have h2 := (hexLowerVal_iff d y).1 hy
      have l1 : x < 16 := (List.getElem?_eq_some_iff.1 h1).1
      have l2 : y < 16 := (List.getElem?_eq_some_iff.1 h2).1
      refine .cons h1 h2 ?_ (ih _ hr)
      rw [UInt8.toNat_ofNat']
      omega
    | case4 c d s hno =>
      exfalso
      unfold hexLowerDecode at h
      split at h
      · rename_i x y r hx hy hr
        exact hno _ _ _ hx hy hr
      · cases h
  · intro h
    induction h with
    | nil => rfl
    | cons h1 h2 hb _ ih =>
      unfold hexLowerDecode
      rw [(hexLowerVal_iff _ _).2 h1, (hexLowerVal_iff _ _).2 h2, ih]
      simp only [← hb]
      simp

/-- **C111.** Different texts spell different bytes. -/
theorem C111_one_spelling {s t : Str} {b : Bytes} (h : Spells s b) (h' : Spells t b) : s = t := by
  induction h generalizing t with
  | nil => cases h'; rfl
  | @cons hi lo _ _ _ _ _ h1 h2 hb _ ih =>
    cases h' with
    | @cons hi' lo' _ _ _ _ _ g1 g2 gb g =>
      have l1 : hi < 16 := (List.getElem?_eq_some_iff.1 h1).1
      have l2 : lo < 16 := (List.getElem?_eq_some_iff.1 h2).1
      have l3 : hi' < 16 := (List.getElem?_eq_some_iff.1 g1).1
      have l4 : lo' < 16 := (List.getElem?_eq_some_iff.1 g2).1
      obtain rfl : hi = hi' := by omega
      obtain rfl : lo = lo' := by omega
      rw [h1] at g1
      rw [h2] at g2
      cases g1
      cases g2
      rw [ih g]

/-- **C111.** Any bytes can be spelled: what a hash value is displayed as, and what is written into
metadata. -/
theorem C111_hex_is_written (b : Bytes) :
    Spells (HashValue.display b) b ∧ ∃ s, encodeHex b = .str s ∧ Spells s b :=
  have h := (C111_hex_is_read_exactly _ _).1 (hexLowerDecode_hexLower b)
  ⟨h, _, rfl, h⟩

/-- **C111.** `SignatureValue::from_hex` succeeds just for texts that spell bytes, and gives those. -/
theorem C111_from_hex (s : Str) (b : Bytes) : SignatureValue.fromHex s = some b ↔ Spells s b :=
  C111_hex_is_read_exactly s b

theorem decodeHex_iff (j : Json) (b : Bytes) : decodeHex j = some b ↔ ∃ s, j = .str s ∧ Spells s b := by
  unfold decodeHex asStr
  constructor
  · intro h
    split at h
    · exact ⟨_, rfl, (C111_hex_is_read_exactly _ _).1 h⟩
    · cases h
  · rintro ⟨s, rfl, h⟩
    exact (C111_hex_is_read_exactly _ _).2 h

theorem get?_of_once {K V : Type} [DecidableEq K] {f : K → Bool} : ∀ {m : Map K V} {k : K} {v : V},
    ((Map.keys m).filter f).Nodup → f k = true → (k, v) ∈ m → Map.get? m k = some v
  | [], _, _, _, _, h => by cases h
  | p :: m, k, v, hn, hf, h => by
    rw [Map.get?_cons]
    by_cases hp : p.1 = k
    · rw [if_pos hp]
      rcases List.mem_cons.1 h with rfl | h
      · rfl
      · exfalso
        have : (Map.keys (p :: m)).filter f = p.1 :: (Map.keys m).filter f := by
          simp [Map.keys, hp, hf]
        rw [this, List.nodup_cons] at hn
        refine hn.1 (List.mem_filter.2 ⟨?_, hp ▸ hf⟩)
        exact List.mem_map.2 ⟨_, h, hp.symm⟩
    · rw [if_neg hp]
      refine get?_of_once (f := f) ?_ hf ?_
      · have := hn
        simp only [Map.keys, List.map_cons, List.filter_cons] at this
        split at this
        · exact (List.nodup_cons.1 this).2
        · exact this
      · rcases List.mem_cons.1 h with rfl | h
        · exact absurd rfl hp
        · exact h

/-- **C111.** An object is a signature just if its members `keyid` and `sig` occur once each, the one is a
text of 64 bytes and the other spells the value of the signature. Other members are ignored. -/
theorem C111_signature_is_read (m : List (Str × Json)) (g : Signature) :
    decodeSignature (.obj m) = some g ↔
      ((m.map (·.1)).filter fun k => ["keyid".toList, "sig".toList].contains k).Nodup ∧
      ("keyid".toList, .str g.keyId) ∈ m ∧ (utf8 g.keyId).length = 64 ∧
      ∃ s, ("sig".toList, .str s) ∈ m ∧ Spells s g.value := by
  unfold decodeSignature asStruct
  constructor
  · intro h
    simp only [Option.bind_eq_bind, Option.bind_eq_some_iff] at h
    obtain ⟨m', hm, id, hid, v, hv, e⟩ := h
    cases e
    split at hm
    · rename_i hn
      cases hm
      obtain ⟨j, hj, h1⟩ := field_some hid
      obtain ⟨j', hj', h2⟩ := field_some hv
      unfold decodeKeyId asStr keyIdOfStr at h1
      split at h1
      · simp only [Option.bind_some] at h1
        split at h1
        · cases h1
          obtain ⟨s, rfl, hs⟩ := (decodeHex_iff _ _).1 h2
          exact ⟨hn, Map.mem_of_get? hj, by assumption, s, Map.mem_of_get? hj', hs⟩
        · cases h1
      · cases h1
    · cases hm
  · rintro ⟨hn, hid, hl, s, hs, hsp⟩
    have h1 := get?_of_once hn (by decide) hid
    have h2 := get?_of_once hn (by decide) hs
    simp only [Option.bind_eq_bind]
    rw [if_pos (show ((Map.keys m).filter _).Nodup from hn)]
    simp only [Option.bind_some, field, h1, h2]
    rw [(decodeHex_iff _ _).2 ⟨s, rfl, hsp⟩]
    simp only [decodeKeyId, asStr, keyIdOfStr, Option.bind_some, if_pos hl]

theorem hashAlgOfKey_iff (s : Str) (a : HashAlg) : hashAlgOfKey s = some a ↔ AlgName s a := by
  unfold hashAlgOfKey
  constructor
  · intro h
    split at h
    · rename_i e; cases h; subst e; exact .sha256
    · split at h
      · rename_i e; cases h; subst e; exact .sha512
      · cases h
  · rintro (_ | _) <;> decide

theorem mapAll_iff {α β : Type} {f : α → Option β} : ∀ {l : List α} {r : List β},
    mapAll f l = some r ↔ List.Forall₂ (fun a b => f a = some b) l r
  | [], r => by
    constructor
    · intro h; cases h; exact .nil
    · intro h; cases h; rfl
  | a :: l, r => by
    unfold mapAll
    constructor
    · intro h
      split at h
      · cases h
      · split at h
        · cases h
        · rename_i hb _ _ hl
          cases h
          exact .cons hb (mapAll_iff.1 hl)
    · intro h
      cases h with
      | cons h1 h2 => simp only [h1, mapAll_iff.2 h2]

theorem forall₂_left {α β : Type} {R : α → β → Prop} {l : List α} {r : List β} (h : List.Forall₂ R l r) :
    ∀ a ∈ l, ∃ b ∈ r, R a b := by
  induction h with
  | nil => intro a ha; cases ha
  | cons h1 _ ih =>
    intro a ha
    rcases List.mem_cons.1 ha with rfl | ha
    · exact ⟨_, List.mem_cons_self .., h1⟩
    · obtain ⟨b, hb, e⟩ := ih a ha
      exact ⟨b, List.mem_cons_of_mem _ hb, e⟩

theorem forall₂_same {α β : Type} {R S : α → β → Prop} (e : ∀ a b, R a b ↔ S a b) {l : List α} {r : List β} :
    List.Forall₂ R l r ↔ List.Forall₂ S l r := by
  constructor
  · intro h
    induction h with
    | nil => exact .nil
    | cons h1 _ ih => exact .cons ((e _ _).1 h1) ih
  · intro h
    induction h with
    | nil => exact .nil
    | cons h1 _ ih => exact .cons ((e _ _).2 h1) ih

theorem forall₂_swap {α β : Type} {R : α → β → Prop} {l : List α} {r : List β} (h : List.Forall₂ R l r) :
    List.Forall₂ (fun b a => R a b) r l := by
  induction h with
  | nil => exact .nil
  | cons h1 _ ih => exact .cons h1 ih

theorem forall₂_split {α β : Type} {R : α → β → Prop} {l : List α} {pre post : List β} {b : β}
    (h : List.Forall₂ R l (pre ++ b :: post)) :
    ∃ p a q, l = p ++ a :: q ∧ R a b ∧ List.Forall₂ R q post := by
  induction pre generalizing l with
  | nil =>
    cases h with
    | cons h1 h2 => exact ⟨[], _, _, rfl, h1, h2⟩
  | cons x pre ih =>
    cases h with
    | cons h1 h2 =>
      obtain ⟨p, a, q, rfl, e⟩ := ih h2
      exact ⟨_ :: p, a, q, rfl, e⟩

/-- An entry of the member `hashes` gives a hash. -/
def Entry (p : Str × Json) (q : HashAlg × HashValue) : Prop :=
  AlgName p.1 q.1 ∧ ∃ s, p.2 = .str s ∧ Spells s q.2

theorem decodeHashes_iff (l : List (Str × Json)) (hs : Map HashAlg HashValue) :
    decodeHashes (.obj l) = some hs ↔ ∃ r, List.Forall₂ Entry l r ∧ hs = Map.collect r := by
  have key : ∀ r, asEntries hashAlgOfKey decodeHex (.obj l) = some r ↔ List.Forall₂ Entry l r := by
    intro r
    unfold asEntries
    rw [mapAll_iff]
    refine forall₂_same fun a b => ?_
    constructor
    · intro h
      split at h
      · cases h
      · split at h
        · cases h
        · rename_i hk _ _ hv
          cases h
          exact ⟨(hashAlgOfKey_iff _ _).1 hk, (decodeHex_iff _ _).1 hv⟩
    · intro h
      simp only [(hashAlgOfKey_iff _ _).2 h.1, (decodeHex_iff _ _).2 h.2]
  unfold decodeHashes asMap
  rw [Option.map_eq_some_iff]
  constructor
  · rintro ⟨r, h, rfl⟩; exact ⟨r, (key r).1 h, rfl⟩
  · rintro ⟨r, h, rfl⟩; exact ⟨r, (key r).2 h, rfl⟩

/-- **C111.** The hashes of a description are read just if every entry is named after an algorithm and
spells a value. -/
theorem C111_hashes_are_read (l : List (Str × Json)) :
    (decodeHashes (.obj l)).isSome ↔
      ∀ p ∈ l, ∃ a v s, AlgName p.1 a ∧ p.2 = .str s ∧ Spells s v := by
  rw [Option.isSome_iff_exists]
  simp only [decodeHashes_iff]
  constructor
  · rintro ⟨_, r, h, _⟩ p hp
    obtain ⟨q, _, h1, s, h2⟩ := forall₂_left h p hp
    exact ⟨q.1, q.2, s, h1, h2⟩
  · intro h
    suffices ∃ r, List.Forall₂ Entry l r by
      obtain ⟨r, hr⟩ := this
      exact ⟨_, r, hr, rfl⟩
    induction l with
    | nil => exact ⟨[], .nil⟩
    | cons p l ih =>
      obtain ⟨a, v, s, h1, h2⟩ := h p (List.mem_cons_self ..)
      obtain ⟨r, hr⟩ := ih fun p hp => h p (List.mem_cons_of_mem _ hp)
      exact ⟨(a, v) :: r, .cons ⟨h1, s, h2⟩ hr⟩

/-- **C111.** The hash of an algorithm is the value which the last entry with its name spells. -/
theorem C111_hashes_are_spelled (l : List (Str × Json)) (hs : Map HashAlg HashValue)
    (h : decodeHashes (.obj l) = some hs) (n : Str) (a : HashAlg) (hn : AlgName n a) (v : HashValue) :
    hs.get? a = some v ↔
      ∃ pre post s, l = pre ++ (n, .str s) :: post ∧ Spells s v ∧ ∀ q ∈ post, q.1 ≠ n := by
  obtain ⟨r, hr, rfl⟩ := (decodeHashes_iff l hs).1 h
  rw [Map.get?_collect_eq_some]
  have name : ∀ m b, AlgName m b → (m = n ↔ b = a) := by
    intro m b hm
    cases hm <;> cases hn <;> decide
  constructor
  · rintro ⟨pre, post, rfl, hp⟩
    obtain ⟨p, x, q, rfl, ⟨h1, s, h2, h3⟩, h4⟩ := forall₂_split hr
    obtain ⟨x1, x2⟩ := x
    obtain rfl : x1 = n := (name _ _ h1).2 rfl
    obtain rfl : x2 = .str s := h2
    refine ⟨p, q, s, rfl, h3, fun y hy e => ?_⟩
    obtain ⟨z, hz, h5, _⟩ := forall₂_left h4 y hy
    exact hp z hz ((name _ _ h5).1 e)
  · rintro ⟨pre, post, s, rfl, hs, hp⟩
    obtain ⟨p, x, q, rfl, ⟨h1, t, h2, h3⟩, h4⟩ := forall₂_split (forall₂_swap hr)
    obtain ⟨x1, x2⟩ := x
    obtain rfl : x1 = a := (name _ _ h1).1 rfl
    cases h2
    have e : some x2 = some v := by
      rw [← (C111_hex_is_read_exactly _ _).2 h3, (C111_hex_is_read_exactly _ _).2 hs]
    cases e
    refine ⟨p, q, rfl, fun y hy e => ?_⟩
    obtain ⟨z, hz, h5, _⟩ := forall₂_left h4 y hy
    exact hp z hz ((name _ _ h5).2 e)

/-- **C111.** An Ed25519 key in metadata is spelled, and has 32 bytes. -/
theorem C111_ed25519_key_is_spelled (X : ShimLib) (m : List (Str × Json)) (k : PublicKey)
    (h : decodePublicKey X (.obj m) = some k) (ht : k.typ = .ed25519) :
    ∃ j s, ("keyval".toList, j) ∈ m ∧
      ((∃ m', j = .obj m' ∧ ("public".toList, .str s) ∈ m') ∨ j = .arr [.str s]) ∧
      Spells s k.value ∧ k.value.length = 32 := by
  unfold decodePublicKey at h
  simp only [Option.bind_eq_bind, Option.bind_eq_some_iff] at h
  obtain ⟨⟨typ, scheme, algs, pub⟩, hk, h⟩ := h
  have hv : ∃ j, ("keyval".toList, j) ∈ m ∧
      ((∃ m', j = .obj m' ∧ ("public".toList, .str pub) ∈ m') ∨ j = .arr [.str pub]) := by
    unfold decodeKeyShim at hk
    simp only [Option.bind_eq_bind, Option.bind_eq_some_iff] at hk
    obtain ⟨m1, h1, _, _, _, _, _, _, p, h2, e⟩ := hk
    cases e
    obtain ⟨j, hj, h3⟩ := field_some h2
    refine ⟨j, ?_, ?_⟩
    · unfold asStruct at h1
      simp only at h1
      split at h1
      · cases h1; exact Map.mem_of_get? hj
      · cases h1
    · simp only [Option.bind_eq_some_iff] at h3
      obtain ⟨m2, h4, h5⟩ := h3
      obtain ⟨j2, hj2, h6⟩ := field_some h5
      have e : j2 = .str pub := by
        unfold asStr at h6
        split at h6
        · cases h6; rfl
        · cases h6
      subst e
      unfold asStruct at h4
      split at h4
      · split at h4
        · cases h4; exact .inl ⟨_, rfl, Map.mem_of_get? hj2⟩
        · cases h4
      · rename_i l
        split at h4
        · rename_i hl
          cases h4
          match l, hl with
          | [x], _ =>
            have := Map.mem_of_get? hj2
            simp at this
            exact .inr (by rw [this])
        · cases h4
      · cases h4
  obtain ⟨j, h1, h2⟩ := hv
  refine ⟨j, pub, h1, h2, ?_⟩
  split at h
  · split at h
    · simp only [Option.bind_eq_some_iff] at h
      obtain ⟨b, hb, k', hk', h⟩ := h
      split at h
      · cases h
        unfold PublicKey.fromEd25519 PublicKey.make at hk'
        split at hk'
        · split at hk'
          · cases hk'
          · cases hk'
            exact ⟨(C111_hex_is_read_exactly _ _).1 hb, by assumption⟩
        · cases hk'
      · cases h
    · cases h
  · rename_i hne
    simp only [Option.bind_eq_some_iff] at h
    obtain ⟨b, hb, k', hk', h⟩ := h
    split at h
    · rename_i e
      cases h
      rw [ht] at e
      exact absurd e.symm hne
    · cases h

/-! ### Examples -/

example : Spells "00ff7a".toList [0, 255, 122] := (C111_hex_is_read_exactly _ _).1 (by decide)

/-- Upper-case digits are refused. -/
example : ¬ ∃ b, Spells "FF".toList b := by
  rintro ⟨b, h⟩
  have := (C111_hex_is_read_exactly _ _).2 h
  revert this
  rw [show hexLowerDecode "FF".toList = none by decide]
  simp

example : SignatureValue.fromHex "4750eaf6".toList = some [0x47, 0x50, 0xea, 0xf6] := by decide

/-- A signature with a member that is ignored. -/
def hexSignature : List (Str × Json) :=
  [("keyid".toList, .str (List.replicate 64 'a')), ("extra".toList, .null), ("sig".toList, .str "0a".toList)]

example : decodeSignature (.obj hexSignature) = some ⟨List.replicate 64 'a', [10]⟩ :=
  (C111_signature_is_read _ _).2 ⟨by decide, by simp [hexSignature], by decide +kernel,
    "0a".toList, by simp [hexSignature], (C111_hex_is_read_exactly _ _).1 (by decide)⟩

/-- A key. -/
def hexKey : List (Str × Json) :=
  [("keytype".toList, .str "ed25519".toList), ("scheme".toList, .str "ed25519".toList),
   ("keyval".toList, .obj [("public".toList, .str (List.replicate 64 '7'))])]

example : ∃ k, decodePublicKey PublishExample.idLib (.obj hexKey) = some k ∧ k.typ = .ed25519 ∧
    k.value = List.replicate 32 0x77 := by
  have h : (decodePublicKey PublishExample.idLib (.obj hexKey)).map (fun k => (k.typ, k.value)) =
      some (.ed25519, List.replicate 32 0x77) := by decide +kernel
  obtain ⟨k, e, h⟩ := Option.map_eq_some_iff.1 h
  exact ⟨k, e, congrArg Prod.fst h, congrArg Prod.snd h⟩

/-- Of two entries with the same name the last one counts. -/
def hexHashes : List (Str × Json) :=
  [("sha256".toList, .str "00".toList), ("sha512".toList, .str "".toList),
   ("sha256".toList, .str "0b".toList)]

example : ∃ hs, decodeHashes (.obj hexHashes) = some hs ∧ hs.get? .sha256 = some [11] := by
  have h : (decodeHashes (.obj hexHashes)).isSome := by decide +kernel
  obtain ⟨hs, e⟩ := Option.isSome_iff_exists.1 h
  exact ⟨hs, e, (C111_hashes_are_spelled _ _ e _ _ .sha256 _).2
    ⟨[("sha256".toList, .str "00".toList), ("sha512".toList, .str "".toList)], [], "0b".toList, rfl,
      (C111_hex_is_read_exactly _ _).1 (by decide), by simp⟩⟩

end RustTuf.Props
