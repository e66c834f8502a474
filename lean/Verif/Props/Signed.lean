import Verif.Lemmas.StrOrder
import Verif.Spec.Signed

/-!
# C53: signature bookkeeping
-/

namespace RustTuf.Props
open Spec RustTuf

variable {Raw : Type} [DecidableEq Raw]

/-! ### Sorting -/

theorem perm_sortInsert (s : Signature) (l : List Signature) :
    (SignedBuilder.sortInsert s l).Perm (s :: l) := by
  induction l with
  | nil => exact List.Perm.refl _
  | cons t l ih =>
    unfold SignedBuilder.sortInsert
    split
    · exact (List.Perm.cons t ih).trans (List.Perm.swap s t l)
    · exact List.Perm.refl _

theorem perm_sortByKeyId (l : List Signature) : (SignedBuilder.sortByKeyId l).Perm l := by
  induction l with
  | nil => exact List.Perm.refl _
  | cons s l ih => exact (perm_sortInsert s _).trans (List.Perm.cons s ih)

/-- In ascending order of key IDs. -/
def KeySorted (l : List Signature) : Prop := l.Pairwise fun a b => strLt b.keyId a.keyId = false

theorem keySorted_sortInsert (s : Signature) (l : List Signature) (h : KeySorted l) :
    KeySorted (SignedBuilder.sortInsert s l) := by
  induction l with
  | nil => simp [SignedBuilder.sortInsert, KeySorted]
  | cons t l ih =>
    obtain ⟨h1, h2⟩ := List.pairwise_cons.1 h
    unfold SignedBuilder.sortInsert
    split
    · rename_i hlt
      refine List.pairwise_cons.2 ⟨?_, ih h2⟩
      intro q hq
      rcases List.mem_cons.1 ((perm_sortInsert s l).mem_iff.1 hq) with rfl | hq
      · exact strLt_asymm hlt
      · exact h1 q hq
    · rename_i hlt
      have hts : strLt t.keyId s.keyId = false := by simpa using hlt
      refine List.pairwise_cons.2 ⟨?_, h⟩
      intro q hq
      rcases List.mem_cons.1 hq with rfl | hq
      · exact hts
      · cases hqs : strLt q.keyId s.keyId with
        | false => rfl
        | true =>
          rcases strLt_total t.keyId q.keyId with hl | hl | hl
          · have := strLt_trans _ _ _ hl hqs
            rw [hts] at this; cases this
          · rw [hl, hqs] at hts; cases hts
          · rw [h1 q hq] at hl; cases hl

theorem keySorted_sortByKeyId (l : List Signature) : KeySorted (SignedBuilder.sortByKeyId l) := by
  induction l with
  | nil => exact List.Pairwise.nil
  | cons s l ih => exact keySorted_sortInsert s _ ih

/-- Sorted lists with distinct key IDs and the same elements are equal. -/
theorem keySorted_unique {l l' : List Signature} (hs : KeySorted l) (hs' : KeySorted l')
    (hn : (l.map Signature.keyId).Nodup) (hp : l.Perm l') : l = l' := by
  have hn' : (l'.map Signature.keyId).Nodup := (hp.map _).nodup_iff.1 hn
  have key : ∀ {x : List Signature}, KeySorted x → (x.map Signature.keyId).Nodup →
      x.Pairwise fun a b => strLt a.keyId b.keyId = true := by
    intro x hx hnx
    rw [List.nodup_iff_pairwise_ne, List.pairwise_map] at hnx
    refine List.Pairwise.imp₂ ?_ hx hnx
    intro a b h1 h2
    rcases strLt_total a.keyId b.keyId with h | h | h
    · exact h
    · exact absurd h h2
    · rw [h1] at h; cases h
  have a := key hs hn
  have a' := key hs' hn'
  have e : (l.map fun s => (s.keyId, s)) = l'.map fun s => (s.keyId, s) := by
    refine ascending_ext (by unfold Ascending; rw [List.pairwise_map]; exact a)
      (by unfold Ascending; rw [List.pairwise_map]; exact a') fun q => ?_
    have hp' := hp.map fun s => (s.keyId, s)
    have n1 : (Map.keys (l.map fun s => (s.keyId, s))).Nodup := by
      simpa [Map.keys, Function.comp_def] using hn
    have n2 : (Map.keys (l'.map fun s => (s.keyId, s))).Nodup := by
      simpa [Map.keys, Function.comp_def] using hn'
    cases h : Map.get? (l.map fun s => (s.keyId, s)) q with
    | some v => exact (Map.get?_of_mem_nodup n2 (hp'.mem_iff.1 (Map.mem_of_get? h))).symm
    | none =>
      rw [Map.get?_eq_none_iff] at h
      exact (Map.get?_eq_none_iff.2 fun v hv => h v (hp'.mem_iff.2 hv)).symm
  have := congrArg (List.map Prod.snd) e
  simpa [Function.comp_def] using this

/-! ### Builders -/

omit [DecidableEq Raw] in
theorem madeBuilder_inv {X : Interchange Raw} {b : SignedBuilder Raw} (h : MadeBuilder X b) :
    (Map.keys b.signatures).Nodup ∧ (∀ p ∈ b.signatures, p.2.keyId = p.1) ∧
    X.canonicalize b.metadata = .ok b.metadataBytes := by
  induction h with
  | start raw b h =>
    unfold SignedBuilder.fromRawMetadata at h
    split at h
    · cases h
    · split at h
      · cases h
      · rename_i hc
        cases h
        exact ⟨by simp [Map.keys], by simp, hc⟩
  | sign b k b' _ hk h ih =>
    obtain ⟨h1, h2, h3⟩ := ih
    unfold SignedBuilder.sign at h
    split at h
    · cases h
    · cases h
      refine ⟨Map.nodup_keys_insert h1 _ _, ?_, h3⟩
      intro p hp
      simp only [Map.insert, List.mem_cons] at hp
      rcases hp with rfl | hp
      · rfl
      · exact h2 p (List.mem_filter.1 hp).1
  | reorder b l _ hp ih =>
    obtain ⟨h1, h2, h3⟩ := ih
    exact ⟨(hp.map Prod.fst).nodup_iff.2 h1, fun p hpm => h2 p (hp.mem_iff.1 hpm), h3⟩

omit [DecidableEq Raw] in
theorem madeBuilder_ids {X : Interchange Raw} {b : SignedBuilder Raw} (h : MadeBuilder X b) :
    ((b.signatures.map Prod.snd).map Signature.keyId).Nodup := by
  obtain ⟨h1, h2, _⟩ := madeBuilder_inv h
  have : (b.signatures.map Prod.snd).map Signature.keyId = Map.keys b.signatures := by
    rw [List.map_map, Map.keys]
    exact List.map_congr_left fun p hp => h2 p hp
  rw [this]; exact h1

/-! ### C53 -/

/-- **C53.** Whatever a program makes with builders, `new`, `add_signature` and `merge_signatures`
from keys whose signatures carry their own key ID has at most one signature per key ID. -/
theorem C53_one_signature_per_key (X : Interchange Raw) (m : SignedMetadata Raw) (h : Made X m) :
    OnePerKey m := by
  induction h with
  | build b hb =>
    unfold OnePerKey SignedBuilder.build
    exact ((perm_sortByKeyId _).map _).nodup_iff.2 (madeBuilder_ids hb)
  | new raw k m hk h =>
    unfold SignedMetadata.new at h
    repeat' split at h
    all_goals cases h
    simp [OnePerKey]
  | add m k _ hk ih =>
    unfold SignedMetadata.addSignature
    repeat' split
    · exact ih
    · exact ih
    · rename_i hs
      simp only [OnePerKey, List.map_append, List.map_cons, List.map_nil]
      rw [List.nodup_append]
      refine ⟨(List.filter_sublist.map _).nodup ih, by simp, ?_⟩
      intro a ha b hb
      simp only [List.mem_singleton] at hb
      obtain ⟨s, hs', rfl⟩ := List.mem_map.1 ha
      have := (List.mem_filter.1 hs').2
      rw [hb, hk _ _ hs]
      simpa using this
  | merge m other _ _ ih ih' =>
    unfold SignedMetadata.mergeSignatures
    split
    · exact ih
    · simp only [OnePerKey, List.map_append]
      rw [List.nodup_append]
      refine ⟨ih, (List.filter_sublist.map _).nodup ih', ?_⟩
      intro a ha b hb
      obtain ⟨s, hs', rfl⟩ := List.mem_map.1 hb
      have := (List.mem_filter.1 hs').2
      rintro rfl
      simp [ha] at this

omit [DecidableEq Raw] in
/-- **C53.** Adding a signature: exactly the new signature by this key is there afterwards, it covers
the canonical form of the metadata, the signatures of all other keys are kept in their order, and the
content is not touched. If signing fails, nothing changes. -/
theorem C53_add_replaces_own (X : Interchange Raw) (m m' : SignedMetadata Raw) (k : PrivateKey) :
    (m.addSignature X k = (.ok (), m') →
      m'.metadata = m.metadata ∧
      ∃ bytes sig, X.canonicalize m.metadata = .ok bytes ∧ k.sign bytes = .ok sig ∧
        m'.signatures.getLast? = some sig ∧
        (∀ s ∈ m'.signatures, s = sig ∨ s.keyId ≠ k.publicKeyId) ∧
        m'.signatures.dropLast = m.signatures.filter fun s => decide (s.keyId ≠ k.publicKeyId)) ∧
    (∀ e, m.addSignature X k = (.error e, m') → m' = m) := by
  constructor
  · intro h
    unfold SignedMetadata.addSignature at h
    repeat' split at h
    all_goals cases h
    rename_i hc _ _ hs
    refine ⟨rfl, _, _, hc, hs, by simp, ?_, by simp⟩
    intro s hs'
    rcases List.mem_append.1 hs' with hm | hm
    · exact Or.inr (by simpa using (List.mem_filter.1 hm).2)
    · exact Or.inl (List.mem_singleton.1 hm)
  · intro e h
    unfold SignedMetadata.addSignature at h
    repeat' split at h
    all_goals cases h
    · rfl
    · rfl

/-- **C53.** Merging: all own signatures are kept, in front and in order; a signature of the other
object is added exactly if its key has no own signature; different content is refused and then
nothing changes. -/
theorem C53_merge_adds_missing (m m' other : SignedMetadata Raw) :
    (m.mergeSignatures other = (.ok (), m') ↔
      m.metadata = other.metadata ∧ m'.metadata = m.metadata ∧
      m'.signatures = m.signatures ++
        other.signatures.filter fun s => decide (∀ o ∈ m.signatures, o.keyId ≠ s.keyId)) ∧
    (m.metadata ≠ other.metadata → m.mergeSignatures other = (.error .illegalArgument, m)) := by
  have hfil : (fun s : Signature => !(m.signatures.map Signature.keyId).contains s.keyId) =
      fun s => decide (∀ o ∈ m.signatures, o.keyId ≠ s.keyId) := by
    funext s
    rw [Bool.eq_iff_iff]
    simp
  obtain ⟨ms, md⟩ := m
  obtain ⟨ms', md'⟩ := m'
  unfold SignedMetadata.mergeSignatures
  dsimp only at hfil ⊢
  rw [hfil]
  constructor
  · split
    · rename_i h
      exact ⟨fun h' => by simp at h', fun h' => absurd h'.1 h⟩
    · rename_i h
      have h : md = other.metadata := by simpa using h
      constructor
      · intro h'
        cases h'
        exact ⟨h, rfl, rfl⟩
      · rintro ⟨_, h1, h2⟩
        rw [h1, h2]
  · intro h
    rw [if_pos h]

omit [DecidableEq Raw] in
/-- **C53.** What a builder builds: the signatures in strictly ascending order of key ID, the same
whatever order the hash map yields them in; they are exactly those the builder holds. -/
theorem C53_build_is_sorted (X : Interchange Raw) (b : SignedBuilder Raw) (h : MadeBuilder X b) :
    b.build.metadata = b.metadata ∧
    b.build.signatures.Perm (b.signatures.map Prod.snd) ∧
    (b.build.signatures.Pairwise fun s t => s.keyId < t.keyId) ∧
    (∀ l, l.Perm b.signatures → SignedBuilder.build { b with signatures := l } = b.build) := by
  have hids := madeBuilder_ids h
  have hn := ((perm_sortByKeyId (b.signatures.map Prod.snd)).map Signature.keyId).nodup_iff.2 hids
  have hs := keySorted_sortByKeyId (b.signatures.map Prod.snd)
  refine ⟨rfl, perm_sortByKeyId _, ?_, ?_⟩
  · rw [List.nodup_iff_pairwise_ne, List.pairwise_map] at hn
    refine List.Pairwise.imp₂ ?_ hs hn
    intro a b h1 h2
    rcases strLt_total a.keyId b.keyId with h | h | h
    · exact (strLt_iff _ _).1 h
    · exact absurd h h2
    · rw [h1] at h; cases h
  · intro l hl
    show SignedMetadata.mk _ _ = SignedMetadata.mk _ _
    congr 1
    refine (keySorted_unique hs (keySorted_sortByKeyId _) hn ?_).symm
    exact (perm_sortByKeyId _).trans ((hl.map _).symm.trans (perm_sortByKeyId _).symm)

omit [DecidableEq Raw] in
/-- **C53.** Signing with a builder: the last signature of a key wins, other keys' stay. -/
theorem C53_builder_sign (X : Interchange Raw) (b b' : SignedBuilder Raw) (k : PrivateKey)
    (hb : MadeBuilder X b) (hk : PrivateKey.Own k) (h : b.sign k = .ok b') :
    ∃ bytes sig, X.canonicalize b.metadata = .ok bytes ∧ k.sign bytes = .ok sig ∧
      ∀ s, s ∈ b'.build.signatures ↔
        s = sig ∨ (s ∈ b.build.signatures ∧ s.keyId ≠ k.publicKeyId) := by
  obtain ⟨h1, h2, h3⟩ := madeBuilder_inv hb
  unfold SignedBuilder.sign at h
  split at h
  · cases h
  · rename_i sig hsig
    cases h
    refine ⟨_, sig, h3, hsig, fun s => ?_⟩
    have hid := hk _ _ hsig
    simp only [SignedBuilder.build, (perm_sortByKeyId _).mem_iff, Map.insert, Map.erase, List.map_cons,
      List.mem_cons, List.mem_map, List.mem_filter]
    constructor
    · rintro (rfl | ⟨p, ⟨hp, hne⟩, rfl⟩)
      · exact Or.inl rfl
      · refine Or.inr ⟨⟨p, hp, rfl⟩, ?_⟩
        rw [h2 p hp, ← hid]
        simpa using hne
    · rintro (rfl | ⟨⟨p, hp, rfl⟩, hne⟩)
      · exact Or.inl rfl
      · refine Or.inr ⟨p, ⟨hp, ?_⟩, rfl⟩
        rw [h2 p hp, ← hid] at hne
        simpa using hne

/-- **C53.** Every signature in something made covers the canonical form of its metadata: it was
returned by the `sign` function of some key for exactly those bytes. -/
theorem C53_signatures_cover_content (X : Interchange Raw) (m : SignedMetadata Raw) (h : Made X m) :
    ∀ s ∈ m.signatures, ∃ bytes k, X.canonicalize m.metadata = .ok bytes ∧ PrivateKey.Own k ∧
      k.sign bytes = .ok s := by
  have hbuilder : ∀ b, MadeBuilder X b → ∀ p ∈ b.signatures, ∃ bytes k,
      X.canonicalize b.metadata = .ok bytes ∧ PrivateKey.Own k ∧ k.sign bytes = .ok p.2 := by
    intro b hb
    induction hb with
    | start raw b h =>
      unfold SignedBuilder.fromRawMetadata at h
      repeat' split at h
      all_goals cases h
      simp
    | sign b k b' hb hk h ih =>
      have hc := (madeBuilder_inv hb).2.2
      unfold SignedBuilder.sign at h
      split at h
      · cases h
      · rename_i sig hsig
        cases h
        intro p hp
        simp only [Map.insert, List.mem_cons] at hp
        rcases hp with rfl | hp
        · exact ⟨_, k, hc, hk, hsig⟩
        · exact ih p (List.mem_filter.1 hp).1
    | reorder b l _ hp ih => exact fun p hpm => ih p (hp.mem_iff.1 hpm)
  induction h with
  | build b hb =>
    intro s hs
    obtain ⟨p, hp, rfl⟩ := List.mem_map.1 ((perm_sortByKeyId _).mem_iff.1 hs)
    exact hbuilder b hb p hp
  | new raw k m hk h =>
    unfold SignedMetadata.new at h
    repeat' split at h
    all_goals cases h
    rename_i hc _ _ hs
    intro s hs'
    rw [List.mem_singleton.1 hs']
    exact ⟨_, k, hc, hk, hs⟩
  | add m k _ hk ih =>
    unfold SignedMetadata.addSignature
    repeat' split
    · exact ih
    · exact ih
    · rename_i hc _ sig hs
      intro s hs'
      rcases List.mem_append.1 hs' with hm | hm
      · exact ih s (List.mem_filter.1 hm).1
      · rw [List.mem_singleton.1 hm]
        exact ⟨_, k, hc, hk, hs⟩
  | merge m other _ _ ih ih' =>
    unfold SignedMetadata.mergeSignatures
    split
    · exact ih
    · rename_i he
      have he : m.metadata = other.metadata := by simpa using he
      intro s hs'
      rcases List.mem_append.1 hs' with hm | hm
      · exact ih s hm
      · have := ih' s (List.mem_filter.1 hm).1
        rwa [← he] at this

/-- **C53, limit.** Signed metadata that was *parsed* may list two signatures under one key ID, and
merging it into clean metadata keeps both. -/
theorem C53_merge_keeps_parsed_duplicates :
    ∃ m other : SignedMetadata Unit, OnePerKey m ∧
      ∃ m', m.mergeSignatures other = (.ok (), m') ∧ ¬ OnePerKey m' := by
  refine ⟨⟨[⟨['a'], []⟩], ()⟩, ⟨[⟨['b'], [1]⟩, ⟨['b'], [2]⟩], ()⟩, ?_, _, rfl, ?_⟩
  · unfold OnePerKey; decide
  · unfold OnePerKey; decide

/-! ### Examples -/

namespace SignedExample

/-- Raw values are numbers, canonical forms one byte; odd values do not parse. -/
def X : Interchange Nat :=
  ⟨fun n => .ok [n.toUInt8], fun n => if n % 2 = 0 then .ok () else .error .encoding⟩

def key (id : Str) : PrivateKey := ⟨fun b => .ok ⟨id, b⟩, id⟩

theorem key_own (id : Str) : PrivateKey.Own (key id) := by
  intro msg s h
  cases h
  rfl

/-- Signed with `b`, then `a`, then `b` again: sorted, two signatures. -/
example : ((SignedBuilder.fromRawMetadata X 4).bind fun x =>
      (x.sign (key ['b'])).bind fun x => (x.sign (key ['a'])).bind fun x =>
      (x.sign (key ['b'])).map SignedBuilder.build) =
    .ok ⟨[⟨['a'], [4]⟩, ⟨['b'], [4]⟩], 4⟩ := by decide

/-- A made object with two signatures, to which the theorems apply. -/
example : ∃ m, Made X m ∧ m.signatures.map Signature.keyId = [['a'], ['b'], ['c']] ∧
    m.metadata = 4 := by
  refine ⟨_, .add _ (key ['c']) (.build ⟨[(['b'], ⟨['b'], [4]⟩), (['a'], ⟨['a'], [4]⟩)], 4, [4]⟩
    (.sign _ (key ['b']) _ (.sign ⟨[], 4, [4]⟩ (key ['a']) _ (.start 4 _ rfl) (key_own _) rfl)
      (key_own _) rfl)) (key_own _), ?_, ?_⟩
  · decide
  · decide

/-- Merging an object with one known and one unknown key. -/
example : SignedMetadata.mergeSignatures ⟨[⟨['a'], [1]⟩], 4⟩ ⟨[⟨['a'], [2]⟩, ⟨['b'], [3]⟩], 4⟩ =
    (.ok (), ⟨[⟨['a'], [1]⟩, ⟨['b'], [3]⟩], 4⟩) := by decide

example : SignedMetadata.mergeSignatures ⟨[⟨['a'], [1]⟩], 4⟩ ⟨[⟨['b'], [3]⟩], 6⟩ =
    (.error .illegalArgument, ⟨[⟨['a'], [1]⟩], 4⟩) := by decide

end SignedExample

end RustTuf.Props
