import Verif.Spec.Authors
import Verif.Props.Adversary
import Verif.Props.OneRole
import Verif.Props.Editing
import Verif.Props.Release

/-!
# C121: clients trust the metadata that the author has made
-/

namespace RustTuf.Props
open Client Spec RustTuf

/-- The author's objects can be written and read (see C70 and C77). -/
structure Works.Publishable (X : ShimLib) (w : Works) : Prop where
  root : ∀ m, w.root m → PublishableRoot X m
  timestamp : ∀ m, w.timestamp m → GoodTimestamp m ∧ GoodDate X m.expires
  snapshot : ∀ m, w.snapshot m → GoodSnapshot m ∧ (∀ p ∈ m.metas, MetadataPath.new p.1 = .ok p.1) ∧
    GoodDate X m.expires
  targets : ∀ m, w.targets m → PublishableTargets X m

/-! ### What the crate signs -/

/-- **C121.** `SignedMetadata::new` signs the canonical form of the encoding, and nothing else. -/
theorem C121_signed_metadata {M : Type} (encode : M → Option Json) (m : M) (key : PrivateKey)
    (sm : SignedMetadata JsonValue) (h : SignedMetadata.ofMetadata encode m key = .ok sm) :
    ∃ msg s, SignedBytes encode m msg ∧ key.sign msg = .ok s ∧ sm.signatures = [s] := by
  unfold SignedMetadata.ofMetadata at h
  split at h
  · cases h
  · rename_i v hv
    unfold serialize at hv
    split at hv
    · cases hv
    · rename_i j he
      cases hv
      unfold SignedMetadata.new at h
      split at h
      · cases h
      · rename_i msg hc
        split at h
        · cases h
        · rename_i s hs
          cases h
          exact ⟨msg, s, ⟨j, he, hc⟩, hs, rfl⟩

/-- **C121.** However often the builder signs, with `SignedMetadataBuilder::from_metadata` and `sign`: each
signature is over the canonical form of the encoding. -/
theorem C121_signed_by_builder {M : Type} (encode : M → Option Json) (decode : Json → Option M) (m : M)
    (b : SignedBuilder JsonValue) (h : SignedBuilder.fromMetadata encode decode m = .ok b)
    (keys : List PrivateKey) (b' : SignedBuilder JsonValue)
    (hs : keys.foldlM (fun b key => b.sign key) b = .ok b') :
    ∃ msg, SignedBytes encode m msg ∧
      ∀ id s, b'.signatures.get? id = some s → ∃ key ∈ keys, key.sign msg = .ok s := by
  unfold SignedBuilder.fromMetadata at h
  split at h
  · cases h
  · rename_i v hv
    unfold serialize at hv
    split at hv
    · cases hv
    · rename_i j he
      cases hv
      unfold SignedBuilder.fromRawMetadata at h
      split at h
      · cases h
      · split at h
        · cases h
        · rename_i msg hc
          cases h
          refine ⟨msg, ⟨j, he, hc⟩, ?_⟩
          -- the signatures so far come from `pre`
          have key : ∀ (post pre : List PrivateKey) (b : SignedBuilder JsonValue), b.metadataBytes = msg →
              (∀ id s, b.signatures.get? id = some s → ∃ key ∈ pre, key.sign msg = .ok s) →
              post.foldlM (fun b key => b.sign key) b = .ok b' →
              ∀ id s, b'.signatures.get? id = some s → ∃ key ∈ pre ++ post, key.sign msg = .ok s := by
            intro post
            induction post with
            | nil =>
              intro pre b _ hp h
              cases h
              simpa using hp
            | cons k post ih =>
              intro pre b hb hp h
              rw [List.foldlM_cons] at h
              cases e : b.sign k with
              | error e' => rw [e] at h; cases h
              | ok b1 =>
                rw [e] at h
                have := ih (pre ++ [k]) b1 ?_ ?_ h
                · simpa using this
                · unfold SignedBuilder.sign at e
                  split at e
                  · cases e
                  · cases e; exact hb
                · unfold SignedBuilder.sign at e
                  split at e
                  · cases e
                  · rename_i sig hsig
                    cases e
                    intro id s hs
                    simp only [Map.get?_insert] at hs
                    split at hs
                    · cases hs
                      exact ⟨k, by simp, by rw [← hb]; exact hsig⟩
                    · obtain ⟨k', h1, h2⟩ := hp id s hs
                      exact ⟨k', by simp [h1], h2⟩
          simpa using key keys [] _ rfl (fun _ _ h => by cases h) hs

/-! ### Reading what the author has signed -/

theorem read_signed {X : ShimLib} {M N : Type} {encode : M → Option Json} {decode : Json → Option N} {m : M}
    {n : N} {msg : Bytes} (hs : SignedBytes encode m msg) (hd : fromSlice X.float decode msg = .ok n) :
    ∃ j, encode m = some j ∧ decode j.normal = some n := by
  obtain ⟨j, he, hc⟩ := hs
  obtain ⟨v, hp, hv⟩ := fromSlice_ok hd
  have e := C68_never_misread X.float j.normal v msg hc hp
  have e' : j.normal.normal = j.normal := j.toValue.2
  rw [e, e'] at hv
  exact ⟨j, he, hv⟩

section
variable {X : ShimLib} (L : Laws X) {w : Works} (hw : Works.Publishable X w) {msg : Bytes}
include L hw

theorem signed_type (h : w.Signs X msg) : ∃ v role, (∀ {N : Type} {decode : Json → Option N} {n : N},
      fromSlice X.float decode msg = .ok n → decode v = some n) ∧ HasType v role ∧
    (role = "root".toList ∧ (∃ m m', w.root m ∧ decodeRoot X v = some m' ∧ SameRoot m m') ∨
    role = "timestamp".toList ∧ (∃ m m', w.timestamp m ∧ decodeTimestamp X v = some m' ∧ SameTimestamp m m') ∨
    role = "snapshot".toList ∧ (∃ m m', w.snapshot m ∧ decodeSnapshot X v = some m' ∧ SameSnapshot m m') ∨
    role = "targets".toList ∧ (∃ m m', w.targets m ∧ decodeTargets X v = some m' ∧ SameTargets m m')) := by
  cases h with
  | root m hm hs =>
    obtain ⟨j, m', he, hd, same⟩ := C70_root X L m (hw.root m hm)
    refine ⟨j.normal, _, fun h => ?_, (C107_type_is_read X _).1 m' hd, .inl ⟨rfl, m, m', hm, hd, same⟩⟩
    obtain ⟨j', e, h⟩ := read_signed hs h
    rw [he] at e; cases e; exact h
  | timestamp m hm hs =>
    obtain ⟨j, m', he, hd, same⟩ := C70_timestamp X m (hw.timestamp m hm).1 (hw.timestamp m hm).2
    refine ⟨j.normal, _, fun h => ?_, (C107_type_is_read X _).2.1 m' hd,
      .inr (.inl ⟨rfl, m, m', hm, hd, same⟩)⟩
    obtain ⟨j', e, h⟩ := read_signed hs h
    rw [he] at e; cases e; exact h
  | snapshot m hm hs =>
    obtain ⟨j, m', he, hd, same⟩ := C70_snapshot X m (hw.snapshot m hm).1 (hw.snapshot m hm).2.1
      (hw.snapshot m hm).2.2
    refine ⟨j.normal, _, fun h => ?_, (C107_type_is_read X _).2.2.1 m' hd,
      .inr (.inr (.inl ⟨rfl, m, m', hm, hd, same⟩))⟩
    obtain ⟨j', e, h⟩ := read_signed hs h
    rw [he] at e; cases e; exact h
  | targets m hm hs =>
    obtain ⟨j, m', he, hd, same⟩ := C70_targets X L m (hw.targets m hm)
    refine ⟨j.normal, _, fun h => ?_, (C107_type_is_read X _).2.2.2 m' hd,
      .inr (.inr (.inr ⟨rfl, m, m', hm, hd, same⟩))⟩
    obtain ⟨j', e, h⟩ := read_signed hs h
    rw [he] at e; cases e; exact h

/-- **C121.** Whatever is read as root metadata from bytes that the author has signed is a root that the
author has made. -/
theorem C121_root_is_read (r : RootMetadata) (h : Approved (w.Signs X) (fromSlice X.float (decodeRoot X)) r) :
    ∃ m, w.root m ∧ SameRoot m r := by
  obtain ⟨msg, ha, hd⟩ := h
  obtain ⟨v, role, hr, ht, hcase⟩ := signed_type L hw ha
  have hd := hr hd
  have e := hasType_unique ht ((C107_type_is_read X _).1 r hd)
  subst e
  rcases hcase with ⟨-, m, m', h1, h2, h3⟩ | ⟨e, -⟩ | ⟨e, -⟩ | ⟨e, -⟩
  · rw [hd] at h2; cases h2; exact ⟨m, h1, h3⟩
  all_goals exact absurd e (by decide)

/-- **C121.** The same for timestamps. -/
theorem C121_timestamp_is_read (r : TimestampMetadata)
    (h : Approved (w.Signs X) (fromSlice X.float (decodeTimestamp X)) r) :
    ∃ m, w.timestamp m ∧ SameTimestamp m r := by
  obtain ⟨msg, ha, hd⟩ := h
  obtain ⟨v, role, hr, ht, hcase⟩ := signed_type L hw ha
  have hd := hr hd
  have e := hasType_unique ht ((C107_type_is_read X _).2.1 r hd)
  subst e
  rcases hcase with ⟨e, -⟩ | ⟨-, m, m', h1, h2, h3⟩ | ⟨e, -⟩ | ⟨e, -⟩
  · exact absurd e (by decide)
  · rw [hd] at h2; cases h2; exact ⟨m, h1, h3⟩
  all_goals exact absurd e (by decide)

/-- **C121.** The same for snapshots. -/
theorem C121_snapshot_is_read (r : SnapshotMetadata)
    (h : Approved (w.Signs X) (fromSlice X.float (decodeSnapshot X)) r) :
    ∃ m, w.snapshot m ∧ SameSnapshot m r := by
  obtain ⟨msg, ha, hd⟩ := h
  obtain ⟨v, role, hr, ht, hcase⟩ := signed_type L hw ha
  have hd := hr hd
  have e := hasType_unique ht ((C107_type_is_read X _).2.2.1 r hd)
  subst e
  rcases hcase with ⟨e, -⟩ | ⟨e, -⟩ | ⟨-, m, m', h1, h2, h3⟩ | ⟨e, -⟩
  · exact absurd e (by decide)
  · exact absurd e (by decide)
  · rw [hd] at h2; cases h2; exact ⟨m, h1, h3⟩
  · exact absurd e (by decide)

/-- **C121.** The same for targets metadata. -/
theorem C121_targets_is_read (r : TargetsMetadata)
    (h : Approved (w.Signs X) (fromSlice X.float (decodeTargets X)) r) :
    ∃ m, w.targets m ∧ SameTargets m r := by
  obtain ⟨msg, ha, hd⟩ := h
  obtain ⟨v, role, hr, ht, hcase⟩ := signed_type L hw ha
  have hd := hr hd
  have e := hasType_unique ht ((C107_type_is_read X _).2.2.2 r hd)
  subst e
  rcases hcase with ⟨e, -⟩ | ⟨e, -⟩ | ⟨e, -⟩ | ⟨-, m, m', h1, h2, h3⟩
  · exact absurd e (by decide)
  · exact absurd e (by decide)
  · exact absurd e (by decide)
  · rw [hd] at h2; cases h2; exact ⟨m, h1, h3⟩

end

/-! ### Guards -/

theorem sameMap_get {K V : Type} [DecidableEq K] {a b : Map K V} (h : SameMap Eq a b) (k : K) :
    a.get? k = b.get? k := by
  cases e : a.get? k with
  | none => exact (h.none k e).symm
  | some v =>
    obtain ⟨v', hv, rfl⟩ := h.there k v e
    exact hv.symm

theorem guarded_same {honest : Scheme → Bytes → Prop} {a b : Map KeyId PublicKey} {ids : List KeyId} {n : Nat}
    (h : SameMap Eq a b) (ha : (a.map Prod.fst).Nodup) (hb : (b.map Prod.fst).Nodup)
    (hg : Guarded honest n (keysFor a ids)) : Guarded honest n (keysFor b ids) := by
  intro l hl hall
  refine hg l hl fun id hid => ?_
  obtain ⟨k, hk, e⟩ := hall id hid
  refine ⟨k, ?_, e⟩
  rw [mem_keysFor hb] at hk
  rw [mem_keysFor ha]
  simp only [sameMap_get h]
  exact hk

/-- The guards of a root do not depend on the order of its keys. -/
theorem root_guards_same {honest : Scheme → Bytes → Prop} {a b : RootMetadata} (h : SameRoot a b)
    (ha : (a.keys.map Prod.fst).Nodup) (hb : (b.keys.map Prod.fst).Nodup) :
    (RootGuarded honest a → RootGuarded honest b) ∧ (TargetsGuarded honest a → TargetsGuarded honest b) := by
  unfold RootGuarded TargetsGuarded rootSigners targetsSigners
  rw [← h.root, ← h.targets]
  exact ⟨guarded_same h.keys ha hb, guarded_same h.keys ha hb⟩

theorem matches_same {D : Digest} {a b : TargetDescription} (h : SameTarget a b) (content : Bytes) :
    Matches D a content ↔ Matches D b content := by
  unfold Matches Preferred
  simp only [sameMap_get h.hashes, h.length]

/-! ### Clients -/

section client
variable {W : Type} (X : ShimLib) (ring : Scheme → Bytes → Bytes → Bytes → Bool)
  (order : Map KeyId Signature → List (KeyId × Signature)) (perm : ∀ m, (order m).Perm m)
  (L : Laws X) (D : Digest) (R : World W) (cfg : Config) (honest : Scheme → Bytes → Prop) (w : Works)
  (hw : Works.Publishable X w) (hsig : Unforgeable (jsonEnv X ring order perm) honest (w.Signs X))
include L hw hsig

/-- **C121.** From any point on, whatever the attacker does: the trusted root stays or becomes a newer
root that the author has made. The attacker must have less than a threshold of the root keys of the root
that is trusted at this point, and of each later root that the author has made. -/
theorem C121_roots_are_made (s : St W) (calls : List Call) (hnow : RootGuarded honest s.tuf.root)
    (hlater : ∀ r, w.root r → s.tuf.root.version < r.version → RootGuarded honest r) :
    (execAll (jsonEnv X ring order perm) D R cfg s calls).tuf.root = s.tuf.root ∨
      ∃ r, w.root r ∧ SameRoot r (execAll (jsonEnv X ring order perm) D R cfg s calls).tuf.root ∧
        s.tuf.root.version < r.version := by
  have later : ∀ r, Approved (w.Signs X) (jsonEnv X ring order perm).rootFromSlice r →
      s.tuf.root.version < r.version → RootGuarded honest r := by
    intro r hr hv
    obtain ⟨m, h1, h2⟩ := C121_root_is_read L hw _ hr
    obtain ⟨msg, -, hd⟩ := hr
    exact (root_guards_same h2 (hw.root m h1).good.keys (C54_root X msg r hd).keys).1
      (hlater m h1 (by rw [h2.version]; exact hv))
  rcases C88_roots_are_the_authors (jsonEnv X ring order perm) D R cfg honest _ hsig s calls hnow later with
    h | ⟨h, hv⟩
  · exact .inl h
  · obtain ⟨m, h1, h2⟩ := C121_root_is_read L hw _ h
    exact .inr ⟨m, h1, h2, by rw [h2.version]; exact hv⟩

/-- **C121.** A client that is installed with keys starts with a root that the author has made, if the
attacker has less than a threshold of these keys. -/
theorem C121_installed_with_keys (v : MetadataVersion) (n : Nat) (keys : List PublicKey) (t : Tuf)
    (h : StartsWith (jsonEnv X ring order perm) (.trustedRootKeys v n keys) t) (hg : Guarded honest n keys) :
    ∃ r, w.root r ∧ SameRoot r t.root :=
  C121_root_is_read L hw _ (C88_installed_with_keys (jsonEnv X ring order perm) honest _ hsig v n keys t h hg)

/-- **C121.** Trusted timestamp, snapshot and targets metadata is metadata that the author has made for
this role, each if the attacker has less than a threshold of the keys that the trusted root lists for this
role. -/
theorem C121_trusted_is_made (start : Start) (io io' : Io W) (t : Tuf)
    (h : construct (jsonEnv X ring order perm) D R cfg start io = (.ok t, io')) (calls : List Call) :
    let t' := (execAll (jsonEnv X ring order perm) D R cfg ⟨t, io'⟩ calls).tuf
    (Guarded honest t'.root.timestamp.threshold (timestampSigners t'.root) →
      ∀ m, t'.timestamp = some m → ∃ ts, w.timestamp ts ∧ SameTimestamp ts m) ∧
    (Guarded honest t'.root.snapshot.threshold (snapshotSigners t'.root) →
      ∀ m, t'.snapshot = some m → ∃ sn, w.snapshot sn ∧ SameSnapshot sn m) ∧
    (TargetsGuarded honest t'.root →
      ∀ m, t'.targets = some m → ∃ ta, w.targets ta ∧ SameTargets ta m) := by
  obtain ⟨h1, h2, h3⟩ := C88_trusted_is_the_authors (jsonEnv X ring order perm) D R cfg honest _ hsig
    (C54_json_decoders X ring order perm) start io io' t h calls
  exact ⟨fun g m e => C121_timestamp_is_read L hw m (h1 g m e),
    fun g m e => C121_snapshot_is_read L hw m (h2 g m e),
    fun g m e => C121_targets_is_read L hw m (h3 g m e)⟩

omit hsig in
/-- The guards of later roots, said about the author's objects. -/
theorem guards_of_made {v : Nat} (hlater : ∀ r, w.root r → v < r.version →
      RootGuarded honest r ∧ TargetsGuarded honest r) (r : RootMetadata)
    (hr : Approved (w.Signs X) (jsonEnv X ring order perm).rootFromSlice r) (hv : v < r.version) :
    RootGuarded honest r ∧ TargetsGuarded honest r := by
  obtain ⟨m, h1, h2⟩ := C121_root_is_read L hw _ hr
  obtain ⟨msg, -, hd⟩ := hr
  have g := root_guards_same (honest := honest) h2 (hw.root m h1).good.keys (C54_root X msg r hd).keys
  have := hlater m h1 (by rw [h2.version]; exact hv)
  exact ⟨g.1 this.1, g.2 this.2⟩

/-- **C121.** Whatever a client writes for a target path with success matches the description of this
path in targets metadata that the author has made. The attacker must have less than a threshold of the
root keys and of the targets keys of the root that is trusted at some earlier point, and of each later
root that the author has made. -/
theorem C121_delivered_is_made (start : Start) (io io' : Io W) (t : Tuf)
    (h : construct (jsonEnv X ring order perm) D R cfg start io = (.ok t, io')) (before after : List Call)
    (s1 s2 s3 : St W) (hs1 : s1 = execAll (jsonEnv X ring order perm) D R cfg ⟨t, io'⟩ before)
    (hs2 : s2 = execAll (jsonEnv X ring order perm) D R cfg s1 after)
    (hnow : RootGuarded honest s1.tuf.root ∧ TargetsGuarded honest s1.tuf.root)
    (hlater : ∀ r, w.root r → s1.tuf.root.version < r.version →
      RootGuarded honest r ∧ TargetsGuarded honest r)
    (path : TargetPath) (reply : Reply)
    (hget : exec (jsonEnv X ring order perm) D R cfg (.fetchTargetToWriter path) s2 = (.ok reply, s3)) :
    ∃ ta virt d l, w.targets ta ∧ cfg.realToVirtual path = .ok virt ∧ ta.targets.get? virt = some d ∧
      s3.io.log = s2.io.log ++ l ∧ Matches D d (written l) := by
  obtain ⟨ta', virt, d', l, h1, h2, h3, h4, h5, -⟩ := C88_delivered_is_the_authors
    (jsonEnv X ring order perm) D R cfg honest _ hsig (C54_json_decoders X ring order perm) start io io' t h
    before after s1 s2 s3 hs1 hs2 hnow
    (guards_of_made X ring order perm L honest w hw hlater) path reply hget
  obtain ⟨ta, g1, g2⟩ := C121_targets_is_read L hw ta' h1
  cases e : ta.targets.get? virt with
  | none => rw [g2.targets.none virt e] at h3; cases h3
  | some d =>
    obtain ⟨d'', k1, k2⟩ := g2.targets.there virt d e
    rw [h3] at k1
    cases k1
    exact ⟨ta, virt, d, l, g1, h2, e, h4, (matches_same k2 _).2 h5⟩

/-- **C121.** The same for what is stored: if fetching a target into the local repository succeeds, the
file holds something that matches the description of this path in targets metadata that the author has
made, and no other target file has changed. -/
theorem C121_stored_is_made (get : W → TargetPath → Option Bytes) (hR : KeepsTargets R get)
    (start : Start) (io io' : Io W) (t : Tuf)
    (h : construct (jsonEnv X ring order perm) D R cfg start io = (.ok t, io')) (before after : List Call)
    (s1 s2 s3 : St W) (hs1 : s1 = execAll (jsonEnv X ring order perm) D R cfg ⟨t, io'⟩ before)
    (hs2 : s2 = execAll (jsonEnv X ring order perm) D R cfg s1 after)
    (hnow : RootGuarded honest s1.tuf.root ∧ TargetsGuarded honest s1.tuf.root)
    (hlater : ∀ r, w.root r → s1.tuf.root.version < r.version →
      RootGuarded honest r ∧ TargetsGuarded honest r)
    (path : TargetPath) (reply : Reply)
    (hget : exec (jsonEnv X ring order perm) D R cfg (.fetchTarget path) s2 = (.ok reply, s3)) :
    ∃ ta virt d content, w.targets ta ∧ cfg.realToVirtual path = .ok virt ∧
      ta.targets.get? virt = some d ∧ get s3.io.w path = some content ∧ Matches D d content ∧
      ∀ q, q ≠ path → get s3.io.w q = get s2.io.w q := by
  obtain ⟨ta', virt, d', content, h1, h2, h3, h4, h5, h6⟩ := C88_stored_is_the_authors
    (jsonEnv X ring order perm) D R cfg honest _ hsig get hR (C54_json_decoders X ring order perm) start io
    io' t h before after s1 s2 s3 hs1 hs2 hnow
    (guards_of_made X ring order perm L honest w hw hlater) path reply hget
  obtain ⟨ta, g1, g2⟩ := C121_targets_is_read L hw ta' h1
  cases e : ta.targets.get? virt with
  | none => rw [g2.targets.none virt e] at h3; cases h3
  | some d =>
    obtain ⟨d'', k1, k2⟩ := g2.targets.there virt d e
    rw [h3] at k1
    cases k1
    exact ⟨ta, virt, d, content, g1, h2, e, h4, (matches_same k2 _).2 h5, h6⟩

end client

end RustTuf.Props
