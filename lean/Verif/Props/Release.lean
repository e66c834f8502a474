import Verif.Props.BuildersContent
import Verif.Props.ClientHonest
import Verif.Props.Publish

/-!
# C78: what is built, signed and uploaded with this crate is what a client gets
-/

namespace RustTuf.Props
open Spec RustTuf Json Client

variable (X : ShimLib) (ring : Scheme → Bytes → Bytes → Bytes → Bool)
  (order : Map KeyId Signature → List (KeyId × Signature)) (perm : ∀ m, (order m).Perm m)

/-- A release for clients that trust the root `r`: targets metadata `ta`, signed as `sta`; a snapshot
`sn` built with `SnapshotMetadataBuilder`, the last call about `targets` inserting `sta`, signed as
`ssn`; a timestamp `ts` built from `ssn`, signed as `sts`; and the three `to_raw` results uploaded
under their names. -/
structure Release (D : Digest) (cfg : Config) (file : Files) (r : RootMetadata)
    (ta : TargetsMetadata) (sta : SignedMetadata JsonValue) (sn : SnapshotMetadata)
    (ssn : SignedMetadata JsonValue) (ts : TimestampMetadata) (sts : SignedMetadata JsonValue) :
    Prop where
  targets : PublishableTargets X ta
  shallow : ∀ p ∈ ta.targets, ∀ c, p.2.custom = some c → ∀ q ∈ c, nesting q.2 ≤ 122
  targetsSigned : Published X ring order perm (encodeTargets X) (decodeTargets X) ta sta (targetsSigners r)
    r.targets.threshold
  snapshot : ∃ t cs b algs, (SnapshotBuilder.new t).calls D cs = .ok b ∧ b.build = .ok sn ∧
    (∀ c ∈ cs, SnapshotCall.Fits c) ∧
    LastAbout SnapshotCall.path? cs "targets".toList (.metadata "targets".toList sta algs)
  snapshotDate : GoodDate X sn.expires
  snapshotSigned : Published X ring order perm (encodeSnapshot X) (decodeSnapshot X) sn ssn
    (snapshotSigners r) r.snapshot.threshold
  timestamp : ∃ t algs b cs, TimestampBuilder.fromSnapshot D t ssn algs = .ok b ∧
    (b.calls cs).build = .ok ts ∧ ∀ c ∈ cs, TimestampCall.Fits c
  timestampDate : GoodDate X ts.expires
  timestampSigned : Published X ring order perm (encodeTimestamp X) (decodeTimestamp X) ts sts
    (timestampSigners r) r.timestamp.threshold
  targetsFile : ∀ raw, sta.toRaw = .ok raw →
    file "targets".toList (publishedAs r ta.version) = some raw
  snapshotFile : ∀ raw, ssn.toRaw = .ok raw →
    file "snapshot".toList (publishedAs r sn.version) = some raw
  timestampFile : ∀ raw, sts.toRaw = .ok raw →
    file "timestamp".toList .none = some raw ∧ NotLonger cfg.maxTimestampLength raw

/-- **C71.** What `SignedMetadata::new` and the methods `signed` of the builders return is published for
clients that trust the signing key: its content is the encoding of the metadata and its one signature
covers the canonical form of the content. -/
theorem C71_signed_is_published {M : Type} (encode : M → Option Json) (decode : Json → Option M) (m : M)
    (key : PrivateKey) (pub : PublicKey) (sm : SignedMetadata JsonValue)
    (h : SignedMetadata.ofMetadata encode m key = .ok sm) (hid : IsKeyId pub.keyId)
    (hown : PrivateKey.Own key) (hpub : key.publicKeyId = pub.keyId)
    (hsig : ∀ msg s, key.sign msg = .ok s → Valid (jsonEnv X ring order perm) pub msg s) :
    Published X ring order perm encode decode m sm [pub] 1 := by
  unfold SignedMetadata.ofMetadata at h
  split at h
  · cases h
  · rename_i v hv
    obtain ⟨j, he, rfl⟩ : ∃ j, encode m = some j ∧ v = j.toValue := by
      unfold serialize at hv
      cases he : encode m with
      | none => rw [he] at hv; cases hv
      | some j => rw [he] at hv; cases hv; exact ⟨j, rfl, rfl⟩
    have hn : SignedMetadata.new (jsonInterchange decode) j.toValue key = .ok sm := h
    obtain ⟨msg, sig, hc, hs, rfl⟩ : ∃ msg sig, Json.canonicalize j.toValue.1 = .ok msg ∧
        key.sign msg = .ok sig ∧ sm = ⟨[sig], j.toValue⟩ := by
      unfold SignedMetadata.new at hn
      split at hn
      · cases hn
      · rename_i msg hc
        split at hn
        · cases hn
        · rename_i sig hs
          cases hn
          exact ⟨msg, sig, hc, hs, rfl⟩
    refine ⟨.new _ key _ hown hn, ⟨j, he, rfl⟩, ?_, ?_, Nat.le_refl _, [pub], by simp, by simp, ?_⟩
    · intro s h
      rw [List.mem_singleton.1 h, hown _ _ hs, hpub]
      exact hid
    · intro k hk k' hk' _
      rw [List.mem_singleton.1 hk, List.mem_singleton.1 hk']
    · intro k hk
      rw [List.mem_singleton.1 hk]
      refine ⟨List.mem_singleton.2 rfl, sig, List.mem_singleton.2 rfl, by rw [hown _ _ hs, hpub], ?_⟩
      intro msg' hc'
      rw [hc] at hc'
      cases hc'
      exact hsig _ _ hs

/-! ### The version of encoded metadata -/

theorem hasVersion_unique {j : Json} {n n' : Nat} (h : HasVersion j n) (h' : HasVersion j n') :
    n = n' := by
  rcases h with ⟨ms, rfl, h⟩ | rfl <;> rcases h' with ⟨ms', e, h'⟩ | e
  · cases e
    rw [h] at h'
    have := Option.some.inj h'
    injection this with this
    exact Int.ofNat.inj this
  · cases e
  · cases e
  · injection e with e
    injection e with e
    injection e with e
    exact Int.ofNat.inj e

theorem hasVersion_members {ms : List (Str × Json)} {n : Nat} (hn : n < 2 ^ 32)
    (hd : (ms.map Prod.fst).Nodup) (hg : Map.get? ms "version".toList = some (natJson n)) :
    HasVersion (Json.obj ms).normal n := by
  have : (⟨[], (Json.obj ms).toValue⟩ : SignedMetadata JsonValue).parseVersion = .ok n := by
    unfold SignedMetadata.parseVersion fromValue
    simp only [Json.toValue, Option.bind_eq_bind]
    rw [asStruct_normal]
    simp only [Option.bind_some]
    rw [field_members hd hg]
    have : asU32 (natJson n).normal = some n := asU32_nat hn
    rw [this]
  exact (parseVersion_ok this).1

theorem hasVersion_encodeTargets {m : TargetsMetadata} {j : Json} (h : encodeTargets X m = some j)
    (hv : m.version < 2 ^ 32) : HasVersion j.normal m.version := by
  unfold encodeTargets at h
  split at h
  · cases h
  · split at h
    · cases h
      exact hasVersion_members hv (of_decide_eq_true rfl) rfl
    · rw [Option.map_eq_some_iff] at h
      obtain ⟨_, _, rfl⟩ := h
      exact hasVersion_members hv (of_decide_eq_true rfl) rfl

theorem hasVersion_encodeSnapshot {m : SnapshotMetadata} {j : Json} (h : encodeSnapshot X m = some j)
    (hv : m.version < 2 ^ 32) : HasVersion j.normal m.version := by
  unfold encodeSnapshot at h
  rw [Option.map_eq_some_iff] at h
  obtain ⟨_, _, rfl⟩ := h
  exact hasVersion_members hv (of_decide_eq_true rfl) rfl

/-! ### Descriptions -/

theorem preferred_of_good {D : Digest} {algs : List HashAlg} {h h' : Map HashAlg HashValue} {raw : Bytes}
    (hd : DigestsOf D algs h raw) (hg : GoodHashes h) (hs : SameMap Eq h h') :
    ∃ a, Preferred h' a (D a raw) := by
  have same : ∀ a, h'.get? a = h.get? a := by
    intro a
    cases e : h.get? a with
    | none => exact hs.none a e
    | some v =>
      obtain ⟨w, e1, rfl⟩ := hs.there a v e
      exact e1
  by_cases h5 : HashAlg.sha512 ∈ algs
  · exact ⟨.sha512, by rw [same, hd, if_pos h5], .inl rfl⟩
  · by_cases h2 : HashAlg.sha256 ∈ algs
    · exact ⟨.sha256, by rw [same, hd, if_pos h2], .inr ⟨rfl, by rw [same, hd, if_neg h5]⟩⟩
    · exfalso
      obtain ⟨p, hp⟩ := List.exists_mem_of_ne_nil _ hg.nonempty
      have := Map.get?_of_mem_nodup hg.nodup (k := p.1) (v := p.2) hp
      rw [hd] at this
      rcases hg.known p hp with e | e <;> rw [e] at this
      · rw [if_neg h2] at this; cases this
      · rw [if_neg h5] at this; cases this

theorem described_of_builder {D : Digest} {sm : SignedMetadata JsonValue} {algs : List HashAlg}
    {d d' : MetadataDescription} (h : DescribesMetadata D sm algs d) (hg : GoodDescription d)
    (hs : SameDescription d d') {raw : Bytes} (hraw : sm.toRaw = .ok raw) :
    Described D d'.length d'.hashes raw := by
  obtain ⟨raw', e1, e2, e3⟩ := h.raw
  rw [hraw] at e1
  cases e1
  have hl := hg.length
  refine ⟨⟨by omega, ?_⟩, preferred_of_good e3 hg.hashes hs.hashes⟩
  intro n hn
  cases hn
  rw [← hs.length, e2]

theorem authentic_of_ok {E : Env} {M : Type} {decode : Bytes → Except Err M} {raw : Bytes} {n : Nat}
    {keys : List PublicKey} {m : M} (h : verifySignatures E decode raw n keys = .ok m) :
    Authentic E decode raw n keys m := (verifySignatures_ok_iff ..).1 h

/-- **C78.** The files of a release are a complete repository, with exactly the metadata that was
built, for every client that trusts the root. -/
theorem C78_release_is_published (L : Laws X) (D : Digest) (cfg : Config) (file : Files)
    (r : RootMetadata) (ta : TargetsMetadata) (sta : SignedMetadata JsonValue) (sn : SnapshotMetadata)
    (ssn : SignedMetadata JsonValue) (ts : TimestampMetadata) (sts : SignedMetadata JsonValue)
    (h : Release X ring order perm D cfg file r ta sta sn ssn ts sts) :
    ∃ ts' sn' ta', SameTimestamp ts ts' ∧ SameSnapshot sn sn' ∧ SameTargets ta ta' ∧
      Spec.Published (jsonEnv X ring order perm) D cfg file r ts' sn' ta' := by
  obtain ⟨t1, cs, b, algs, hcs, hb, hfit, hlast⟩ := h.snapshot
  obtain ⟨t2, algs2, b2, cs2, hfrom, hb2, hfit2⟩ := h.timestamp
  have A1 := C77_snapshot_is_as_asked D t1 cs b sn hcs hb
  obtain ⟨g1, g2⟩ := C77_built_snapshot_is_publishable D t1 cs b sn hcs hb hfit
  have A2 := C77_timestamp_is_as_asked D t2 ssn algs2 cs2 b2 ts hfrom hb2
  have g3 := C77_built_timestamp_is_publishable D t2 ssn algs2 cs2 b2 ts hfrom hb2 hfit2
  obtain ⟨rawTa, ta', w1, v1, s1⟩ := C71_targets X ring order perm L ta h.targets h.shallow sta _ _
    h.targetsSigned
  obtain ⟨rawSn, sn', w2, v2, s2⟩ := C71_snapshot X ring order perm sn g1 g2 h.snapshotDate ssn _ _
    h.snapshotSigned
  obtain ⟨rawTs, ts', w3, v3, s3⟩ := C71_timestamp X ring order perm ts g3 h.timestampDate sts _ _
    h.timestampSigned
  refine ⟨ts', sn', ta', s3, s2, s1, ?_⟩
  obtain ⟨d, hd, hgives⟩ := A1.described _ _ hlast
  have hgives : DescribesMetadata D sta algs d := hgives
  obtain ⟨d', hd', sd⟩ := s2.metas.there _ _ hd
  have gd := g1.metas _ (Map.mem_of_get? hd)
  -- versions
  have ver1 : d'.version = ta'.version := by
    obtain ⟨j, hj, e⟩ := h.targetsSigned.content
    have hv := hgives.version
    rw [e] at hv
    rw [← sd.version, ← s1.version]
    exact hasVersion_unique hv (hasVersion_encodeTargets X hj h.targets.good.version.2)
  have ver2 : ts'.snapshot.version = sn'.version := by
    obtain ⟨j, hj, e⟩ := h.snapshotSigned.content
    have hv := A2.snapshot.version
    rw [e] at hv
    rw [← s3.snapshot.version, ← s2.version]
    exact hasVersion_unique hv (hasVersion_encodeSnapshot X hj g1.version.2)
  refine ⟨⟨rawTs, (h.timestampFile _ w3).1, (h.timestampFile _ w3).2, authentic_of_ok v3⟩,
    ⟨rawSn, ?_, described_of_builder A2.snapshot g3.snapshot s3.snapshot w2, authentic_of_ok v2⟩,
    ver2, ⟨rawTa, d', hd', ver1, ?_, described_of_builder hgives gd sd w1, authentic_of_ok v1⟩⟩
  · rw [← s2.version]; exact h.snapshotFile _ w2
  · rw [← s1.version]; exact h.targetsFile _ w1

/-! ### The client -/

/-- The trusted metadata was read from the uploaded bytes. -/
def ReadFrom {M : Type} (E : Env) (decode : Bytes → Except Err M) (sm : SignedMetadata JsonValue) (x : M) :
    Prop := ∃ raw n keys, sm.toRaw = .ok raw ∧ Authentic E decode raw n keys x

/-- Nothing that the client trusts is newer than the release; what has the same version was read from
the release. -/
structure NotAhead (E : Env) (t : Tuf) (r : RootMetadata) (ta : TargetsMetadata)
    (sta : SignedMetadata JsonValue) (sn : SnapshotMetadata) (ssn : SignedMetadata JsonValue)
    (ts : TimestampMetadata) (sts : SignedMetadata JsonValue) : Prop where
  timestamp : ∀ x, t.root.version = r.version → t.timestamp = some x →
    x.version < ts.version ∨ ReadFrom E E.timestampFromSlice sts x
  snapshot : ∀ x, t.snapshot = some x → x.version = sn.version → ReadFrom E E.snapshotFromSlice ssn x
  targets : ∀ x, t.targets = some x → x.version = ta.version → ReadFrom E E.targetsFromSlice sta x

theorem authentic_unique {E : Env} {M : Type} {decode : Bytes → Except Err M} {raw : Bytes} {n n' : Nat}
    {keys keys' : List PublicKey} {m m' : M} (h : Authentic E decode raw n keys m)
    (h' : Authentic E decode raw n' keys' m') : m = m' := by
  obtain ⟨msg, ⟨_, sigs, v, hp, hc, _⟩, hd⟩ := h
  obtain ⟨msg', ⟨_, sigs', v', hp', hc', _⟩, hd'⟩ := h'
  rw [hp] at hp'
  cases hp'
  rw [hc] at hc'
  cases hc'
  rw [hd] at hd'
  cases hd'
  rfl

/-- The files hold the uploaded bytes, so what was read from these bytes is the published metadata. -/
theorem readFrom_eq {E : Env} {M : Type} {decode : Bytes → Except Err M} {sm : SignedMetadata JsonValue}
    {x m : M} {raw : Bytes} {n : Nat} {keys : List PublicKey} {f : Option Bytes}
    (h : ReadFrom E decode sm x) (hf : ∀ raw, sm.toRaw = .ok raw → f = some raw) (hraw : f = some raw)
    (ha : Authentic E decode raw n keys m) : x = m := by
  obtain ⟨raw', n', keys', e, ha'⟩ := h
  have := hf raw' e
  rw [hraw] at this
  cases this
  exact authentic_unique ha' ha

/-- **C78.** A client that is not ahead of the release, whose root leads to `r`, and whose clock is
before the expiry dates, succeeds to update and then trusts exactly the metadata that was built. -/
theorem C78_release_is_adopted {W : Type} (L : Laws X) (D : Digest) (R : World W) (cfg : Config)
    (file : Files) (s : St W) (r : RootMetadata) (ta : TargetsMetadata)
    (sta : SignedMetadata JsonValue) (sn : SnapshotMetadata)
    (ssn : SignedMetadata JsonValue) (ts : TimestampMetadata) (sts : SignedMetadata JsonValue)
    (h : Release X ring order perm D cfg file r ta sta sn ssn ts sts)
    (hr : Reachable (jsonEnv X ring order perm) s.tuf) (hS : Serves R file) (hW : Writable R)
    (hroots : Roots (jsonEnv X ring order perm) cfg file s.tuf.root r)
    (hn : NotAhead (jsonEnv X ring order perm) s.tuf r ta sta sn ssn ts sts)
    (hclk : Before R r.expires ∧ Before R ts.expires ∧ Before R sn.expires ∧ Before R ta.expires) :
    ∃ b s' ts' sn' ta', update (jsonEnv X ring order perm) D R cfg s = (.ok b, s') ∧
      s'.tuf.root = r ∧
      (s'.tuf.timestamp = some ts' ∧ SameTimestamp ts ts') ∧
      (s'.tuf.snapshot = some sn' ∧ SameSnapshot sn sn') ∧
      (s'.tuf.targets = some ta' ∧ SameTargets ta ta') := by
  obtain ⟨ts', sn', ta', s1, s2, s3, hp⟩ :=
    C78_release_is_published X ring order perm L D cfg file r ta sta sn ssn ts sts h
  obtain ⟨raw1, f1, _, a1⟩ := hp.timestamp
  obtain ⟨raw2, f2, _, a2⟩ := hp.snapshot
  obtain ⟨raw3, m, _, _, f3, _, a3⟩ := hp.targets
  have hb : Behind s.tuf r ts' sn' ta' := by
    refine ⟨fun x e1 e2 => ?_, fun x e1 e2 => ?_, fun x e1 e2 => ?_⟩
    · rcases hn.timestamp x e1 e2 with g | g
      · exact .inr (by rw [← s1.version]; exact g)
      · exact .inl (readFrom_eq g (fun raw e => (h.timestampFile raw e).1) f1 a1)
    · rw [← s2.version] at e2 f2
      exact readFrom_eq (hn.snapshot x e1 e2) h.snapshotFile f2 a2
    · rw [← s3.version] at e2 f3
      exact readFrom_eq (hn.targets x e1 e2) h.targetsFile f3 a3
  rw [s1.expires, s2.expires, s3.expires] at hclk
  obtain ⟨b, s', e, e1, e2, e3, e4⟩ := C73_honest_update_succeeds (jsonEnv X ring order perm)
    (C54_json_decoders X ring order perm) D R cfg file s hr r ts' sn' ta' hS hW hroots hp hb hclk
  exact ⟨b, s', ts', sn', ta', e, e1, ⟨e2, s1⟩, ⟨e3, s2⟩, ⟨e4, s3⟩⟩

/-- The algorithm that clients use for a target described with these algorithms. -/
def usedAlg (algs : List HashAlg) : HashAlg := if HashAlg.sha512 ∈ algs then .sha512 else .sha256

/-- **C78.** The content of a target is handed to `TargetsMetadataBuilder`; the metadata is built, signed
and uploaded. Then a client updates, and afterwards the metadata it trusts lists this content. -/
theorem C78_released_target_is_listed {W : Type} (L : Laws X) (D : Digest) (R : World W) (cfg : Config)
    (file : Files) (s : St W) (r : RootMetadata) (ta : TargetsMetadata)
    (sta : SignedMetadata JsonValue) (sn : SnapshotMetadata)
    (ssn : SignedMetadata JsonValue) (ts : TimestampMetadata) (sts : SignedMetadata JsonValue)
    (h : Release X ring order perm D cfg file r ta sta sn ssn ts sts)
    (hr : Reachable (jsonEnv X ring order perm) s.tuf) (hS : Serves R file) (hW : Writable R)
    (hroots : Roots (jsonEnv X ring order perm) cfg file s.tuf.root r)
    (hn : NotAhead (jsonEnv X ring order perm) s.tuf r ta sta sn ssn ts sts)
    (hclk : Before R r.expires ∧ Before R ts.expires ∧ Before R sn.expires ∧ Before R ta.expires)
    (t : Time) (cs : List TargetsCall) (b : TargetsBuilder)
    (hcs : (TargetsBuilder.new t).calls D cs = .ok b) (hb : b.build = .ok ta)
    (path name : TargetPath) (virt : VirtualTargetPath) (src : List Ev) (algs : List HashAlg)
    (content : Bytes) (hlast : LastAbout TargetsCall.path? cs virt (.target virt src algs))
    (hsrc : delivered src = (content, .eof)) (hvirt : cfg.realToVirtual path = .ok virt)
    (hname : TargetFile r (D (usedAlg algs) content) path name) :
    ∃ u s1, update (jsonEnv X ring order perm) D R cfg s = (.ok u, s1) ∧
      Available D cfg s1.tuf path name content := by
  obtain ⟨u, s1, ts', sn', ta', e, e1, _, ⟨e3, _⟩, ⟨e4, same⟩⟩ :=
    C78_release_is_adopted X ring order perm L D R cfg file s r ta sta sn ssn ts sts h hr hS hW hroots
      hn hclk
  have A := C77_targets_are_as_asked D t cs b ta hcs hb
  obtain ⟨d, hd, hgives⟩ := A.described _ _ hlast
  obtain ⟨⟨content', c1, c2, c3⟩, _⟩ : DescribesTarget D src algs d := hgives
  rw [hsrc] at c1
  cases c1
  obtain ⟨d', hd', sd⟩ := same.targets.there _ _ hd
  have gd := h.targets.good.targets _ (Map.mem_of_get? hd)
  have hlen := gd.length
  have hpref : Preferred d'.hashes (usedAlg algs) (D (usedAlg algs) content) := by
    obtain ⟨a, p1, p2⟩ := preferred_of_good c3 gd.hashes sd.hashes
    have g : ∀ a, d'.hashes.get? a = if a ∈ algs then some (D a content) else none := by
      intro a
      rw [← c3 a]
      cases e : d.hashes.get? a with
      | none => exact sd.hashes.none a e
      | some v =>
        obtain ⟨w, e1, rfl⟩ := sd.hashes.there a v e
        exact e1
    unfold usedAlg
    by_cases h5 : HashAlg.sha512 ∈ algs
    · rw [if_pos h5]
      exact ⟨by rw [g, if_pos h5], .inl rfl⟩
    · rw [if_neg h5]
      rcases p2 with rfl | ⟨rfl, p2⟩
      · rw [g, if_neg h5] at p1; cases p1
      · exact ⟨p1, .inr ⟨rfl, p2⟩⟩
  exact ⟨u, s1, e, by rw [e3]; simp, d', usedAlg algs, ⟨virt, ta', hvirt, e4, hd'⟩, hpref,
    by rw [← sd.length, c2], by simp only at hlen; omega, by rw [e1]; exact hname⟩

/-- **C78.** From end to end: the content of a target is handed to `TargetsMetadataBuilder`; the
metadata is built, signed and uploaded, the content is uploaded under its name. Then a client updates
and asks for the target, and exactly this content is written. -/
theorem C78_released_target_is_delivered {W : Type} (L : Laws X) (D : Digest) (R : World W) (cfg : Config)
    (file : Files) (s : St W) (r : RootMetadata) (ta : TargetsMetadata)
    (sta : SignedMetadata JsonValue) (sn : SnapshotMetadata)
    (ssn : SignedMetadata JsonValue) (ts : TimestampMetadata) (sts : SignedMetadata JsonValue)
    (h : Release X ring order perm D cfg file r ta sta sn ssn ts sts)
    (hr : Reachable (jsonEnv X ring order perm) s.tuf) (hS : Serves R file) (hW : Writable R)
    (hroots : Roots (jsonEnv X ring order perm) cfg file s.tuf.root r)
    (hn : NotAhead (jsonEnv X ring order perm) s.tuf r ta sta sn ssn ts sts)
    (hclk : Before R r.expires ∧ Before R ts.expires ∧ Before R sn.expires ∧ Before R ta.expires)
    (t : Time) (cs : List TargetsCall) (b : TargetsBuilder)
    (hcs : (TargetsBuilder.new t).calls D cs = .ok b) (hb : b.build = .ok ta)
    (path name : TargetPath) (virt : VirtualTargetPath) (src : List Ev) (algs : List HashAlg)
    (content : Bytes) (hlast : LastAbout TargetsCall.path? cs virt (.target virt src algs))
    (hsrc : delivered src = (content, .eof))
    (hnew : TargetPath.new path = .ok path) (hvirt : cfg.realToVirtual path = .ok virt)
    (hname : TargetFile r (D (usedAlg algs) content) path name) (hserve : ServesTarget R name content)
    (hwrite : Accepts R) :
    ∃ u s1 s2 l, update (jsonEnv X ring order perm) D R cfg s = (.ok u, s1) ∧
      exec (jsonEnv X ring order perm) D R cfg (.fetchTargetToWriter path) s1 = (.ok .done, s2) ∧
      s2.io.log = s1.io.log ++ l ∧ written l = content := by
  obtain ⟨u, s1, e, hl⟩ := C78_released_target_is_listed X ring order perm L D R cfg file s r ta sta sn ssn
    ts sts h hr hS hW hroots hn hclk t cs b hcs hb path name virt src algs content hlast hsrc hvirt hname
  obtain ⟨s2, l, k1, -, k3, k4⟩ := C74_listed_target_is_written (jsonEnv X ring order perm) D R cfg path
    name content s1 hnew hl hserve hwrite
  exact ⟨u, s1, s2, l, e, k1, k3, k4⟩

end RustTuf.Props
