import Verif.Props.Release
import Verif.Props.Signing
import Verif.Props.KeyIds

/-!
# C84: from private keys to delivered targets, with the formats in use
-/

namespace RustTuf.Props
open Spec RustTuf Json Client Formats Keys

variable (rg : Ring) (verify : Scheme → Bytes → Bytes → Bytes → Bool) (F : FloatLib) (H : Bytes → Bytes)
  (order : Map KeyId Signature → List (KeyId × Signature)) (perm : ∀ m, (order m).Perm m)

/-- The encoding of `m`, signed with private keys that were loaded with the crate, at least `n` of them
for the client's keys `keys`. None of the keys involved exhibit a SHA-256 collision. -/
structure SignedByLoaded {M : Type} (encode : M → Option Json) (decode : Json → Option M) (m : M)
    (sm : SignedMetadata JsonValue) (keys : List PublicKey) (n : Nat) : Prop where
  positive : 1 ≤ n
  signed : ∃ j ks, encode m = some j ∧ SignedWith (jsonInterchange decode) j.toValue ks sm ∧
    (∃ known : List PublicKey, (∀ k ∈ known, GoodKey (lib F H) k) ∧
      (∀ k ∈ known, ∀ k' ∈ known, ¬ Collide (lib F H) k k') ∧
      (∀ k ∈ keys, k ∈ known) ∧ ∀ k ∈ ks, ∃ pub ∈ known, Loaded (lib F H) rg k pub) ∧
    ∃ signers : List PublicKey, signers.Nodup ∧ n ≤ signers.length ∧
      ∀ p ∈ signers, p ∈ keys ∧ ∃ k ∈ ks, Loaded (lib F H) rg k p

theorem SignedByLoaded.published (L : RingLaw rg verify) (hH : ∀ b, (H b).length = 32) {M : Type}
    {encode : M → Option Json} {decode : Json → Option M} {m m' : M} {sm : SignedMetadata JsonValue}
    {keys : List PublicKey} {n : Nat} (he : encode m' = encode m)
    (h : SignedByLoaded rg F H encode decode m sm keys n) :
    Published (lib F H) verify order perm encode decode m' sm keys n := by
  obtain ⟨j, ks, h1, h2, ⟨known, h3, h4, h5, h6⟩, signers, h7, h8, h9⟩ := h.signed
  refine C81_signed_is_published (lib F H) verify order perm encode decode m' j (he.trans h1) ks sm h2
    known ?_ ?_ keys h5 n h.positive signers h7 h8 ?_
  · intro a ha b hb e
    exact (C76_key_id_determines_key (lib F H) (C79_laws F H) a b (h3 a ha) (h3 b hb) e).resolve_right
      (h4 a ha b hb)
  · intro k hk
    obtain ⟨pub, e1, e2⟩ := h6 k hk
    exact ⟨pub, e1, C81_loaded_signs _ rg verify L k pub e2,
      (C81_keys_are_good rg verify F H L hH k pub e2).2⟩
  · intro p hp
    obtain ⟨e1, k, e2, e3⟩ := h9 p hp
    exact ⟨e1, k, e2, C81_loaded_signs _ rg verify L k p e3⟩

/-- A date that can be read back, up to fractions of a second. -/
def Datable (t : Time) : Prop := Representable t ∧ (dateOf t).year ≤ 9999

/-- A release in terms of the calls that make it. For clients that trust the root `r`: targets
metadata `ta` built by the calls `cs`, a snapshot `sn` and a timestamp `ts`, all with arbitrary expiry
dates up to the year 9999 and signed with loaded private keys; and the three `to_raw` results uploaded
under their names. -/
structure FullRelease (D : Digest) (cfg : Config) (file : Files) (r : RootMetadata)
    (cs : List TargetsCall) (ta : TargetsMetadata) (sta : SignedMetadata JsonValue)
    (sn : SnapshotMetadata) (ssn : SignedMetadata JsonValue) (ts : TimestampMetadata)
    (sts : SignedMetadata JsonValue) : Prop where
  targets : ∃ t b, (TargetsBuilder.new t).calls D cs = .ok b ∧ b.build = .ok ta
  targetsFit : ∀ c ∈ cs, TargetsCall.Fits c
  targetsDate : Datable ta.expires
  /-- delegations as `C77_delegations` gives them, with keys as `C81_keys_are_good` gives them -/
  delegations : ∀ d, ta.delegations = some d → GoodDelegations d ∧
    (∀ p ∈ d.keys, IsKeyId p.1 ∧ GoodKey (lib F H) p.2) ∧
    ∀ r ∈ d.roles, r.threshold < 2 ^ 32 ∧ MetadataPath.new r.role = .ok r.role ∧
      ∀ p ∈ r.paths, VirtualTargetPath.new p = .ok p
  shallow : ∀ p ∈ ta.targets, ∀ c, p.2.custom = some c → ∀ q ∈ c, nesting q.2 ≤ 122
  targetsSigned : SignedByLoaded rg F H (encodeTargets (lib F H)) (decodeTargets (lib F H)) ta sta
    (targetsSigners r) r.targets.threshold
  snapshot : ∃ t cs b algs, (SnapshotBuilder.new t).calls D cs = .ok b ∧ b.build = .ok sn ∧
    (∀ c ∈ cs, SnapshotCall.Fits c) ∧
    LastAbout SnapshotCall.path? cs "targets".toList (.metadata "targets".toList sta algs)
  snapshotDate : Datable sn.expires
  snapshotSigned : SignedByLoaded rg F H (encodeSnapshot (lib F H)) (decodeSnapshot (lib F H)) sn ssn
    (snapshotSigners r) r.snapshot.threshold
  timestamp : ∃ t algs b cs, TimestampBuilder.fromSnapshot D t ssn algs = .ok b ∧
    (b.calls cs).build = .ok ts ∧ ∀ c ∈ cs, TimestampCall.Fits c
  timestampDate : Datable ts.expires
  timestampSigned : SignedByLoaded rg F H (encodeTimestamp (lib F H)) (decodeTimestamp (lib F H)) ts sts
    (timestampSigners r) r.timestamp.threshold
  targetsFile : ∀ raw, sta.toRaw = .ok raw →
    file "targets".toList (publishedAs r ta.version) = some raw
  snapshotFile : ∀ raw, ssn.toRaw = .ok raw →
    file "snapshot".toList (publishedAs r sn.version) = some raw
  timestampFile : ∀ raw, sts.toRaw = .ok raw →
    file "timestamp".toList .none = some raw ∧ NotLonger cfg.maxTimestampLength raw

/-! ### Whole seconds
The bytes say nothing about fractions of a second, and asking for the whole second is one more call. -/

theorem encodeTargets_wholeSecond (m : TargetsMetadata) :
    encodeTargets (lib F H) { m with expires := wholeSecond m.expires } = encodeTargets (lib F H) m := by
  unfold encodeTargets
  simp only [show (lib F H).formatDate = formatDate from rfl, formatDate_wholeSecond]

theorem encodeSnapshot_wholeSecond (m : SnapshotMetadata) :
    encodeSnapshot (lib F H) { m with expires := wholeSecond m.expires } = encodeSnapshot (lib F H) m := by
  unfold encodeSnapshot
  simp only [show (lib F H).formatDate = formatDate from rfl, formatDate_wholeSecond]

theorem encodeTimestamp_wholeSecond (m : TimestampMetadata) :
    encodeTimestamp (lib F H) { m with expires := wholeSecond m.expires } =
      encodeTimestamp (lib F H) m := by
  unfold encodeTimestamp
  simp only [show (lib F H).formatDate = formatDate from rfl, formatDate_wholeSecond]

theorem lastAbout_other {C P : Type} {path? : C → Option P} {cs : List C} {p : P} {c c' : C}
    (h : LastAbout path? cs p c) (hc : path? c' = none) : LastAbout path? (cs ++ [c']) p c := by
  obtain ⟨cs1, cs2, rfl, h1, h2⟩ := h
  refine ⟨cs1, cs2 ++ [c'], by simp, h1, ?_⟩
  intro x hx
  rcases List.mem_append.1 hx with hx | hx
  · exact h2 x hx
  · rw [List.mem_singleton.1 hx, hc]
    exact nofun

theorem targets_calls_expires {D : Digest} {b b' : TargetsBuilder} {cs : List TargetsCall} (t : Time)
    (h : b.calls D cs = .ok b') : b.calls D (cs ++ [.expires t]) = .ok (b'.setExpires t) := by
  induction cs generalizing b with
  | nil => cases h; rfl
  | cons c cs ih =>
    simp only [TargetsBuilder.calls, List.cons_append] at h ⊢
    split at h
    · cases h
    · exact ih h

theorem snapshot_calls_expires {D : Digest} {b b' : SnapshotBuilder} {cs : List SnapshotCall} (t : Time)
    (h : b.calls D cs = .ok b') : b.calls D (cs ++ [.expires t]) = .ok (b'.setExpires t) := by
  induction cs generalizing b with
  | nil => cases h; rfl
  | cons c cs ih =>
    simp only [SnapshotBuilder.calls, List.cons_append] at h ⊢
    split at h
    · cases h
    · exact ih h

theorem targets_build_expires {b : TargetsBuilder} {m : TargetsMetadata} (t : Time)
    (h : b.build = .ok m) : (b.setExpires t).build = .ok { m with expires := t } := by
  unfold TargetsBuilder.build at h ⊢
  split at h
  · cases h
  · rename_i hv
    cases h
    exact if_neg hv

theorem snapshot_build_expires {b : SnapshotBuilder} {m : SnapshotMetadata} (t : Time)
    (h : b.build = .ok m) : (b.setExpires t).build = .ok { m with expires := t } := by
  unfold SnapshotBuilder.build at h ⊢
  split at h
  · cases h
  · rename_i hv
    cases h
    exact if_neg hv

theorem timestamp_build_expires {b : TimestampBuilder} {m : TimestampMetadata} (t : Time)
    (h : b.build = .ok m) : (b.setExpires t).build = .ok { m with expires := t } := by
  unfold TimestampBuilder.build at h ⊢
  split at h
  · cases h
  · rename_i hv
    cases h
    exact if_neg hv

theorem FullRelease.release (L : RingLaw rg verify) (hH : ∀ b, (H b).length = 32) {D : Digest}
    {cfg : Config} {file : Files} {r : RootMetadata} {cs : List TargetsCall} {ta : TargetsMetadata}
    {sta : SignedMetadata JsonValue} {sn : SnapshotMetadata} {ssn : SignedMetadata JsonValue}
    {ts : TimestampMetadata} {sts : SignedMetadata JsonValue}
    (h : FullRelease rg F H D cfg file r cs ta sta sn ssn ts sts) :
    Release (lib F H) verify order perm D cfg file r { ta with expires := wholeSecond ta.expires } sta
      { sn with expires := wholeSecond sn.expires } ssn { ts with expires := wholeSecond ts.expires }
      sts where
  targets := by
    obtain ⟨t, b, h1, h2⟩ := h.targets
    refine C77_built_targets_are_publishable (lib F H) D t (cs ++ [.expires (wholeSecond ta.expires)]) _ _
      (targets_calls_expires _ h1) (targets_build_expires _ h2) ?_
      (goodDate_wholeSecond F H h.targetsDate.1 h.targetsDate.2) h.delegations
    intro c hc
    rcases List.mem_append.1 hc with hc | hc
    · exact h.targetsFit c hc
    · rw [List.mem_singleton.1 hc]; trivial
  shallow := h.shallow
  targetsSigned := h.targetsSigned.published rg verify F H order perm L hH
    (encodeTargets_wholeSecond F H ta)
  snapshot := by
    obtain ⟨t, cs, b, algs, h1, h2, h3, h4⟩ := h.snapshot
    refine ⟨t, cs ++ [.expires (wholeSecond sn.expires)], _, algs, snapshot_calls_expires _ h1,
      snapshot_build_expires _ h2, ?_, lastAbout_other h4 rfl⟩
    intro c hc
    rcases List.mem_append.1 hc with hc | hc
    · exact h3 c hc
    · rw [List.mem_singleton.1 hc]; trivial
  snapshotDate := goodDate_wholeSecond F H h.snapshotDate.1 h.snapshotDate.2
  snapshotSigned := h.snapshotSigned.published rg verify F H order perm L hH
    (encodeSnapshot_wholeSecond F H sn)
  timestamp := by
    obtain ⟨t, algs, b, cs, h1, h2, h3⟩ := h.timestamp
    refine ⟨t, algs, b, cs ++ [.expires (wholeSecond ts.expires)], h1, ?_, ?_⟩
    · unfold TimestampBuilder.calls at h2 ⊢
      rw [List.foldl_append]
      exact timestamp_build_expires _ h2
    · intro c hc
      rcases List.mem_append.1 hc with hc | hc
      · exact h3 c hc
      · rw [List.mem_singleton.1 hc]; trivial
  timestampDate := goodDate_wholeSecond F H h.timestampDate.1 h.timestampDate.2
  timestampSigned := h.timestampSigned.published rg verify F H order perm L hH
    (encodeTimestamp_wholeSecond F H ts)
  targetsFile := h.targetsFile
  snapshotFile := h.snapshotFile
  timestampFile := h.timestampFile

/-! ### Roots -/

/-- A root that can be published: as `C77_built_root_is_publishable` gives it, with keys as
`C81_keys_are_good` gives them, and an arbitrary expiry date up to the year 9999. -/
structure BuiltRoot (x : RootMetadata) : Prop where
  good : GoodRoot x
  keys : ∀ p ∈ x.keys, IsKeyId p.1 ∧ GoodKey (lib F H) p.2
  fits : x.root.threshold < 2 ^ 32 ∧ x.snapshot.threshold < 2 ^ 32 ∧ x.targets.threshold < 2 ^ 32 ∧
    x.timestamp.threshold < 2 ^ 32
  date : Datable x.expires

/-- Key rotation: roots that lead from `r` to `r'`, the last one. Each is signed with private keys for
its predecessor and for itself, and uploaded under its version. -/
inductive Rotations (cfg : Config) (file : Files) : RootMetadata → RootMetadata → Prop
  | last (r : RootMetadata) : r.version < 4294967295 →
      file "root".toList (.number (r.version + 1)) = none → Rotations cfg file r r
  | next (r x r' : RootMetadata) (sm : SignedMetadata JsonValue) :
      BuiltRoot F H x → x.version = r.version + 1 →
      SignedByLoaded rg F H (encodeRoot (lib F H)) (decodeRoot (lib F H)) x sm (rootSigners r)
        r.root.threshold →
      SignedByLoaded rg F H (encodeRoot (lib F H)) (decodeRoot (lib F H)) x sm (rootSigners x)
        x.root.threshold →
      (∀ raw, sm.toRaw = .ok raw →
        file "root".toList (.number x.version) = some raw ∧ NotLonger cfg.maxRootLength raw) →
      Rotations cfg file x r' → Rotations cfg file r r'

/-- The client's version `q` of the author's root `r`: the same up to fractions of a second. -/
structure ReadAs (r q : RootMetadata) : Prop where
  same : SameRoot { r with expires := wholeSecond r.expires } q
  own : (r.keys.map Prod.fst).Nodup
  distinct : (q.keys.map Prod.fst).Nodup

theorem ReadAs.keys {r q : RootMetadata} (h : ReadAs r q) (ids : List KeyId) :
    ∀ k, k ∈ keysFor q.keys ids ↔ k ∈ keysFor r.keys ids := by
  have mem : ∀ id k, (id, k) ∈ q.keys ↔ (id, k) ∈ r.keys := by
    intro id k
    constructor
    · intro hm
      have e := Map.get?_of_mem_nodup h.distinct hm
      cases e' : Map.get? r.keys id with
      | none => rw [h.same.keys.none _ e'] at e; cases e
      | some v =>
        obtain ⟨w, e1, rfl⟩ := h.same.keys.there _ _ e'
        rw [e] at e1
        cases e1
        exact Map.mem_of_get? e'
    · intro hm
      obtain ⟨w, e1, rfl⟩ := h.same.keys.there _ _ (Map.get?_of_mem_nodup h.own hm)
      exact Map.mem_of_get? e1
  intro k
  unfold keysFor
  rw [List.mem_filterMap, List.mem_filterMap]
  constructor
  all_goals
    rintro ⟨⟨id, k'⟩, h1, h2⟩
    refine ⟨(id, k'), ?_, h2⟩
  · exact (mem id k').1 h1
  · exact (mem id k').2 h1

theorem SignedByLoaded.of_mem {M : Type} {encode : M → Option Json} {decode : Json → Option M} {m : M}
    {sm : SignedMetadata JsonValue} {keys keys' : List PublicKey} {n : Nat}
    (h : SignedByLoaded rg F H encode decode m sm keys n) (hk : ∀ k, k ∈ keys' ↔ k ∈ keys) :
    SignedByLoaded rg F H encode decode m sm keys' n := by
  obtain ⟨j, ks, h1, h2, ⟨known, h3, h4, h5, h6⟩, signers, h7, h8, h9⟩ := h.signed
  exact ⟨h.positive, j, ks, h1, h2, ⟨known, h3, h4, fun k hm => h5 k ((hk k).1 hm), h6⟩, signers, h7, h8,
    fun p hp => ⟨(hk p).2 (h9 p hp).1, (h9 p hp).2⟩⟩

theorem FullRelease.readAs {D : Digest} {cfg : Config} {file : Files} {r q : RootMetadata}
    {cs : List TargetsCall} {ta : TargetsMetadata} {sta : SignedMetadata JsonValue}
    {sn : SnapshotMetadata} {ssn : SignedMetadata JsonValue} {ts : TimestampMetadata}
    {sts : SignedMetadata JsonValue} (h : FullRelease rg F H D cfg file r cs ta sta sn ssn ts sts)
    (hq : ReadAs r q) : FullRelease rg F H D cfg file q cs ta sta sn ssn ts sts := by
  have e1 : r.targets = q.targets := hq.same.targets
  have e2 : r.snapshot = q.snapshot := hq.same.snapshot
  have e3 : r.timestamp = q.timestamp := hq.same.timestamp
  have e4 : ∀ n, publishedAs q n = publishedAs r n := fun n => by
    have e : r.consistentSnapshot = q.consistentSnapshot := hq.same.consistent
    unfold publishedAs
    rw [e]
  exact { h with
    targetsSigned := by
      rw [← e1]
      exact h.targetsSigned.of_mem rg F H (by
        unfold targetsSigners; rw [← e1]; exact hq.keys _)
    snapshotSigned := by
      rw [← e2]
      exact h.snapshotSigned.of_mem rg F H (by
        unfold snapshotSigners; rw [← e2]; exact hq.keys _)
    timestampSigned := by
      rw [← e3]
      exact h.timestampSigned.of_mem rg F H (by
        unfold timestampSigners; rw [← e3]; exact hq.keys _)
    targetsFile := by rw [e4]; exact h.targetsFile
    snapshotFile := by rw [e4]; exact h.snapshotFile }

/-- A root signed with loaded private keys is authentic for a client, as the root it is. -/
theorem root_authentic (L : RingLaw rg verify) (hH : ∀ b, (H b).length = 32) {x : RootMetadata}
    (hx : BuiltRoot F H x) {sm : SignedMetadata JsonValue} {keys : List PublicKey} {n : Nat}
    (h : SignedByLoaded rg F H (encodeRoot (lib F H)) (decodeRoot (lib F H)) x sm keys n) :
    ∃ raw q, sm.toRaw = .ok raw ∧ ReadAs x q ∧
      Authentic (jsonEnv (lib F H) verify order perm)
        (jsonEnv (lib F H) verify order perm).rootFromSlice raw n keys q := by
  obtain ⟨j, q, h1, h2, h3⟩ := C80_root F H x hx.date.1 hx.date.2 hx.good hx.keys hx.fits
  obtain ⟨raw, h4, h5⟩ := (h.published rg verify F H order perm L hH rfl).accepted (lib F H) verify
    order perm (fun j e => by have := nesting_encodeRoot (lib F H) e; omega) h1 h2
  exact ⟨raw, q, h4, ⟨h3, hx.good.keys, (decodeRoot_some h2).keys⟩, authentic_of_ok h5⟩

/-- **C84.** Every rotation of keys that was built, signed with private keys and uploaded is one that
clients follow. -/
theorem C84_rotations_are_followed (L : RingLaw rg verify) (hH : ∀ b, (H b).length = 32) (cfg : Config)
    (file : Files) (r r' : RootMetadata) (h : Rotations rg F H cfg file r r') (q : RootMetadata)
    (hq : ReadAs r q) :
    ∃ q', ReadAs r' q' ∧ Roots (jsonEnv (lib F H) verify order perm) cfg file q q' := by
  induction h generalizing q with
  | last r h1 h2 =>
    have e : r.version = q.version := hq.same.version
    exact ⟨q, hq, .last q (by rw [← e]; exact h1) (by rw [← e]; exact h2)⟩
  | next r x r' sm hx hv h1 h2 hf _ ih =>
    obtain ⟨raw, q1, h3, h4, h5⟩ := root_authentic rg verify F H order perm L hH hx h1
    obtain ⟨raw', q1', h3', h4', h5'⟩ := root_authentic rg verify F H order perm L hH hx
      (h2.of_mem rg F H (h4.keys x.root.keyIds))
    rw [h3] at h3'
    cases h3'
    cases authentic_unique h5 h5'
    obtain ⟨q', h6, h7⟩ := ih q1 h4
    have e : r.version = q.version := hq.same.version
    have e1 : x.version = q1.version := h4.same.version
    have e2 : x.root = q1.root := h4.same.root
    have e3 : r.root = q.root := hq.same.root
    refine ⟨q', h6, .next q q1 q' raw ?_ (hf raw h3).2 ?_ ?_ (by omega) h7⟩
    · rw [← e, ← hv]
      exact (hf raw h3).1
    · obtain ⟨raw', q2, g3, -, g5⟩ := root_authentic rg verify F H order perm L hH hx
        (h1.of_mem rg F H (keys' := (rootSigners q)) (by
          unfold rootSigners; rw [← e3]; exact hq.keys _))
      rw [h3] at g3
      cases g3
      cases authentic_unique h5 g5
      rw [← e3]
      exact g5
    · unfold rootSigners
      rw [← e2]
      exact h5'

/-! ### The client -/

/-- **C84.** A client that is not ahead of the release, whose root leads to the author's root `r`, and
whose clock is before the second of each expiry date, succeeds to update and then trusts exactly the
metadata that was built, up to fractions of a second in the expiry dates. Nothing is assumed of
formats. -/
theorem C84_release_is_adopted {W : Type} (L : RingLaw rg verify) (hH : ∀ b, (H b).length = 32)
    (D : Digest) (R : World W) (cfg : Config) (file : Files) (s : St W) (r0 r : RootMetadata)
    (cs : List TargetsCall) (ta : TargetsMetadata) (sta : SignedMetadata JsonValue)
    (sn : SnapshotMetadata) (ssn : SignedMetadata JsonValue) (ts : TimestampMetadata)
    (sts : SignedMetadata JsonValue) (h : FullRelease rg F H D cfg file r cs ta sta sn ssn ts sts)
    (hr : Reachable (jsonEnv (lib F H) verify order perm) s.tuf) (hS : Serves R file) (hW : Writable R)
    (hroot : ReadAs r0 s.tuf.root) (hrot : Rotations rg F H cfg file r0 r)
    (hn : NotAhead (jsonEnv (lib F H) verify order perm) s.tuf r ta sta sn ssn ts sts)
    (hclk : Before R (wholeSecond r.expires) ∧ Before R (wholeSecond ts.expires) ∧
      Before R (wholeSecond sn.expires) ∧ Before R (wholeSecond ta.expires)) :
    ∃ b s' ts' sn' ta', update (jsonEnv (lib F H) verify order perm) D R cfg s = (.ok b, s') ∧
      ReadAs r s'.tuf.root ∧
      (s'.tuf.timestamp = some ts' ∧ SameTimestamp { ts with expires := wholeSecond ts.expires } ts') ∧
      (s'.tuf.snapshot = some sn' ∧ SameSnapshot { sn with expires := wholeSecond sn.expires } sn') ∧
      (s'.tuf.targets = some ta' ∧ SameTargets { ta with expires := wholeSecond ta.expires } ta') := by
  obtain ⟨q, hq, hroots⟩ := C84_rotations_are_followed rg verify F H order perm L hH cfg file r0 r hrot
    s.tuf.root hroot
  have ev : r.version = q.version := hq.same.version
  have ee : wholeSecond r.expires = q.expires := hq.same.expires
  obtain ⟨b, s', ts', sn', ta', h1, h2, h3⟩ :=
    C78_release_is_adopted (lib F H) verify order perm (C79_laws F H) D R cfg file s q _ sta _ ssn _ sts
      ((h.readAs rg F H hq).release rg verify F H order perm L hH) hr hS hW hroots
      ⟨by rw [← ev]; exact hn.timestamp, hn.snapshot, hn.targets⟩ (by rw [← ee]; exact hclk)
  exact ⟨b, s', ts', sn', ta', h1, by rw [h2]; exact hq, h3⟩

/-- **C84.** The content of a target is handed to `TargetsMetadataBuilder`; the metadata is built, signed
with loaded private keys and uploaded. Then a client updates, and afterwards the metadata it trusts lists
this content. -/
theorem C84_target_is_listed {W : Type} (L : RingLaw rg verify) (hH : ∀ b, (H b).length = 32)
    (D : Digest) (R : World W) (cfg : Config) (file : Files) (s : St W) (r0 r : RootMetadata)
    (cs : List TargetsCall) (ta : TargetsMetadata) (sta : SignedMetadata JsonValue)
    (sn : SnapshotMetadata) (ssn : SignedMetadata JsonValue) (ts : TimestampMetadata)
    (sts : SignedMetadata JsonValue) (h : FullRelease rg F H D cfg file r cs ta sta sn ssn ts sts)
    (hr : Reachable (jsonEnv (lib F H) verify order perm) s.tuf) (hS : Serves R file) (hW : Writable R)
    (hroot : ReadAs r0 s.tuf.root) (hrot : Rotations rg F H cfg file r0 r)
    (hn : NotAhead (jsonEnv (lib F H) verify order perm) s.tuf r ta sta sn ssn ts sts)
    (hclk : Before R (wholeSecond r.expires) ∧ Before R (wholeSecond ts.expires) ∧
      Before R (wholeSecond sn.expires) ∧ Before R (wholeSecond ta.expires))
    (path name : TargetPath) (virt : VirtualTargetPath) (src : List Ev) (algs : List HashAlg)
    (content : Bytes) (hlast : LastAbout TargetsCall.path? cs virt (.target virt src algs))
    (hsrc : delivered src = (content, .eof))
    (hvirt : cfg.realToVirtual path = .ok virt)
    (hname : TargetFile r (D (usedAlg algs) content) path name) :
    ∃ u s1, update (jsonEnv (lib F H) verify order perm) D R cfg s = (.ok u, s1) ∧
      Available D cfg s1.tuf path name content := by
  obtain ⟨q, hq, hroots⟩ := C84_rotations_are_followed rg verify F H order perm L hH cfg file r0 r hrot
    s.tuf.root hroot
  have ev : r.version = q.version := hq.same.version
  have ee : wholeSecond r.expires = q.expires := hq.same.expires
  have ec : r.consistentSnapshot = q.consistentSnapshot := hq.same.consistent
  obtain ⟨t, b, h1, h2⟩ := h.targets
  exact C78_released_target_is_listed (lib F H) verify order perm (C79_laws F H) D R cfg file s q _
    sta _ ssn _ sts ((h.readAs rg F H hq).release rg verify F H order perm L hH) hr hS hW hroots
    ⟨by rw [← ev]; exact hn.timestamp, hn.snapshot, hn.targets⟩ (by rw [← ee]; exact hclk)
    t (cs ++ [.expires (wholeSecond ta.expires)]) _
    (targets_calls_expires _ h1) (targets_build_expires _ h2) path name virt src algs content
    (lastAbout_other hlast rfl) hsrc hvirt
    (by unfold TargetFile at hname ⊢; rw [← ec]; exact hname)

/-- **C84.** From end to end: the content of a target is handed to `TargetsMetadataBuilder`; the
metadata is built, signed with loaded private keys and uploaded, the content is uploaded under its
name. Then a client updates and asks for the target, and exactly this content is written. -/
theorem C84_target_is_delivered {W : Type} (L : RingLaw rg verify) (hH : ∀ b, (H b).length = 32)
    (D : Digest) (R : World W) (cfg : Config) (file : Files) (s : St W) (r0 r : RootMetadata)
    (cs : List TargetsCall) (ta : TargetsMetadata) (sta : SignedMetadata JsonValue)
    (sn : SnapshotMetadata) (ssn : SignedMetadata JsonValue) (ts : TimestampMetadata)
    (sts : SignedMetadata JsonValue) (h : FullRelease rg F H D cfg file r cs ta sta sn ssn ts sts)
    (hr : Reachable (jsonEnv (lib F H) verify order perm) s.tuf) (hS : Serves R file) (hW : Writable R)
    (hroot : ReadAs r0 s.tuf.root) (hrot : Rotations rg F H cfg file r0 r)
    (hn : NotAhead (jsonEnv (lib F H) verify order perm) s.tuf r ta sta sn ssn ts sts)
    (hclk : Before R (wholeSecond r.expires) ∧ Before R (wholeSecond ts.expires) ∧
      Before R (wholeSecond sn.expires) ∧ Before R (wholeSecond ta.expires))
    (path name : TargetPath) (virt : VirtualTargetPath) (src : List Ev) (algs : List HashAlg)
    (content : Bytes) (hlast : LastAbout TargetsCall.path? cs virt (.target virt src algs))
    (hsrc : delivered src = (content, .eof))
    (hnew : TargetPath.new path = .ok path) (hvirt : cfg.realToVirtual path = .ok virt)
    (hname : TargetFile r (D (usedAlg algs) content) path name) (hserve : ServesTarget R name content)
    (hwrite : Accepts R) :
    ∃ u s1 s2 l, update (jsonEnv (lib F H) verify order perm) D R cfg s = (.ok u, s1) ∧
      exec (jsonEnv (lib F H) verify order perm) D R cfg (.fetchTargetToWriter path) s1 =
        (.ok .done, s2) ∧
      s2.io.log = s1.io.log ++ l ∧ written l = content := by
  obtain ⟨u, s1, e, hl⟩ := C84_target_is_listed rg verify F H order perm L hH D R cfg file s r0 r cs ta sta sn
    ssn ts sts h hr hS hW hroot hrot hn hclk path name virt src algs content hlast hsrc hvirt hname
  obtain ⟨s2, l, k1, -, k3, k4⟩ := C74_listed_target_is_written (jsonEnv (lib F H) verify order perm) D R cfg
    path name content s1 hnew hl hserve hwrite
  exact ⟨u, s1, s2, l, e, k1, k3, k4⟩

end RustTuf.Props
