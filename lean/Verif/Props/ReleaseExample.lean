import Verif.Props.Release
import Verif.Props.PublishExample
import Verif.Spec.ClientWorld

/-!
# Examples for C77 and C78
A root built with `RootMetadataBuilder`; targets, snapshot and timestamp built, signed and uploaded;
and a client that trusts the root.
-/

namespace RustTuf.Props
open Spec RustTuf Json Client

namespace ReleaseExample
open PublishExample

deriving instance DecidableEq for SnapshotBuilder
deriving instance DecidableEq for TargetsBuilder
deriving instance DecidableEq for TimestampBuilder

/-- Digests. -/
def D : Digest := fun _ b => b.take 2

/-! ### Root -/

def rootCalls : List RootCall :=
  [.version 3, .key .root key, .key .snapshot key, .threshold .root 2, .key .targets key,
    .consistentSnapshot true, .threshold .root 1, .key .timestamp key, .expires 1]

-- Hypotheses of `C77_root_is_as_asked` and `C77_built_root_is_publishable`.
theorem root_built : ((RootBuilder.new 0).calls rootCalls).build = .ok root := by decide +kernel

example : AskedRoot 0 rootCalls root := C77_root_is_as_asked _ _ _ root_built

example : PublishableRoot lib root := by
  refine C77_built_root_is_publishable lib 0 rootCalls root root_built ?_ ?_ rfl ?_
  · intro c hc
    simp only [rootCalls, List.mem_cons, List.not_mem_nil, or_false] at hc
    rcases hc with rfl | rfl | rfl | rfl | rfl | rfl | rfl | rfl | rfl
    all_goals first | trivial | (unfold RootCall.Fits; decide)
  · intro k hk
    have : k = key := by
      exact (by simpa [rootCalls, RootCall.key?] using hk : key = k).symm
    rw [this]
    exact ⟨isKeyId, goodKey⟩
  · intro role
    cases role <;> decide +kernel

-- Hypothesis of `C77_root_from_existing`.
example : GoodRoot root := publishable.good

/-- The same key added twice to the root role, to reach a threshold of two. -/
def twice : RootMetadata := { root with root := ⟨2, [id0, id0]⟩ }

-- Hypotheses of `C77_key_added_twice_is_never_accepted` and `C77_key_added_twice_is_refused`: the
-- root builds, does not have distinct IDs, and can be encoded, signed and written.
example : ((RootBuilder.new 0).calls (rootCalls ++ [.key .root key, .threshold .root 2])).build =
    .ok twice := by decide +kernel
example : ¬ DistinctIds twice := fun h => absurd (h .root) (by decide +kernel)

def encodedTwice : Json := (encodeRoot lib twice).getD .null

example : encodeRoot lib twice = some encodedTwice ∧
    ∃ sm, SignedMetadata.ofMetadata (encodeRoot lib) twice signer = .ok sm ∧
      sm.metadata = encodedTwice.toValue ∧ ∃ raw, sm.toRaw = .ok raw := by
  refine ⟨by decide +kernel, ⟨[⟨id0, "{\"_".toList.map fun c => c.toNat.toUInt8⟩],
    encodedTwice.toValue⟩, ?_, rfl, ?_⟩
  · have hc : ∃ msg, Json.canonicalize encodedTwice.toValue.1 = .ok msg ∧
        msg.take 3 = "{\"_".toList.map fun c => c.toNat.toUInt8 := by
      refine ⟨match Json.canonicalize encodedTwice.toValue.1 with | .ok b => b | .error _ => [], ?_, ?_⟩
      · decide +kernel
      · decide +kernel
    obtain ⟨msg, hc, ht⟩ := hc
    have e : encodeRoot lib twice = some encodedTwice := by decide +kernel
    unfold SignedMetadata.ofMetadata
    rw [e]
    simp only [serialize, SignedMetadata.new, hc, signer, ht]
  · exact ⟨_, (by decide +kernel : SignedMetadata.toRaw
      ⟨[⟨id0, "{\"_".toList.map fun c => c.toNat.toUInt8⟩], encodedTwice.toValue⟩ =
      .ok (match SignedMetadata.toRaw
        ⟨[⟨id0, "{\"_".toList.map fun c => c.toNat.toUInt8⟩], encodedTwice.toValue⟩ with
        | .ok b => b | .error _ => []))⟩

-- The hypotheses of `C71_signed_is_published` about the key.
example : IsKeyId key.keyId ∧ PrivateKey.Own signer ∧ signer.publicKeyId = key.keyId ∧
    ∀ msg s, signer.sign msg = .ok s → Valid (jsonEnv lib ring id fun _ => .refl _) key msg s := by
  refine ⟨isKeyId, fun msg s h => by cases h; rfl, rfl, fun msg s h => ?_⟩
  cases h
  refine ⟨by decide, ?_⟩
  show (_ == _) = true
  exact beq_self_eq_true _

/-! ### Signing -/

/-- The signature, the same for all roles: all contents begin alike. -/
def sig : Signature := ⟨id0, "{\"_".toList.map fun c => c.toNat.toUInt8⟩

/-- Signed metadata with this content. -/
def sign (j : Json) : SignedMetadata JsonValue := ⟨[sig], j.toValue⟩

theorem published_of {M : Type} {encode : M → Option Json} {decode : Json → Option M} {m : M} {j : Json}
    {msg : Bytes} (he : encode m = some j) (hc : Json.canonicalize j.toValue.1 = .ok msg)
    (ht : msg.take 3 = sig.value) :
    Published lib ring id (fun _ => .refl _) encode decode m (sign j) [key] 1 := by
  refine ⟨.new j.toValue signer (sign j) ?_ ?_, ⟨j, he, rfl⟩, ?_, ?_, by decide,
    [key], by decide, by decide, ?_⟩
  · intro m s h
    cases h
    rfl
  · unfold SignedMetadata.new
    have : (jsonInterchange decode).canonicalize j.toValue = .ok msg := hc
    rw [this]
    simp only [signer, ht, sign]
    rfl
  · intro s hs
    rw [List.mem_singleton.1 hs]
    exact isKeyId
  · intro k hk k' hk' _
    rw [List.mem_singleton.1 hk, List.mem_singleton.1 hk']
  · intro k hk
    rw [List.mem_singleton.1 hk]
    refine ⟨by simp, _, List.mem_singleton.2 rfl, rfl, fun m hm => ⟨by decide, ?_⟩⟩
    have hm : Json.canonicalize j.toValue.1 = .ok m := hm
    rw [hc] at hm
    cases hm
    show (_ == msg.take 3) = true
    rw [ht]
    decide

/-- The bytes. -/
def bytesOf (r : Except Err Bytes) : Bytes := match r with | .ok b => b | .error _ => []

/-! ### Targets -/

def rsa2 : Delegation := ⟨"b".toList, true, 1, [id0], ["y/".toList, "x/z".toList]⟩

def delegations : Delegations := ⟨[(id0, rsa)], [rsa2]⟩

-- Hypotheses of `C77_delegations`.
example : Delegation.new "b".toList true 1 [id0] ["y/".toList, "x/z".toList] = .ok rsa2 ∧
    Delegations.new [(id0, rsa)] [rsa2] = .ok delegations := by decide +kernel

def content : Bytes := [5, 6, 7, 8]
def source : List Ev := [.data [5], .pending, .data [6, 7, 8]]

def targetsCalls : List TargetsCall :=
  [.target "x/y".toList [.data [9]] [.sha256], .version 7, .delegations delegations,
    .target "x/y".toList source [.sha256, .sha512], .expires 1,
    .description "w".toList ⟨0, hashes, some custom⟩]

def ta : TargetsMetadata :=
  ⟨7, 1, [("w".toList, ⟨0, hashes, some custom⟩),
    ("x/y".toList, ⟨4, [(.sha512, [5, 6]), (.sha256, [5, 6])], none⟩)], some delegations⟩

def taBuilder : TargetsBuilder := ⟨ta.version, ta.expires, ta.targets, ta.delegations⟩

-- Hypotheses of `C77_targets_are_as_asked` and `C77_built_targets_are_publishable`.
theorem ta_calls : (TargetsBuilder.new 0).calls D targetsCalls = .ok taBuilder := by decide +kernel
theorem ta_built : taBuilder.build = .ok ta := by decide +kernel

theorem ta_publishable : PublishableTargets lib ta := by
  refine C77_built_targets_are_publishable lib D 0 targetsCalls taBuilder ta ta_calls ta_built ?_ rfl ?_
  · intro c hc
    simp only [targetsCalls, List.mem_cons, List.not_mem_nil, or_false] at hc
    rcases hc with rfl | rfl | rfl | rfl | rfl | rfl
    · exact ⟨by decide +kernel, by decide +kernel⟩
    · exact (by decide : 7 < 2 ^ 32)
    · trivial
    · exact ⟨by decide +kernel, by decide +kernel⟩
    · trivial
    · refine ⟨by decide +kernel, ⟨by decide, goodHashes⟩, ?_⟩
      intro c hc
      cases hc
      decide +kernel
  · intro d hd
    cases hd
    refine ⟨?_, ?_, ?_⟩
    · refine (C77_delegations [(id0, rsa)] [rsa2] delegations (by decide +kernel) (by simp) ?_).2
      intro r hr
      rw [List.mem_singleton.1 hr]
      exact ⟨"b".toList, true, 1, [id0], ["y/".toList, "x/z".toList], by decide +kernel, by simp,
        fun i hi => by rw [List.mem_singleton.1 hi]; exact isKeyId, by decide +kernel⟩
    · intro p hp
      rw [List.mem_singleton.1 hp]
      exact ⟨isKeyId, goodRsa⟩
    · intro r hr
      rw [List.mem_singleton.1 hr]
      decide +kernel

theorem ta_shallow : ∀ p ∈ ta.targets, ∀ c, p.2.custom = some c → ∀ q ∈ c, nesting q.2 ≤ 122 := by
  intro p hp c hc
  simp only [ta, List.mem_cons, List.not_mem_nil, or_false] at hp
  rcases hp with rfl | rfl
  · cases hc
    decide +kernel
  · cases hc

def jta : Json := (encodeTargets lib ta).getD .null
def sta : SignedMetadata JsonValue := sign jta
theorem jta_eq : encodeTargets lib ta = some jta := by decide +kernel

/-! ### Snapshot -/

-- Hypotheses of `C77_description_of_published_bytes` and `C77_description_exists`.
def staDescription : MetadataDescription :=
  ⟨7, (bytesOf sta.toRaw).length, [(.sha256, (bytesOf sta.toRaw).take 2)]⟩

example : describe D sta [.sha256] = .ok staDescription := by decide +kernel
example : sta.toRaw = .ok (bytesOf sta.toRaw) ∧ (bytesOf sta.toRaw).length ≤ u64Max ∧
    sta.parseVersion = .ok 7 := by decide +kernel

def snapshotCalls : List SnapshotCall :=
  [.description "targets".toList description, .version 2, .expires 1,
    .metadata "targets".toList sta [.sha256], .version 6, .description "b".toList description]

def sn : SnapshotMetadata :=
  ⟨6, 1, [("b".toList, description), ("targets".toList, staDescription)]⟩

def snBuilder : SnapshotBuilder := ⟨6, 1, sn.metas⟩

-- Hypotheses of `C77_snapshot_is_as_asked` and `C77_built_snapshot_is_publishable`.
theorem sn_calls : (SnapshotBuilder.new 0).calls D snapshotCalls = .ok snBuilder := by decide +kernel
theorem sn_built : snBuilder.build = .ok sn := by decide +kernel

theorem sn_fits : ∀ c ∈ snapshotCalls, SnapshotCall.Fits c := by
  intro c hc
  simp only [snapshotCalls, List.mem_cons, List.not_mem_nil, or_false] at hc
  rcases hc with rfl | rfl | rfl | rfl | rfl | rfl
  · exact ⟨by decide +kernel, goodDescription⟩
  · exact (by decide : 2 < 2 ^ 32)
  · trivial
  · trivial
  · exact (by decide : 6 < 2 ^ 32)
  · exact ⟨by decide +kernel, goodDescription⟩

def jsn : Json := (encodeSnapshot lib sn).getD .null
def ssn : SignedMetadata JsonValue := sign jsn
theorem jsn_eq : encodeSnapshot lib sn = some jsn := by decide +kernel

/-! ### Timestamp -/

def ssnDescription : MetadataDescription :=
  ⟨6, (bytesOf ssn.toRaw).length,
    [(.sha256, (bytesOf ssn.toRaw).take 2), (.sha512, (bytesOf ssn.toRaw).take 2)]⟩

def ts : TimestampMetadata := ⟨5, 1, ssnDescription⟩

-- Hypotheses of `C77_timestamp_is_as_asked` and `C77_built_timestamp_is_publishable`.
theorem ts_from : TimestampBuilder.fromSnapshot D 0 ssn [.sha512, .sha256] =
    .ok ⟨1, 0, ssnDescription⟩ := by decide +kernel
theorem ts_built : (TimestampBuilder.calls ⟨1, 0, ssnDescription⟩ [.version 5, .expires 1]).build =
    .ok ts := by decide +kernel

theorem ts_fits : ∀ c ∈ [TimestampCall.version 5, .expires 1], TimestampCall.Fits c := by
  intro c hc
  simp only [List.mem_cons, List.not_mem_nil, or_false] at hc
  rcases hc with rfl | rfl
  · exact (by decide : 5 < 2 ^ 32)
  · trivial

def jts : Json := (encodeTimestamp lib ts).getD .null
def sts : SignedMetadata JsonValue := sign jts
theorem jts_eq : encodeTimestamp lib ts = some jts := by decide +kernel

/-! ### Uploading -/

def files : Map (MetadataPath × MetadataVersion) Bytes :=
  [(("timestamp".toList, .none), bytesOf sts.toRaw),
    (("snapshot".toList, .number 6), bytesOf ssn.toRaw),
    (("targets".toList, .number 7), bytesOf sta.toRaw)]

def file : Files := fun p v => files.get? (p, v)

theorem canonical_of {j : Json} (h1 : (Json.canonicalize j.toValue.1).isOk = true) :
    Json.canonicalize j.toValue.1 = .ok (bytesOf (Json.canonicalize j.toValue.1)) := by
  cases h : Json.canonicalize j.toValue.1 with
  | error e => rw [h] at h1; cases h1
  | ok b => rfl

/-- The release meets the hypothesis of the theorems of C78. -/
theorem release : Release lib ring id (fun _ => .refl _) D (Config.default true) file root ta sta sn ssn
    ts sts where
  targets := ta_publishable
  shallow := ta_shallow
  targetsSigned := published_of jta_eq (canonical_of (by decide +kernel)) (by decide +kernel)
  snapshot := ⟨0, snapshotCalls, snBuilder, [.sha256], sn_calls, sn_built, sn_fits,
    [.description "targets".toList description, .version 2, .expires 1],
    [.version 6, .description "b".toList description], rfl, rfl, by
      intro c hc
      simp only [List.mem_cons, List.not_mem_nil, or_false] at hc
      rcases hc with rfl | rfl
      · exact fun h => nomatch h
      · decide +kernel⟩
  snapshotDate := rfl
  snapshotSigned := published_of jsn_eq (canonical_of (by decide +kernel)) (by decide +kernel)
  timestamp := ⟨0, [.sha512, .sha256], _, [.version 5, .expires 1], ts_from, ts_built, ts_fits⟩
  timestampDate := rfl
  timestampSigned := published_of jts_eq (canonical_of (by decide +kernel)) (by decide +kernel)
  targetsFile raw h := by
    have : file "targets".toList (publishedAs root ta.version) = some (bytesOf sta.toRaw) := by
      decide +kernel
    rw [this, h]
    rfl
  snapshotFile raw h := by
    have : file "snapshot".toList (publishedAs root sn.version) = some (bytesOf ssn.toRaw) := by
      decide +kernel
    rw [this, h]
    rfl
  timestampFile raw h := by
    have h1 : file "timestamp".toList .none = some (bytesOf sts.toRaw) := by decide +kernel
    have h2 : (bytesOf sts.toRaw).length ≤ 18446744073709551615 ∧
        ∀ n, (Config.default true).maxTimestampLength = some n → (bytesOf sts.toRaw).length ≤ n :=
      ⟨by decide +kernel, fun n hn => by cases hn; decide +kernel⟩
    rw [h] at h1 h2
    exact ⟨h1, h2⟩

/-! ### The client -/

/-- A client that has been given the signed root. -/
def client : St Toy.Disk := ⟨⟨root, none, none, none, []⟩, ⟨Toy.Disk.empty, []⟩⟩

/-- The uploaded content carries its digest in its name. -/
def world : World Toy.Disk := Toy.repos files [("x/0506.y".toList, content)] 0

theorem client_reachable : Reachable (jsonEnv lib ring id fun _ => .refl _) client.tuf :=
  by
  obtain ⟨msg, hc, ht⟩ : ∃ msg, Json.canonicalize encoded.toValue.1 = .ok msg ∧
      msg.take 3 = sig.value := ⟨_, canonical_of (by decide +kernel), by decide +kernel⟩
  have hp := published_of (encode := encodeRoot lib) (decode := decodeRoot lib) encoded_eq hc ht
  obtain ⟨signers, g1, g2, g3⟩ := hp.enough
  obtain ⟨raw, _, hv⟩ := C71_published_is_accepted lib ring id (fun _ => .refl _) (decodeRoot lib)
    (sign encoded) hp.made root (by decide +kernel)
    ((nesting_normal _).trans_lt (by decide +kernel)) hp.ids msg hc [key] hp.oneKey 1 (Nat.le_refl 1)
    signers g1 g2
    (fun k hk => ⟨(g3 k hk).1, (g3 k hk).2.imp fun s hs => ⟨hs.1, hs.2.1, hs.2.2 msg hc⟩⟩)
  refine ⟨client.tuf, [], .inl ⟨raw, 1, [key], ?_⟩, rfl⟩
  have hv : verifySignatures (jsonEnv lib ring id fun _ => .refl _)
    (jsonEnv lib ring id fun _ => .refl _).rootFromSlice raw 1 [key] = .ok root := hv
  have hk : filterKeys root.keys root.root.keyIds = [key] := by decide +kernel
  have hv' : verifySignatures (jsonEnv lib ring id fun _ => .refl _)
    (jsonEnv lib ring id fun _ => .refl _).rootFromSlice raw root.root.threshold
    (filterKeys root.keys root.root.keyIds) = .ok root := by rw [hk]; exact hv
  simp only [Tuf.fromRootWithTrustedKeys, hv, hv']
  rfl

theorem served : Serves world file := toy_serves _ _ _ _ fun _ _ => rfl

theorem roots : Roots (jsonEnv lib ring id fun _ => .refl _) (Config.default true) file client.tuf.root
    root := .last root (by decide +kernel) (by decide +kernel)

theorem notAhead : NotAhead (jsonEnv lib ring id fun _ => .refl _) client.tuf root ta sta sn ssn ts sts :=
  ⟨fun _ _ h => (nomatch h), fun _ h => (nomatch h), fun _ h => (nomatch h)⟩

theorem clock : Before world root.expires ∧ Before world ts.expires ∧ Before world sn.expires ∧
    Before world ta.expires :=
  ⟨fun _ _ => (by decide : (0 : Int) < 1), fun _ _ => (by decide : (0 : Int) < 1),
      fun _ _ => (by decide : (0 : Int) < 1), fun _ _ => (by decide : (0 : Int) < 1)⟩

theorem last_call : LastAbout TargetsCall.path? targetsCalls "x/y".toList
    (.target "x/y".toList source [.sha256, .sha512]) := by
  refine ⟨[.target "x/y".toList [.data [9]] [.sha256], .version 7, .delegations delegations],
    [.expires 1, .description "w".toList ⟨0, hashes, some custom⟩], rfl, rfl, ?_⟩
  intro c hc
  simp only [List.mem_cons, List.not_mem_nil, or_false] at hc
  rcases hc with rfl | rfl
  · exact fun h => nomatch h
  · decide +kernel

theorem target_name : TargetFile root (D (usedAlg [.sha256, .sha512]) content) "x/y".toList
    "x/0506.y".toList := by
  unfold TargetFile
  rw [if_pos (show root.consistentSnapshot = true from rfl)]
  exact ⟨by decide +kernel, ["x".toList], "y".toList, by decide +kernel, by decide +kernel⟩

theorem target_served : ServesTarget world "x/0506.y".toList content := by
  intro d w
  refine ⟨Toy.stream content, ?_, rfl⟩
  simp only [world, Toy.repos]
  rw [(by decide +kernel : Map.get? [("x/0506.y".toList, content)] "x/0506.y".toList = some content)]

/-- This client meets the hypotheses of the theorems of C78, and gets the content. -/
example : ∃ u s1 s2 l, update (jsonEnv lib ring id fun _ => .refl _) D world (Config.default true) client =
      (.ok u, s1) ∧
    exec (jsonEnv lib ring id fun _ => .refl _) D world (Config.default true)
      (.fetchTargetToWriter "x/y".toList) s1 = (.ok .done, s2) ∧
    s2.io.log = s1.io.log ++ l ∧ written l = content :=
  C78_released_target_is_delivered lib ring id (fun _ => .refl _) laws D world
    (Config.default true) file client root ta sta sn ssn ts sts release client_reachable served
    (fun _ _ _ _ => rfl) roots notAhead clock 0 targetsCalls taBuilder ta_calls ta_built
    "x/y".toList "x/0506.y".toList "x/y".toList source [.sha256, .sha512] content last_call
    (by decide +kernel) (by decide +kernel) (by decide +kernel) target_name target_served
    ⟨fun _ _ => rfl, fun _ => rfl⟩

end ReleaseExample

end RustTuf.Props
