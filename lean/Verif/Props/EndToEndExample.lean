import Verif.Props.NewClient
import Verif.Props.SigningExample
import Verif.Props.ReleaseExample
import Verif.Props.ClientRestart

/-!
# Example for C84 and C85
Root 3 is signed with an Ed25519 key and an RSA key, and replaced by root 4. A client is installed with
root 3 or its keys, and the author publishes a target. All dates have fractions of a second.
-/

namespace RustTuf.Props
open Spec RustTuf Formats Keys Json Client

namespace EndToEndExample
open SigningExample
open ReleaseExample (D content source bytesOf canonical_of)
open PublishExample (hashes custom description goodHashes goodDescription)

abbrev floats : FloatLib := ⟨fun _ => none⟩

theorem two {p : PublicKey} : p ∈ [edKey.pub, rsaKey.pub] ↔ p = edKey.pub ∨ p = rsaKey.pub := by simp

theorem pubs_ne : edKey.pub ≠ rsaKey.pub := fun e => apart (congrArg _ e)

theorem id_of_collide {k k' : PublicKey} (hk : GoodKey lib k) (hk' : GoodKey lib k')
    (h : Collide lib k k') : k.keyId = k'.keyId ∧ k ≠ k' := by
  obtain ⟨j, j', b, b', h1, h2, h3, h4, h5, h6⟩ := h
  have e := hk.id
  have e' := hk'.id
  unfold calculateKeyId at e e'
  simp only [h1, h2, h3, h4] at e e'
  refine ⟨Option.some.inj (e.symm.trans ?_), ?_⟩
  · rw [← e', h6]
  · rintro rfl
    rw [h1] at h2
    cases h2
    rw [h3] at h4
    cases h4
    exact h5 rfl

/-- The keys do not exhibit a collision, although the digest has many. -/
theorem no_collision : ∀ k ∈ [edKey.pub, rsaKey.pub], ∀ k' ∈ [edKey.pub, rsaKey.pub],
    ¬ Collide lib k k' := by
  intro k hk k' hk' h
  rcases two.1 hk with rfl | rfl <;> rcases two.1 hk' with rfl | rfl
  · exact (id_of_collide edGood.1 edGood.1 h).2 rfl
  · exact apart (id_of_collide edGood.1 rsaGood.1 h).1
  · exact apart (id_of_collide rsaGood.1 edGood.1 h).1.symm
  · exact (id_of_collide rsaGood.1 rsaGood.1 h).2 rfl

/-- Signing with both keys is enough for every threshold that these keys can reach. -/
theorem by_loaded {M : Type} {encode : M → Option Json} (decode : Json → Option M) {m : M} {j : Json}
    {msg : Bytes} (he : encode m = some j) (hc : Json.canonicalize j.toValue.1 = .ok msg)
    {ks : List PublicKey} {n : Nat} (hks : ks.Nodup) (hn : 1 ≤ n ∧ n ≤ ks.length)
    (hsub : ∀ k ∈ ks, k ∈ [edKey.pub, rsaKey.pub]) :
    SignedByLoaded ring floats digest encode decode m (signedAs j.toValue msg) ks n := by
  refine ⟨hn.1, j, keys, he, signedWith decode j.toValue msg hc,
    ⟨[edKey.pub, rsaKey.pub], ?_, no_collision, hsub, ?_⟩, ks, hks, hn.2, ?_⟩
  · intro k hk
    rcases two.1 hk with rfl | rfl
    · exact edGood.1
    · exact rsaGood.1
  · intro k hk
    simp only [keys, List.mem_cons, List.not_mem_nil, or_false] at hk
    rcases hk with rfl | rfl
    · exact ⟨_, by simp, rsaIs⟩
    · exact ⟨_, by simp, edIs⟩
  · intro p hp
    refine ⟨hp, ?_⟩
    rcases two.1 (hsub p hp) with rfl | rfl
    · exact ⟨_, .tail _ (.head _), edIs⟩
    · exact ⟨_, .head _, rsaIs⟩

/-! ### Roots -/

theorem root_built : BuiltRoot floats digest root where
  good := goodRoot
  keys := by
    intro p hp
    simp only [root, List.mem_cons, List.not_mem_nil, or_false] at hp
    rcases hp with rfl | rfl
    · exact ⟨edGood.2, edGood.1⟩
    · exact ⟨rsaGood.2, rsaGood.1⟩
  fits := ⟨by decide, by decide, by decide, by decide⟩
  date := ⟨by show -262144 ≤ (dateOf root.expires).year; decide +kernel, by decide +kernel⟩

/-- Only the Ed25519 key signs roots; both sign the rest. -/
def alone : RoleDefinition := ⟨1, [edKey.pub.keyId]⟩

def root4 : RootMetadata := { root with version := 4, root := alone }

theorem root4_built : BuiltRoot floats digest root4 where
  good := { goodRoot with
    version := ⟨by decide, by decide⟩
    root := ⟨by decide, by decide, by simp [root4, alone], by
      intro i hi
      rw [List.mem_singleton.1 hi]
      exact edGood.2⟩ }
  keys := root_built.keys
  fits := ⟨by decide, by decide, by decide, by decide⟩
  date := root_built.date

def encoded4 : Json := (encodeRoot lib root4).getD .null
theorem encoded4_eq : encodeRoot lib root4 = some encoded4 := by decide +kernel

/-- Signed with both keys. -/
def sign (j : Json) : SignedMetadata JsonValue :=
  signedAs j.toValue (bytesOf (Json.canonicalize j.toValue.1))

theorem both_keys : keysFor root.keys both.keyIds = [edKey.pub, rsaKey.pub] := by decide +kernel
theorem alone_keys : keysFor root.keys alone.keyIds = [edKey.pub] := by decide +kernel

theorem by_both {M : Type} {encode : M → Option Json} (decode : Json → Option M) {m : M} {j : Json}
    (he : encode m = some j) (hc : (Json.canonicalize j.toValue.1).isOk = true) :
    SignedByLoaded ring floats digest encode decode m (sign j) (keysFor root.keys both.keyIds) 2 := by
  refine by_loaded decode he (canonical_of hc) ?_ ⟨by decide, ?_⟩ ?_
  all_goals rw [both_keys]
  · simp [pubs_ne]
  · decide
  · exact fun _ h => h

theorem by_one {M : Type} {encode : M → Option Json} (decode : Json → Option M) {m : M} {j : Json}
    (he : encode m = some j) (hc : (Json.canonicalize j.toValue.1).isOk = true) :
    SignedByLoaded ring floats digest encode decode m (sign j) (keysFor root.keys alone.keyIds) 1 := by
  refine by_loaded decode he (canonical_of hc) ?_ ⟨by decide, ?_⟩ ?_
  all_goals rw [alone_keys]
  · simp
  · decide
  · intro k hk
    rw [List.mem_singleton.1 hk]
    simp

/-! ### Targets -/

/-- 1 January 2020, some fraction of a second after midnight. -/
def soon : Time := 737425 * 86400 * second + 250000001

def delegation : Delegation := ⟨"b".toList, true, 1, [rsaKey.pub.keyId], ["y/".toList, "x/z".toList]⟩
def delegations : Delegations := ⟨[(rsaKey.pub.keyId, rsaKey.pub)], [delegation]⟩

def targetsCalls : List TargetsCall :=
  [.target "x/y".toList [.data [9]] [.sha256], .version 7, .delegations delegations,
    .target "x/y".toList source [.sha256, .sha512], .expires soon,
    .description "w".toList ⟨0, hashes, some custom⟩]

def ta : TargetsMetadata :=
  ⟨7, soon, [("w".toList, ⟨0, hashes, some custom⟩),
    ("x/y".toList, ⟨4, [(.sha512, [5, 6]), (.sha256, [5, 6])], none⟩)], some delegations⟩

def taBuilder : TargetsBuilder := ⟨ta.version, ta.expires, ta.targets, ta.delegations⟩

theorem ta_calls : (TargetsBuilder.new 0).calls D targetsCalls = .ok taBuilder := by decide +kernel
theorem ta_built : taBuilder.build = .ok ta := by decide +kernel

theorem ta_fits : ∀ c ∈ targetsCalls, TargetsCall.Fits c := by
  intro c hc
  simp only [targetsCalls, List.mem_cons, List.not_mem_nil, or_false] at hc
  rcases hc with rfl | rfl | rfl | rfl | rfl | rfl
  · exact ⟨by decide +kernel, by decide +kernel⟩
  · exact (by decide : 7 < 2 ^ 32)
  · trivial
  · exact ⟨by decide +kernel, by decide +kernel⟩
  · trivial
  · refine ⟨by decide +kernel, ⟨by decide, goodHashes⟩, ?_⟩
    intro c hc
    cases hc
    decide +kernel

theorem ta_delegations : ∀ d, ta.delegations = some d → GoodDelegations d ∧
    (∀ p ∈ d.keys, IsKeyId p.1 ∧ GoodKey lib p.2) ∧
    ∀ r ∈ d.roles, r.threshold < 2 ^ 32 ∧ MetadataPath.new r.role = .ok r.role ∧
      ∀ p ∈ r.paths, VirtualTargetPath.new p = .ok p := by
  intro d hd
  cases hd
  refine ⟨?_, ?_, ?_⟩
  · refine (C77_delegations [(rsaKey.pub.keyId, rsaKey.pub)] [delegation] delegations
      (by decide +kernel) (by simp) ?_).2
    intro r hr
    rw [List.mem_singleton.1 hr]
    exact ⟨"b".toList, true, 1, [rsaKey.pub.keyId], ["y/".toList, "x/z".toList], by decide +kernel,
      by simp, fun i hi => by rw [List.mem_singleton.1 hi]; exact rsaGood.2, by decide +kernel⟩
  · intro p hp
    rw [List.mem_singleton.1 hp]
    exact ⟨rsaGood.2, rsaGood.1⟩
  · intro r hr
    rw [List.mem_singleton.1 hr]
    decide +kernel

def jta : Json := (encodeTargets lib ta).getD .null
def sta : SignedMetadata JsonValue := sign jta
theorem jta_eq : encodeTargets lib ta = some jta := by decide +kernel

/-! ### Snapshot and timestamp -/

def snapshotCalls : List SnapshotCall :=
  [.description "targets".toList description, .version 2, .expires soon,
    .metadata "targets".toList sta [.sha256], .version 6, .description "b".toList description]

def sn : SnapshotMetadata :=
  ⟨6, soon, [("b".toList, description), ("targets".toList,
    ⟨7, (bytesOf sta.toRaw).length, [(.sha256, (bytesOf sta.toRaw).take 2)]⟩)]⟩

def snBuilder : SnapshotBuilder := ⟨6, soon, sn.metas⟩

theorem sn_calls : (SnapshotBuilder.new 0).calls D snapshotCalls = .ok snBuilder := by decide +kernel
theorem sn_built : snBuilder.build = .ok sn := by decide +kernel

theorem sn_fits : ∀ c ∈ snapshotCalls, SnapshotCall.Fits c := by
  intro c hc
  simp only [snapshotCalls, List.mem_cons, List.not_mem_nil, or_false] at hc
  rcases hc with rfl | rfl | rfl | rfl | rfl | rfl
  · exact ⟨by decide +kernel, goodDescription⟩
  · exact (by decide : 2 < 2 ^ 32)
  · trivial
  · trivial
  · exact (by decide : 6 < 2 ^ 32)
  · exact ⟨by decide +kernel, goodDescription⟩

def jsn : Json := (encodeSnapshot lib sn).getD .null
def ssn : SignedMetadata JsonValue := sign jsn
theorem jsn_eq : encodeSnapshot lib sn = some jsn := by decide +kernel

def ssnDescription : MetadataDescription :=
  ⟨6, (bytesOf ssn.toRaw).length,
    [(.sha256, (bytesOf ssn.toRaw).take 2), (.sha512, (bytesOf ssn.toRaw).take 2)]⟩

def ts : TimestampMetadata := ⟨5, soon, ssnDescription⟩

theorem ts_from : TimestampBuilder.fromSnapshot D 0 ssn [.sha512, .sha256] =
    .ok ⟨1, 0, ssnDescription⟩ := by decide +kernel
theorem ts_built : (TimestampBuilder.calls ⟨1, 0, ssnDescription⟩ [.version 5, .expires soon]).build =
    .ok ts := by decide +kernel

theorem ts_fits : ∀ c ∈ [TimestampCall.version 5, .expires soon], TimestampCall.Fits c := by
  intro c hc
  simp only [List.mem_cons, List.not_mem_nil, or_false] at hc
  rcases hc with rfl | rfl
  · exact (by decide : 5 < 2 ^ 32)
  · trivial

def jts : Json := (encodeTimestamp lib ts).getD .null
def sts : SignedMetadata JsonValue := sign jts
theorem jts_eq : encodeTimestamp lib ts = some jts := by decide +kernel

/-! ### Uploading -/

def files : Map (MetadataPath × MetadataVersion) Bytes :=
  [(("timestamp".toList, .none), bytesOf sts.toRaw),
    (("snapshot".toList, .number 6), bytesOf ssn.toRaw),
    (("targets".toList, .number 7), bytesOf sta.toRaw),
    (("root".toList, .number 3), bytesOf (sign encoded).toRaw),
    (("root".toList, .number 4), bytesOf (sign encoded4).toRaw)]

def file : Files := fun p v => files.get? (p, v)

theorem date_soon : Datable soon := ⟨by show -262144 ≤ (dateOf soon).year; decide +kernel, by decide +kernel⟩

theorem uploaded {p : MetadataPath} {v : MetadataVersion} {sm : SignedMetadata JsonValue} {raw : Bytes}
    (h1 : file p v = some (bytesOf sm.toRaw)) (h : sm.toRaw = .ok raw) : file p v = some raw := by
  rw [h1, h]
  rfl

theorem not_longer {sm : SignedMetadata JsonValue} {raw : Bytes} {n : Nat}
    (h1 : (bytesOf sm.toRaw).length ≤ 18446744073709551615) (h2 : (bytesOf sm.toRaw).length ≤ n)
    (h : sm.toRaw = .ok raw) : NotLonger (some n) raw := by
  rw [h] at h1 h2
  exact ⟨h1, fun _ hn => by cases hn; exact h2⟩

theorem root_file (raw : Bytes) (h : (sign encoded).toRaw = .ok raw) :
    file "root".toList (.number 3) = some raw ∧ NotLonger (Config.default true).maxRootLength raw :=
  ⟨uploaded (by decide +kernel) h, not_longer (by decide +kernel) (by decide +kernel) h⟩

/-- Hypothesis of the theorems of C84 and C85. -/
theorem release : FullRelease ring floats digest D (Config.default true) file root4 targetsCalls ta sta sn
    ssn ts sts where
  targets := ⟨0, taBuilder, ta_calls, ta_built⟩
  targetsFit := ta_fits
  targetsDate := date_soon
  delegations := ta_delegations
  shallow := by
    intro p hp c hc
    simp only [ta, List.mem_cons, List.not_mem_nil, or_false] at hp
    rcases hp with rfl | rfl
    · cases hc
      decide +kernel
    · cases hc
  targetsSigned := by_both _ jta_eq (by decide +kernel)
  snapshot := ⟨0, snapshotCalls, snBuilder, [.sha256], sn_calls, sn_built, sn_fits,
    [.description "targets".toList description, .version 2, .expires soon],
    [.version 6, .description "b".toList description], rfl, rfl, by
      intro c hc
      simp only [List.mem_cons, List.not_mem_nil, or_false] at hc
      rcases hc with rfl | rfl
      · exact fun h => nomatch h
      · decide +kernel⟩
  snapshotDate := date_soon
  snapshotSigned := by_both _ jsn_eq (by decide +kernel)
  timestamp := ⟨0, [.sha512, .sha256], _, [.version 5, .expires soon], ts_from, ts_built, ts_fits⟩
  timestampDate := date_soon
  timestampSigned := by_both _ jts_eq (by decide +kernel)
  targetsFile raw h := uploaded (by decide +kernel) h
  snapshotFile raw h := uploaded (by decide +kernel) h
  timestampFile raw h :=
    ⟨uploaded (by decide +kernel) h, not_longer (by decide +kernel) (by decide +kernel) h⟩

theorem rotations : Rotations ring floats digest (Config.default true) file root root4 :=
  .next root root4 root4 (sign encoded4) root4_built rfl (by_both _ encoded4_eq (by decide +kernel))
    (by_one _ encoded4_eq (by decide +kernel))
    (fun _ h => ⟨uploaded (by decide +kernel) h, not_longer (by decide +kernel) (by decide +kernel) h⟩)
    (.last root4 (by decide) (by decide +kernel))

/-! ### Installing -/

def world : World Toy.Disk := Toy.repos files [("x/0506.y".toList, content)] 0

def rootRaw : Bytes := bytesOf (sign encoded).toRaw

theorem rootRaw_eq : (sign encoded).toRaw = .ok rootRaw := by decide +kernel

theorem with_root : Installs ring floats digest (Config.default true) file root (.trustedRoot rootRaw) :=
  .root (sign encoded) rootRaw (by_both _ encoded_eq (by decide +kernel)) rootRaw_eq

theorem with_keys : Installs ring floats digest (Config.default true) file root
    (.trustedRootKeys (.number 3) 2 [rsaKey.pub, edKey.pub]) :=
  .keys (sign encoded) (.number 3) 2 [rsaKey.pub, edKey.pub]
    (by_loaded _ encoded_eq (canonical_of (by decide +kernel)) (by simp [pubs_ne.symm]) (by decide)
      (by simp))
    (by_both _ encoded_eq (by decide +kernel)) root_file

theorem last_call : LastAbout TargetsCall.path? targetsCalls "x/y".toList
    (.target "x/y".toList source [.sha256, .sha512]) := by
  refine ⟨[.target "x/y".toList [.data [9]] [.sha256], .version 7, .delegations delegations],
    [.expires soon, .description "w".toList ⟨0, hashes, some custom⟩], rfl, rfl, ?_⟩
  intro c hc
  simp only [List.mem_cons, List.not_mem_nil, or_false] at hc
  rcases hc with rfl | rfl
  · exact fun h => nomatch h
  · decide +kernel

theorem target_name : TargetFile root4 (D (usedAlg [.sha256, .sha512]) content) "x/y".toList
    "x/0506.y".toList := by
  unfold TargetFile
  rw [if_pos (show root4.consistentSnapshot = true from rfl)]
  exact ⟨by decide +kernel, ["x".toList], "y".toList, by decide +kernel, by decide +kernel⟩

theorem before (t : Time) (h : 0 < t) : Before world t := fun _ _ => h

theorem clock : Before world (wholeSecond root4.expires) ∧ Before world (wholeSecond ts.expires) ∧
    Before world (wholeSecond sn.expires) ∧ Before world (wholeSecond ta.expires) :=
  ⟨before _ (by decide +kernel), before _ (by decide +kernel), before _ (by decide +kernel),
    before _ (by decide +kernel)⟩

theorem target_here : ServesTarget world "x/0506.y".toList content := by
  intro d w
  refine ⟨Toy.stream content, ?_, rfl⟩
  simp only [world, Toy.repos]
  rw [(by decide +kernel : Map.get? [("x/0506.y".toList, content)] "x/0506.y".toList = some content)]

/-- Installed either way, the client gets the content. -/
theorem delivered_for (start : Start)
    (h : Installs ring floats digest (Config.default true) file root start) :
    ∃ t io' u s1 s2 l,
      construct (jsonEnv lib verify id fun _ => .refl _) D world (Config.default true) start
        ⟨Toy.Disk.empty, []⟩ = (.ok t, io') ∧
      update (jsonEnv lib verify id fun _ => .refl _) D world (Config.default true) ⟨t, io'⟩ =
        (.ok u, s1) ∧
      exec (jsonEnv lib verify id fun _ => .refl _) D world (Config.default true)
        (.fetchTargetToWriter "x/y".toList) s1 = (.ok .done, s2) ∧
      s2.io.log = s1.io.log ++ l ∧ written l = content :=
  C85_new_client_gets_target ring verify floats digest id (fun _ => .refl _) law digest_length D world
    (Config.default true) (toy_faithful _ _ _) file (toy_serves _ _ _ _ fun _ _ => rfl) root root4
    root_built rotations targetsCalls ta sta sn ssn ts sts release clock "x/y".toList
    "x/0506.y".toList "x/y".toList source [.sha256, .sha512] content last_call (by decide +kernel)
    (by decide +kernel) (by decide +kernel) target_name target_here ⟨fun _ _ => rfl, fun _ => rfl⟩
    start h ⟨Toy.Disk.empty, []⟩ (fun _ _ => rfl)

-- All hypotheses of the theorems of C85, and with them of C84.
example := delivered_for _ with_root
example := delivered_for _ with_keys

end EndToEndExample

end RustTuf.Props
