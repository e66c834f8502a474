import Verif.Conformance.ClientTests
import Verif.Conformance.Documents
import Verif.Model.Bitrate
import Verif.Model.Http

/-!
# The unit tests of src/metadata.rs, src/crypto.rs, src/tuf.rs, src/util.rs, src/interchange/cjson/mod.rs,
src/repository.rs and src/repository/*.rs, run against the model
Not ported: tests of traits like `Hash`, tests that make random keys, tests that sign with RSA keys.
`assert_eq!` on decoded metadata becomes equality of the encodings.
-/

namespace RustTuf.Conformance.UnitTests

open ClientTests

/-- `json!(...)`. -/
def json (s : String) : Test Json :=
  match parseText ⟨fun _ => none⟩ s.toList with
  | .ok j => .ok j.normal
  | .error _ => .error "no JSON"

def fails {α : Type} (r : Except Err α) : Bool := r.toOption.isNone
def none? {α : Type} (r : Option α) : Bool := r.isNone

/-- Encoding gives the document, decoding and encoding gives it again. -/
def roundTrip {M : Type} (encode : M → Option Json) (decode : Json → Option M) (m : M) (doc : String) :
    Test Unit := do
  let j ← json doc
  check "encoding" ((encode m).map Json.normal == some j)
  check "decoding" (((decode j).bind encode).map Json.normal == some j)

/-- The document can be decoded, and encoding gives it again. -/
def stable {M : Type} (encode : M → Option Json) (decode : Json → Option M) (doc : String) : Test Unit := do
  let j ← json doc
  check "decoding" (((decode j).bind encode).map Json.normal == some j)

/-- `insert` on an object. -/
def set (j : Json) (k : String) (v : Json) : Json :=
  match j with
  | .obj m => .obj (m.filter (fun p => p.1 != k.toList) ++ [(k.toList, v)])
  | j => j

/-- Apply a function to a member of an object. -/
def modify (j : Json) (k : String) (f : Json → Json) : Json :=
  match j with
  | .obj m => .obj (m.map fun p => if p.1 == k.toList then (p.1, f p.2) else p)
  | j => j

/-- Repeat the first element of an array. -/
def repeatFirst : Json → Json
  | .arr (x :: l) => .arr (x :: l ++ [x])
  | j => j

def y2017 : Time := date "2017-01-01T00:00:00Z"

def rootBuilder (t : Time) : Test RootBuilder := do
  return ((((RootBuilder.new soon).setExpires t).addKey .root (← key 1).pub).addKey .snapshot
    (← key 2).pub).addKey .targets (← key 3).pub |>.addKey .timestamp (← key 4).pub

def emptyHash : MetadataDescription := ⟨1, 100, [(.sha256, [])]⟩

/-! ### src/metadata.rs -/

def noPardir : Test Unit := do
  for p in ["..", "../some/path", "../some/path/", "some/../path", "some/../path/.."] do
    check p (fails (safePath p.toList) && fails (TargetPath.new p.toList) &&
      fails (MetadataPath.new p.toList) && fails (VirtualTargetPath.new p.toList))

def pathMatchesChain : Test Unit := do
  let cases : List (Bool × String × List (List String)) := [
    (true, "foo", [["foo"]]), (true, "foo", [["foo"], ["foo"]]), (false, "foo", [["foo/"]]),
    (false, "foo", [["foo"], ["bar"]]), (true, "foo/bar", [["foo/"], ["foo/bar"]]),
    (false, "foo/bar", [["baz/"], ["foo/bar"]]),
    (false, "foo/bar/baz", [["foo/"], ["foo/quux/"], ["foo/bar/baz"]]),
    (false, "foo", [[]]), (false, "foo", [[], ["foo"]]), (false, "foo", [["foo"], []])]
  for (expected, target, parents) in cases do
    check target (matchesChain target.toList (parents.map (·.map String.toList)) == expected)

def serdeTargetDescription : Test Unit := do
  let d ← get "description" (TargetDescription.fromReader digest (text "from water does all life begin") [.sha256])
  roundTrip encodeTargetDescription decodeTargetDescription d Documents.targetDescription

def serdeRoleDefinition : Test Unit := do
  let ids := ["40e35e8f6003ab90d104710cf88901edab931597401f91c19eeb366060ab3d53",
    "01892c662c8cd79fab20edec21de1dcb8b75d9353103face7fe086ff5c0098e4",
    "4750eaf6878740780d6f97b12dbad079fb012bec88c78de2c380add56d3f51db"].map String.toList
  let r ← get "role" (RoleDefinition.new 3 ids)
  roundTrip (some ∘ encodeRoleDefinition) decodeRoleDefinition r Documents.roleDefinition
  check "zero" (none? (decodeRoleDefinition (← json Documents.roleZero)))
  check "negative" (none? (decodeRoleDefinition (← json Documents.roleNegative)))

def serdeRoot : Test Unit := do
  let r ← get "root" (← rootBuilder y2017).build
  roundTrip (encodeRoot lib) (decodeRoot lib) r Documents.root
  stable (encodeRoot lib) (decodeRoot lib) Documents.rootOld
  let wrong := Documents.rootOld.replace "12435b260b6172bd750aeb102f54a347c56b109e0524ab1f144593c07af66356"
    "00435b260b6172bd750aeb102f54a347c56b109e0524ab1f144593c07af66356"
  match decodeRoot lib (← json wrong) with
  | some r => check "three keys" (r.keys.length == 3)
  | none => .error "wrong key ID"

def verifyWith {M : Type} (decode : Json → Option M) (raw : Bytes) (n : Nat) : Test (Except Err Unit) := do
  return (verifySignatures env (fromSlice lib.float decode) raw n [(← key 1).pub]).map fun _ => ()

def signedRoot : Test Unit := do
  let j ← json Documents.rootOld
  let some r := decodeRoot lib j | .error "root"
  let raw ← get "raw" (← get "signed" (SignedMetadata.ofMetadata (encodeRoot lib) r (← key 1).private)).toRaw
  check "own" (is (← verifyWith (decodeRoot lib) raw 1) (.ok ()))
  let sig : Signature := ⟨"a9f3ebc9b138762563a9c27b6edd439959e559709babd123e8d449ba2c18c61a".toList, hex (
    "c4ba838e0d3f783716393a4d691f568f840733ff488bb79ac68287e97e0b31d6" ++
    "3fcef392dbc978e878c2103ba231905af634cc651d6f0e63a35782d051ac6e00")⟩
  let raw ← get "raw" (SignedMetadata.toRaw ⟨[sig], j.toValue⟩)
  check "serialized" (is (← verifyWith (decodeRoot lib) raw 1) (.ok ()))
  let raw ← get "raw" (SignedMetadata.toRaw ⟨[sig, sig], j.toValue⟩)
  check "duplicate, 2" (is (← verifyWith (decodeRoot lib) raw 2) (.error .verification))
  check "duplicate, 1" (is (← verifyWith (decodeRoot lib) raw 1) (.ok ()))

def makeRoot : Test Json := do
  match encodeRoot lib (← get "root" (← rootBuilder y2038).build) with
  | some j => return j
  | none => .error "encoding"

def makeSnapshot : Test Json := do
  match encodeSnapshot lib (← get "snapshot" ((SnapshotBuilder.new soon).setExpires y2038).build) with
  | some j => return j
  | none => .error "encoding"

def makeTimestamp : Test Json := do
  let d ← get "description" (MetadataDescription.fromReader digest (sliceReader []) 1 [.sha256])
  match encodeTimestamp lib (← get "timestamp" ((TimestampBuilder.fromDescription soon d).setExpires
      y2017).build) with
  | some j => return j
  | none => .error "encoding"

def makeTargets : Test Json := do
  match encodeTargets lib (← get "targets" ((TargetsBuilder.new soon).setExpires y2038).build) with
  | some j => return j
  | none => .error "encoding"

/-- `verify_signature_with_unknown_fields`. -/
def unknownFields {M : Type} (decode : Json → Option M) (j : Json) : Test Unit := do
  let X : Interchange JsonValue :=
    ⟨fun v => Json.canonicalize v.1, fun v => (fromValue decode v.1).map fun _ => ()⟩
  let k := (← key 1).private
  let make (j : Json) : Test (SignedMetadata JsonValue) := do
    let b ← get "builder" (SignedBuilder.fromRawMetadata X j.toValue)
    return (← get "sign" (b.sign k)).build
  let verify (m : SignedMetadata JsonValue) : Test (Except Err Unit) := do
    verifyWith decode (← get "raw" m.toRaw) 1
  let standard ← make j
  let custom ← make (set j "custom" (← json r#"{"metadata": ["please", "sign", "me"], "this-too": 42}"#))
  check "standard" (is (← verify standard) (.ok ()))
  check "custom" (is (← verify custom) (.ok ()))
  check "added" (is (← verify { standard with metadata := custom.metadata }) (.error .verification))
  check "removed" (is (← verify { custom with metadata := standard.metadata }) (.error .verification))

def serdeTimestamp : Test Unit := do
  let m ← get "timestamp" ((TimestampBuilder.fromDescription soon emptyHash).setExpires y2017).build
  roundTrip (encodeTimestamp lib) (decodeTimestamp lib) m Documents.timestamp
  check "missing" (none? (decodeTimestamp lib (← json Documents.timestampMissing)))
  check "extra" (none? (decodeTimestamp lib (← json Documents.timestampExtra)))

def snapshot2017 : Test SnapshotMetadata := do
  get "snapshot" (((SnapshotBuilder.new soon).setExpires y2017).insertDescription
    (← get "path" (MetadataPath.new "targets".toList)) emptyHash).build

def serdeSnapshot : Test Unit := do
  roundTrip (encodeSnapshot lib) (decodeSnapshot lib) (← snapshot2017) Documents.snapshot

def serdeTargets : Test Unit := do
  let d ← get "foo" (TargetDescription.fromReader digest (text "foo") [.sha256])
  let d1 ← get "bar" (TargetDescription.fromReaderWithCustom digest (text "foo") [.sha256] [])
  let d2 ← get "baz" (TargetDescription.fromReaderWithCustom digest (text "foo") [.sha256]
    [("foo".toList, .int 1), ("bar".toList, .str "baz".toList)])
  let b := ((((TargetsBuilder.new soon).setExpires y2017).insertDescription "foo".toList d).insertDescription
    "bar".toList d1).insertDescription "baz".toList d2
  roundTrip (encodeTargets lib) (decodeTargets lib) (← get "targets" b.build) Documents.targets
  let ds ← delegations [("foo/bar", 1, "baz/quux")] [1]
  let m ← get "targets" (((TargetsBuilder.new soon).setExpires y2017).setDelegations ds).build
  roundTrip (encodeTargets lib) (decodeTargets lib) m Documents.targetsDelegating

def serdeSigned : Test Unit := do
  let s ← get "signed" (SignedMetadata.ofMetadata (encodeSnapshot lib) (← snapshot2017) (← key 1).private)
  roundTrip (fun m => some (encodeSigned m)) (fun j => (decodeSigned j).map fun p => ⟨p.1, p.2.toValue⟩) s
    Documents.signedSnapshot

/-- Documents of this kind that must not be decoded. -/
def rejected {M : Type} (decode : Json → Option M) (j : Json) (duplicate : Option String) (wrongType : String) :
    Test Unit := do
  check "legal" ((decode j).isSome)
  check "version 0" (none? (decode (set j "version" (.int 0))))
  check "version -1" (none? (decode (set j "version" (.int (-1)))))
  check "type" (none? (decode (set j "_type" (.str wrongType.toList))))
  check "spec version" (none? (decode (set j "spec_version" (.str "0".toList))))
  if let some d := duplicate then
    check "duplicate" (fails (fromSlice lib.float decode (utf8 d.toList)))

def illegalRoles : Test Unit := do
  let k1 := (← key 1).pub.keyId
  let k2 := (← key 2).pub.keyId
  let r := encodeRoleDefinition (← get "role" (RoleDefinition.new 1 [k1]))
  check "legal" ((decodeRoleDefinition r).isSome)
  check "threshold 0" (none? (decodeRoleDefinition (set r "threshold" (.int 0))))
  check "threshold -1" (none? (decodeRoleDefinition (set r "threshold" (.int (-1)))))
  check "duplicate" (none? (decodeRoleDefinition (modify r "keyids" repeatFirst)))
  let r := encodeRoleDefinition (← get "role" (RoleDefinition.new 2 [k1, k2]))
  check "threshold 3" (none? (decodeRoleDefinition (set r "threshold" (.int 3))))

def illegalDelegations : Test Unit := do
  let ds ← delegations [("foo", 1, "bar")] [1]
  let some j := encodeDelegations lib ds | .error "encoding"
  check "legal" ((decodeDelegations lib j).isSome)
  check "no keys" (none? (decodeDelegations lib (set j "keys" (.obj []))))
  check "no roles" (none? (decodeDelegations lib (set j "roles" (.arr []))))
  check "role twice" (none? (decodeDelegations lib (modify j "roles" repeatFirst)))
  check "key twice" (fails (fromSlice lib.float (decodeDelegations lib)
    (utf8 Documents.delegationsDuplicate.toList)))
  let [d] := ds.roles | .error "one role"
  let j := encodeDelegation d
  check "legal" ((decodeDelegation j).isSome)
  check "threshold 0" (none? (decodeDelegation (set j "threshold" (.int 0))))
  check "threshold 2" (none? (decodeDelegation (set j "threshold" (.int 2))))
  check "key ID twice" (none? (decodeDelegation (modify j "keyids" repeatFirst)))
  check "path twice" (none? (decodeDelegation (modify j "paths" repeatFirst)))

/-! ### src/tuf.rs -/

def rootFor (version : Nat) (keys : List Nat) (signers : List Nat) : Test Bytes := do
  let [k1, k2, k3, k4] ← keys.mapM key | .error "four keys"
  let b := (((((RootBuilder.new soon).setVersion version).addKey .root k1.pub).addKey .snapshot
    k2.pub).addKey .targets k3.pub).addKey .timestamp k4.pub
  let first :: rest ← signers.mapM key | .error "a signer"
  let mut s ← sign (encodeRoot lib) b.build first
  for k in rest do
    let (r, s') := s.addSignature ⟨fun v => Json.canonicalize v.1, fun _ => .ok ()⟩ k.private
    get "add_signature" r
    s := s'
  get "raw" s.toRaw

def rootTrustedKeys : Test Unit := do
  let raw ← rootFor 1 [1, 1, 1, 1] [1]
  check "success" (!fails (Tuf.fromRootWithTrustedKeys env raw 1 [(← key 1).pub]))
  check "failure" (is ((Tuf.fromRootWithTrustedKeys env raw 1 [(← key 2).pub]).map fun _ => ())
    (.error .verification))

def rootRotation : Test Unit := do
  let t ← get "tuf" (Tuf.fromTrustedRoot env (← rootFor 1 [1, 1, 1, 1] [1]))
  let raw ← rootFor 2 [2, 2, 2, 2] [2, 1]
  let (o, t') := t.updateRoot env raw
  check "good" (is o (.ok ()))
  check "again" (is (t'.updateRoot env raw).1 (.error .verification))
  check "no cross sign" (fails (t.updateRoot env (← rootFor 1 [2, 2, 2, 2] [2])).1)

/-- A root, targets, a snapshot and a timestamp; versions and signers of the last three. -/
def published (keys : List Nat) (targets : Option (Nat × Nat)) (snapshot : Nat × Nat) (timestamp : Nat) :
    Test (Tuf × Bytes × Bytes × Bytes) := do
  let t ← get "tuf" (Tuf.fromTrustedRoot env (← rootFor 1 keys [1]))
  let mut b := (SnapshotBuilder.new soon).setVersion snapshot.1
  let mut raw := []
  if let some (v, k) := targets then
    let s ← sign (encodeTargets lib) ((TargetsBuilder.new soon).setVersion v).build (← key k)
    raw ← get "raw" s.toRaw
    b ← get "insert" (b.insert digest .targets s [.sha256])
  let sn ← sign (encodeSnapshot lib) b.build (← key snapshot.2)
  let tb ← get "from_snapshot" (TimestampBuilder.fromSnapshot digest soon sn [.sha256])
  let ts ← sign (encodeTimestamp lib) tb.build (← key timestamp)
  return (t, raw, ← get "raw" sn.toRaw, ← get "raw" ts.toRaw)

def clk : Clock := fun _ => now

def timestampUpdate : Test Unit := do
  let (t, _, _, ts) ← published [1, 2, 2, 2] none (1, 2) 2
  let (o, t') := t.updateTimestamp env clk ts
  check "good" ((o.toOption.bind id).isSome)
  check "again" ((t'.updateTimestamp env clk ts).1.toOption == some none)
  let (t, _, _, ts) ← published [1, 2, 2, 2] none (1, 2) 1
  check "wrong key" (fails (t.updateTimestamp env clk ts).1)

def snapshotUpdate : Test Unit := do
  let (t, _, sn, ts) ← published [1, 2, 3, 3] none (1, 2) 3
  let t := (t.updateTimestamp env clk ts).2
  let (o, t') := t.updateSnapshot env clk sn
  check "good" (is o (.ok true))
  check "again" (is (t'.updateSnapshot env clk sn).1 (.ok false))
  let (t, _, sn', ts) ← published [1, 2, 3, 3] none (1, 3) 3
  check "wrong key" (fails ((t.updateTimestamp env clk ts).2.updateSnapshot env clk sn').1)
  let (t, _, _, ts) ← published [1, 2, 3, 3] none (2, 3) 3
  check "wrong version" (fails ((t.updateTimestamp env clk ts).2.updateSnapshot env clk sn).1)

def targetsUpdate : Test Unit := do
  let upTo (t : Tuf) (ts sn : Bytes) : Tuf := ((t.updateTimestamp env clk ts).2.updateSnapshot env clk sn).2
  let (t, ta, sn, ts) ← published [1, 2, 3, 4] (some (1, 3)) (1, 2) 4
  let (o, t') := (upTo t ts sn).updateTargets env clk ta
  check "good" (is o (.ok true))
  check "again" (is (t'.updateTargets env clk ta).1 (.ok false))
  let (t, ta', sn, ts) ← published [1, 2, 3, 4] (some (1, 4)) (1, 2) 4
  check "wrong key" (fails ((upTo t ts sn).updateTargets env clk ta').1)
  let (t, _, sn, ts) ← published [1, 2, 3, 4] (some (2, 3)) (1, 2) 4
  check "wrong version" (fails ((upTo t ts sn).updateTargets env clk ta).1)

/-! ### src/util.rs -/

def readAllOf (bytes : Bytes) (max : Nat) (hash : HashData) : Option Bytes :=
  match SafeReader.new max hash with
  | .error _ => none
  | .ok s => (s.readToEnd digest (sliceReader bytes) []).toOption

def safeReader : Test Unit := do
  let small : Bytes := [0, 1, 2, 3]
  let large : Bytes := List.replicate (64 * 1024) 0
  for b in [small, large] do
    check "valid" (readAllOf b b.length none == some b)
    check "below" (readAllOf b (b.length + 1) none == some b)
    check "above" (readAllOf b (b.length - 1) none == none)
    check "good hash" (readAllOf b b.length (some (.sha256, sha256 b)) == some b)
    check "bad hash" (readAllOf b b.length (some (.sha256, sha256 (b ++ [0xff]))) == none)

/-! ### src/interchange/cjson/mod.rs -/

def writeJson : Test Unit := do
  let out (j : Json) : Option Bytes := (Json.canonicalize j).toOption
  let s (t : String) : Json := .str t.toList
  let b (t : String) : Option Bytes := some (utf8 t.toList)
  check "str" (out (s "wat") == b "\"wat\"")
  check "arr" (out (.arr [s "wat", s "lol", s "no"]) == b "[\"wat\",\"lol\",\"no\"]")
  check "obj" (out (.obj [("lol".toList, .arr [s "haha", s "new\nline"])]) ==
    b "{\"lol\":[\"haha\",\"new\\nline\"]}")

/-! ### src/repository/http.rs -/

def uriText (u : Uri) : String :=
  let pq := match u.pathAndQuery with
    | some (p, some q) => String.ofList p ++ "?" ++ String.ofList q
    | some (p, none) => String.ofList p
    | none => ""
  String.ofList (u.scheme.getD []) ++ "://" ++ String.ofList (u.authority.getD []) ++ pq

def uriConstruction : Test Unit := do
  let base : Uri := ⟨some "http".toList, some "example.com".toList, some ("/one".toList, none)⟩
  let query : Uri := { base with pathAndQuery := some ("/one".toList, some "test=1".toList) }
  let v6 : Uri := ⟨some "http".toList, some "[aaaa::aaaa:aaaa:aaaa:1234%252]:80".toList, some ("/".toList, none)⟩
  let cases : List (Uri × Option (List String) × List String × String) := [
    (base, some ["prefix"], ["components_one", "components_two"],
      "http://example.com/one/prefix/components_one/components_two"),
    (base, some ["prefix"], ["chars to encode#?"], "http://example.com/one/prefix/chars%20to%20encode%23%3F"),
    (base, some ["prefix"], [], "http://example.com/one/prefix"),
    (base, none, ["components_one", "components_two"], "http://example.com/one/components_one/components_two"),
    (query, none, ["components_one", "components_two"],
      "http://example.com/one/components_one/components_two?test=1"),
    (v6, some ["prefix"], ["componenents_one", "components_two"],
      "http://[aaaa::aaaa:aaaa:aaaa:1234%252]:80/prefix/componenents_one/components_two")]
  for (u, pre, comps, expected) in cases do
    let u ← get expected (extendUri u (pre.map (·.map String.toList)) (comps.map String.toList))
    check expected (uriText u == expected)

/-! ### src/crypto.rs -/

def signatures : Test Unit := do
  let k ← key 1
  let bad := (← key 2).pub
  let msg := utf8 "test".toList
  let sig ← get "sign" (k.private.sign msg)
  check "verify" (k.pub.verify env msg sig)
  check "wrong key" (!bad.verify env msg sig)
  let text (id : String) := "{\"keyid\": \"" ++ id ++ "\", \"sig\": \"" ++
    "fe4d13b2a73c033a1de7f5107b205fc7ba0e1566cb95b92349cae6aa4538956013bfe0f7bf977cb072bb65e8782b5f33" ++
    "a0573fe78816299a017ca5ba559e390c\"}"
  roundTrip (some ∘ encodeSignature) decodeSignature sig
    (text "a9f3ebc9b138762563a9c27b6edd439959e559709babd123e8d449ba2c18c61a")
  let k ← get "pair" (Keys.ed25519FromPair lib ring k.pair none)
  roundTrip (some ∘ encodeSignature) decodeSignature (← get "sign" (k.private.sign msg))
    (text "e0294a3f17cc8563c3ed5fceb3bd8d3f6bfeeaca499b5c9572729ae015566554")

def keyDocument (typ scheme : String) (algs : Bool) (pub : Str) : String :=
  "{\"keytype\": \"" ++ typ ++ "\", \"scheme\": \"" ++ scheme ++ "\"" ++
    (if algs then ", \"keyid_hash_algorithms\": [\"sha256\", \"sha512\"]" else "") ++
    ", \"keyval\": {\"public\": \"" ++ String.ofList pub ++ "\"}}"

/-- With the contents of tests/rsa/rsa-*.pk8.der, spki.der, pkcs1.der. -/
def rsaKeys (pk8 spki pkcs1 : Bytes) : Test Unit := do
  check "extract" (Keys.extractRsaPublic pk8 == some pkcs1)
  let some k := PublicKey.fromSpki lib spki .rsaSsaPssSha256 Keys.pythonAlgs | .error "spki"
  let some k' := PublicKey.fromSpki lib spki .rsaSsaPssSha512 Keys.pythonAlgs | .error "spki"
  check "type" (k.typ == .rsa && k.scheme == .rsaSsaPssSha256)
  check "different" (k != k')
  let pub := lib.base64Encode spki
  roundTrip (encodePublicKey lib) (decodePublicKey lib) k (keyDocument "rsa" "rsassa-pss-sha256" true pub)
  stable (encodePublicKey lib) (decodePublicKey lib) (keyDocument "rsa" "rsassa-pss-sha256" false pub)

/-- With the contents of tests/ed25519/ed25519-1, .pub, .pk8.der, .spki.der. -/
def ed25519Keys (pair pub pk8 spki : Bytes) : Test Unit := do
  let k1 ← key 1
  check "same key" (hex (pkcs8.headD "") == pk8)
  let some k := PublicKey.fromSpki lib spki .ed25519 Keys.pythonAlgs | .error "spki"
  check "type" (k.typ == .ed25519 && k.scheme == .ed25519 && k == k1.pub)
  let some k := PublicKey.fromEd25519 lib pub none | .error "pub"
  check "ID without" (k.keyId == "e0294a3f17cc8563c3ed5fceb3bd8d3f6bfeeaca499b5c9572729ae015566554".toList)
  let some ka := PublicKey.fromEd25519 lib pub Keys.pythonAlgs | .error "pub"
  check "ID with" (ka.keyId == "a9f3ebc9b138762563a9c27b6edd439959e559709babd123e8d449ba2c18c61a".toList)
  let priv ← get "pair" (Keys.ed25519FromBytes lib ring pair)
  check "pair" (priv.pub == k)
  let msg := utf8 "test".toList
  let sig ← get "sign" (priv.private.sign msg)
  check "verify" (k.verify env msg sig)
  check "as ring" (sig.value == ring.edSign k1.pair msg)
  check "wrong key" (!(← key 2).pub.verify env msg sig)
  roundTrip (encodePublicKey lib) (decodePublicKey lib) ka (keyDocument "ed25519" "ed25519" true (hexLower pub))
  stable (encodePublicKey lib) (decodePublicKey lib) (keyDocument "ed25519" "ed25519" false (hexLower pub))

/-! ### src/repository.rs, src/repository/ephemeral.rs, src/repository/file_system.rs -/

def io (w : Pair) : Io Pair := ⟨w, []⟩

/-- `Repository::fetch_metadata::<RootMetadata>` of an ephemeral repository. -/
def fetchRoot (r : Ephemeral) (max : Option Nat) (hash : HashData) : Except Err Bytes :=
  (fetchMetadata digest ClientTests.world .cache .root rootP .none max hash (io { cache := r })).1

def repositoryMetadata : Test Unit := do
  check "not found" (is (fetchRoot .new none none) (.error .notFound))
  let s := io {}
  let (r, s) := storeMetadata ClientTests.world .root rootP .none [] s
  check "stored" (is r (.ok ()))
  check "mismatched store" (is (storeMetadata ClientTests.world .root snapshotP .none [] s).1 (.error .illegalArgument))
  check "mismatched fetch" (is (fetchMetadata digest ClientTests.world .cache .snapshot rootP .none none none s).1
    (.error .illegalArgument))
  let data := utf8 "valid metadata".toList
  let (r, e) := Ephemeral.new.storeMetadata rootP .none (sliceReader data)
  get "store" r
  check "hash" (is (fetchRoot e none (some (.sha256, sha256 data))) (.ok data))
  check "corrupt" (fails (fetchRoot e none (some (.sha256, []))))
  check "size" (is (fetchRoot e (some 100) none) (.ok data))
  check "oversized" (fails (fetchRoot e (some 4) none))

def repositoryTargets : Test Unit := do
  let data := utf8 "like tears in the rain".toList
  let bad := utf8 "you're in a desert".toList
  let d ← get "description" (TargetDescription.fromReader digest (sliceReader data) [.sha256])
  let path ← get "path" (TargetPath.new "batty".toList)
  let read (w : Pair) : Option Bytes :=
    match (fetchTargetStream digest ClientTests.world path d (io w)).1 with
    | .ok evs => (readToEnd evs []).toOption
    | .error _ => none
  let (r, e) := Ephemeral.new.storeTarget (sliceReader data) path
  get "store" r
  check "good" (read { remote := e } == some data)
  check "stream" (((e.fetchTarget path).toOption.bind fun evs => (readToEnd evs []).toOption) == some data)
  let (r, e) := e.storeTarget (sliceReader bad) path
  get "store" r
  check "bad" (read { remote := e } == none)
  check "stream" (((e.fetchTarget path).toOption.bind fun evs => (readToEnd evs []).toOption) == some bad)

def fileSystem : Test Unit := do
  let start : Tree := fun n => if n = [] then some .dir else if n = ["tmp".toList] then some .dir else none
  let (f, t) ← get "build" (FileSystem.build resolve "tmp".toList none none start)
  check "not found" (is (f.fetchMetadata t rootP .none) (.error .notFound))
  let (f, t) ← get "build" (FileSystem.build resolve "tmp".toList (some "meta".toList) (some "targs".toList) start)
  let there (t : Tree) (l : List String) : Bool := t.pathExists (l.map String.toList)
  check "meta" (there t ["tmp", "meta"])
  check "targs" (there t ["tmp", "targs"])
  let data := utf8 "like tears in the rain".toList
  let bad := utf8 "you're in a desert".toList
  let path ← get "path" (TargetPath.new "foo/bar/baz".toList)
  let (r, t) := f.storeTarget t none (sliceReader data) path
  get "store" r
  check "file" (there t ["tmp", "targs", "foo", "bar", "baz"])
  check "good" (((f.fetchTarget t path).toOption.bind fun evs => (readToEnd evs []).toOption) == some data)
  let (r, t) := f.storeTarget t none (sliceReader bad) path
  get "store" r
  check "bad" (((f.fetchTarget t path).toOption.bind fun evs => (readToEnd evs []).toOption) == some bad)

def tests : List (String × (Unit → Test Unit)) := [
  ("no_pardir_in_target_path", fun _ => noPardir),
  ("path_matches_chain", fun _ => pathMatchesChain),
  ("serde_target_description", fun _ => serdeTargetDescription),
  ("serde_role_definition, serde_invalid_role_definitions", fun _ => serdeRoleDefinition),
  ("serde_root_metadata, de_ser_root_metadata_*", fun _ => serdeRoot),
  ("sign_and_verify_root_metadata, verify_signed_serialized_root_metadata*", fun _ => signedRoot),
  ("unknown_fields_included_in_root_metadata_signature", fun _ => do
    unknownFields (decodeRoot lib) (← json Documents.rootOld)),
  ("unknown_fields_included_in_timestamp_metadata_signature", fun _ => do
    unknownFields (decodeTimestamp lib) (← makeTimestamp)),
  ("unknown_fields_included_in_snapshot_metadata_signature", fun _ => do
    unknownFields (decodeSnapshot lib) (← makeSnapshot)),
  ("unknown_fields_included_in_targets_metadata_signature", fun _ => do
    unknownFields (decodeTargets lib) (← makeTargets)),
  ("serde_timestamp_metadata*", fun _ => serdeTimestamp),
  ("serde_snapshot_metadata", fun _ => serdeSnapshot),
  ("serde_targets_metadata, serde_targets_with_delegations_metadata", fun _ => serdeTargets),
  ("serde_signed_metadata", fun _ => serdeSigned),
  ("deserialize_json_root_*", fun _ => do
    rejected (decodeRoot lib) (← makeRoot) (some Documents.rootDuplicate) "snapshot"),
  ("deserialize_json_snapshot_*", fun _ => do
    rejected (decodeSnapshot lib) (← makeSnapshot) (some Documents.snapshotDuplicate) "root"),
  ("deserialize_json_timestamp_*", fun _ => do
    rejected (decodeTimestamp lib) (← makeTimestamp) (some Documents.timestampDuplicate) "root"),
  ("deserialize_json_targets_*", fun _ => do rejected (decodeTargets lib) (← makeTargets) none "root"),
  ("deserialize_json_role_definition_*", fun _ => illegalRoles),
  ("deserialize_json_delegation*", fun _ => illegalDelegations),
  ("root_trusted_keys_*", fun _ => rootTrustedKeys),
  ("*_root_rotation", fun _ => rootRotation),
  ("*_timestamp_update*", fun _ => timestampUpdate),
  ("*_snapshot_update*", fun _ => snapshotUpdate),
  ("*_targets_update*", fun _ => targetsUpdate),
  ("valid_read*, invalid_read*", fun _ => safeReader),
  ("write_str, write_arr, write_obj", fun _ => writeJson),
  ("http_repository_uri_construction*", fun _ => uriConstruction),
  ("repository_*_metadata*", fun _ => repositoryMetadata),
  ("repository_rejects_corrupt_targets, ephemeral_repo_targets", fun _ => repositoryTargets),
  ("file_system_repo_*", fun _ => fileSystem),
  ("ed25519_read_pkcs8_and_sign, serde_signature*", fun _ => signatures)]

end RustTuf.Conformance.UnitTests
