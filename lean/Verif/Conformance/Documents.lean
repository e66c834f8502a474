import Verif.Conformance.TestKeys

/-!
# Documents in the unit tests of src/metadata.rs
-/

namespace RustTuf.Conformance.Documents

/-- src/metadata.rs:2100. -/
def targetDescription : String :=
  r#"{ "length": 30, "hashes": { "sha256": "# ++
  r#""fc5d745c712bc86ea9a31264dac0c956eeb53857f677eed05829bb71013cae18" } }"#

/-- src/metadata.rs:2124. -/
def roleDefinition : String :=
  r#"{ "threshold": 3, "keyids": [ "40e35e8f6003ab90d104710cf88901edab931597401f91c19eeb366060ab3d53", "# ++
  r#""01892c662c8cd79fab20edec21de1dcb8b75d9353103face7fe086ff5c0098e4", "# ++
  r#""4750eaf6878740780d6f97b12dbad079fb012bec88c78de2c380add56d3f51db" ] }"#

/-- src/metadata.rs:2140. -/
def roleZero : String :=
  r#"{ "threshold": 0, "keyids": [ "01892c662c8cd79fab20edec21de1dcb8b75d9353103face7fe086ff5c0098e4", "# ++
  r#""4750eaf6878740780d6f97b12dbad079fb012bec88c78de2c380add56d3f51db" ] }"#

/-- src/metadata.rs:2149. -/
def roleNegative : String :=
  r#"{ "threshold": -1, "keyids": [ "01892c662c8cd79fab20edec21de1dcb8b75d9353103face7fe086ff5c0098e4", "# ++
  r#""4750eaf6878740780d6f97b12dbad079fb012bec88c78de2c380add56d3f51db" ] }"#

/-- src/metadata.rs:2175. -/
def root : String :=
  r#"{ "_type": "root", "spec_version": "1.0", "version": 1, "expires": "2017-01-01T00:00:00Z", "# ++
  r#""consistent_snapshot": false, "keys": { "# ++
  r#""09557ed63f91b5b95917d46f66c63ea79bdaef1b008ba823808bca849f1d18a1": { "keytype": "ed25519", "# ++
  r#""scheme": "ed25519", "keyid_hash_algorithms": ["sha256", "sha512"], "keyval": { "public": "# ++
  r#""1410ae3053aa70bbfa98428a879d64d3002a3578f7dfaaeb1cb0764e860f7e0b" } }, "# ++
  r#""40e35e8f6003ab90d104710cf88901edab931597401f91c19eeb366060ab3d53": { "keytype": "ed25519", "# ++
  r#""scheme": "ed25519", "keyid_hash_algorithms": ["sha256", "sha512"], "keyval": { "public": "# ++
  r#""166376c90a7f717d027056272f361c252fb050bed1a067ff2089a0302fbab73d" } }, "# ++
  r#""a9f3ebc9b138762563a9c27b6edd439959e559709babd123e8d449ba2c18c61a": { "keytype": "ed25519", "# ++
  r#""scheme": "ed25519", "keyid_hash_algorithms": ["sha256", "sha512"], "keyval": { "public": "# ++
  r#""eb8ac26b5c9ef0279e3be3e82262a93bce16fe58ee422500d38caf461c65a3b6" } }, "# ++
  r#""fd7b7741686fa44903f1e4b61d7db869939f402b4acedc044767922c7d309983": { "keytype": "ed25519", "# ++
  r#""scheme": "ed25519", "keyid_hash_algorithms": ["sha256", "sha512"], "keyval": { "public": "# ++
  r#""68d9ecb387371005a8eb8e60105305c34356a8fcd859d7fef3cc228bf2b2b3b2" } } }, "roles": { "root": { "# ++
  r#""threshold": 1, "keyids": ["a9f3ebc9b138762563a9c27b6edd439959e559709babd123e8d449ba2c18c61a"] }, "# ++
  r#""snapshot": { "threshold": 1, "keyids": "# ++
  r#"["fd7b7741686fa44903f1e4b61d7db869939f402b4acedc044767922c7d309983"] }, "targets": { "threshold": "# ++
  r#"1, "keyids": ["40e35e8f6003ab90d104710cf88901edab931597401f91c19eeb366060ab3d53"] }, "timestamp": { "# ++
  r#""threshold": 1, "keyids": ["09557ed63f91b5b95917d46f66c63ea79bdaef1b008ba823808bca849f1d18a1"] } } }"#

/-- src/metadata.rs:2242. -/
def rootOld : String :=
  r#"{ "_type": "root", "spec_version": "1.0", "version": 1, "expires": "2017-01-01T00:00:00Z", "# ++
  r#""consistent_snapshot": false, "keys": { "# ++
  r#""12435b260b6172bd750aeb102f54a347c56b109e0524ab1f144593c07af66356": { "keytype": "ed25519", "# ++
  r#""scheme": "ed25519", "keyval": { "public": "# ++
  r#""68d9ecb387371005a8eb8e60105305c34356a8fcd859d7fef3cc228bf2b2b3b2" } }, "# ++
  r#""3af6b427c05274532231760f39d81212fdf8ac1a9f8fddf12722623ccec02fec": { "keytype": "ed25519", "# ++
  r#""scheme": "ed25519", "keyval": { "public": "# ++
  r#""1410ae3053aa70bbfa98428a879d64d3002a3578f7dfaaeb1cb0764e860f7e0b" } }, "# ++
  r#""b9c336828063cf4fe5348e9fe2d86827c7b3104a76b1f4484a56bbef1ef08cfb": { "keytype": "ed25519", "# ++
  r#""scheme": "ed25519", "keyval": { "public": "# ++
  r#""166376c90a7f717d027056272f361c252fb050bed1a067ff2089a0302fbab73d" } }, "# ++
  r#""e0294a3f17cc8563c3ed5fceb3bd8d3f6bfeeaca499b5c9572729ae015566554": { "keytype": "ed25519", "# ++
  r#""scheme": "ed25519", "keyval": { "public": "# ++
  r#""eb8ac26b5c9ef0279e3be3e82262a93bce16fe58ee422500d38caf461c65a3b6" } } }, "roles": { "root": { "# ++
  r#""threshold": 1, "keyids": ["e0294a3f17cc8563c3ed5fceb3bd8d3f6bfeeaca499b5c9572729ae015566554"] }, "# ++
  r#""snapshot": { "threshold": 1, "keyids": "# ++
  r#"["12435b260b6172bd750aeb102f54a347c56b109e0524ab1f144593c07af66356"] }, "targets": { "threshold": "# ++
  r#"1, "keyids": ["b9c336828063cf4fe5348e9fe2d86827c7b3104a76b1f4484a56bbef1ef08cfb"] }, "timestamp": { "# ++
  r#""threshold": 1, "keyids": ["3af6b427c05274532231760f39d81212fdf8ac1a9f8fddf12722623ccec02fec"] } } }"#

/-- src/metadata.rs:2483. -/
def timestamp : String :=
  r#"{ "_type": "timestamp", "spec_version": "1.0", "version": 1, "expires": "2017-01-01T00:00:00Z", "# ++
  r#""meta": { "snapshot.json": { "version": 1, "length": 100, "hashes": { "sha256": "" } } } }"#

/-- src/metadata.rs:2507. -/
def timestampMissing : String :=
  r#"{ "_type": "timestamp", "spec_version": "1.0", "version": 1, "expires": "2017-01-01T00:00:00Z", "# ++
  r#""meta": {} }"#

/-- src/metadata.rs:2523. -/
def timestampExtra : String :=
  r#"{ "_type": "timestamp", "spec_version": "1.0", "version": 1, "expires": "2017-01-01T00:00:00Z", "# ++
  r#""meta": { "snapshot.json": { "version": 1, "length": 100, "hashes": { "sha256": "" } }, "# ++
  r#""targets.json": { "version": 1, "length": 100, "hashes": { "sha256": "" } } } }"#

/-- src/metadata.rs:2569. -/
def snapshot : String :=
  r#"{ "_type": "snapshot", "spec_version": "1.0", "version": 1, "expires": "2017-01-01T00:00:00Z", "# ++
  r#""meta": { "targets.json": { "version": 1, "length": 100, "hashes": { "sha256": "" } } } }"#

/-- src/metadata.rs:2623. -/
def targets : String :=
  r#"{ "_type": "targets", "spec_version": "1.0", "version": 1, "expires": "2017-01-01T00:00:00Z", "# ++
  r#""targets": { "foo": { "length": 3, "hashes": { "sha256": "# ++
  r#""2c26b46b68ffc68ff99b453c1d30413413422d706483bfa0f98a5e886266e7ae" } }, "bar": { "length": 3, "# ++
  r#""hashes": { "sha256": "2c26b46b68ffc68ff99b453c1d30413413422d706483bfa0f98a5e886266e7ae" }, "# ++
  r#""custom": {} }, "baz": { "length": 3, "hashes": { "sha256": "# ++
  r#""2c26b46b68ffc68ff99b453c1d30413413422d706483bfa0f98a5e886266e7ae" }, "custom": { "foo": 1, "bar": "# ++
  r#""baz" } } } }"#

/-- src/metadata.rs:2686. -/
def targetsDelegating : String :=
  r#"{ "_type": "targets", "spec_version": "1.0", "version": 1, "expires": "2017-01-01T00:00:00Z", "# ++
  r#""targets": {}, "delegations": { "keys": { "# ++
  r#""a9f3ebc9b138762563a9c27b6edd439959e559709babd123e8d449ba2c18c61a": { "keytype": "ed25519", "# ++
  r#""scheme": "ed25519", "keyid_hash_algorithms": ["sha256", "sha512"], "keyval": { "public": "# ++
  r#""eb8ac26b5c9ef0279e3be3e82262a93bce16fe58ee422500d38caf461c65a3b6" } } }, "roles": [ { "role": "# ++
  r#""foo/bar", "terminating": false, "threshold": 1, "keyids": "# ++
  r#"["a9f3ebc9b138762563a9c27b6edd439959e559709babd123e8d449ba2c18c61a"], "paths": ["baz/quux"] } ] } }"#

/-- src/metadata.rs:2742. -/
def signedSnapshot : String :=
  r#"{ "signatures": [ { "keyid": "a9f3ebc9b138762563a9c27b6edd439959e559709babd123e8d449ba2c18c61a", "# ++
  r#""sig": "# ++
  r#""ea48ddc7b3ea614b394e508eb8722100f94ff1a4e3aac3af09da0dada4f878431e8ac26160833405ec239924dfe62edf605fee8294c49b4acade55c76e817602" "# ++
  r#"} ], "signed": { "_type": "snapshot", "spec_version": "1.0", "version": 1, "expires": "# ++
  r#""2017-01-01T00:00:00Z", "meta": { "targets.json": { "version": 1, "length": 100, "hashes": { "# ++
  r#""sha256": "" } } } } }"#

/-- src/metadata.rs:2907. -/
def rootDuplicate : String :=
  r#"{ "_type": "root", "spec_version": "1.0", "version": 1, "expires": "2017-01-01T00:00:00Z", "# ++
  r#""consistent_snapshot": false, "keys": { "# ++
  r#""09557ed63f91b5b95917d46f66c63ea79bdaef1b008ba823808bca849f1d18a1": { "keytype": "ed25519", "# ++
  r#""scheme": "ed25519", "keyval": { "public": "# ++
  r#""1410ae3053aa70bbfa98428a879d64d3002a3578f7dfaaeb1cb0764e860f7e0b" } }, "# ++
  r#""09557ed63f91b5b95917d46f66c63ea79bdaef1b008ba823808bca849f1d18a1": { "keytype": "ed25519", "# ++
  r#""scheme": "ed25519", "keyval": { "public": "# ++
  r#""166376c90a7f717d027056272f361c252fb050bed1a067ff2089a0302fbab73d" } } }, "roles": { "root": { "# ++
  r#""threshold": 1, "keyids": ["09557ed63f91b5b95917d46f66c63ea79bdaef1b008ba823808bca849f1d18a1"] }, "# ++
  r#""snapshot": { "threshold": 1, "keyids": "# ++
  r#"["09557ed63f91b5b95917d46f66c63ea79bdaef1b008ba823808bca849f1d18a1"] }, "targets": { "threshold": "# ++
  r#"1, "keyids": ["09557ed63f91b5b95917d46f66c63ea79bdaef1b008ba823808bca849f1d18a1"] }, "timestamp": { "# ++
  r#""threshold": 1, "keyids": ["09557ed63f91b5b95917d46f66c63ea79bdaef1b008ba823808bca849f1d18a1"] } } }"#

/-- src/metadata.rs:3093. -/
def snapshotDuplicate : String :=
  r#"{ "_type": "snapshot", "spec_version": "1.0", "version": 1, "expires": "2017-01-01T00:00:00Z", "# ++
  r#""meta": { "targets.json": { "version": 1, "length": 100, "hashes": { "sha256": "" } }, "# ++
  r#""targets.json": { "version": 1, "length": 100, "hashes": { "sha256": "" } } } }"#

/-- src/metadata.rs:3158. -/
def timestampDuplicate : String :=
  r#"{ "_type": "timestamp", "spec_version": "1.0", "version": 1, "expires": "2017-01-01T00:00:00Z", "# ++
  r#""meta": { "snapshot.json": { "version": 1, "length": 100, "hashes": { "sha256": "" } }, "# ++
  r#""snapshot.json": { "version": 1, "length": 100, "hashes": { "sha256": "" } } } }"#

/-- src/metadata.rs:3334. -/
def delegationsDuplicate : String :=
  r#"{ "keys": { "qfrfBrkB4lBBSDEBlZgaTGS_SrE6UfmON9kP4i3dJFY=": { "public_key": "# ++
  r#""MCwwBwYDK2VwBQADIQDrisJrXJ7wJ5474-giYqk7zhb-WO5CJQDTjK9GHGWjtg==", "scheme": "ed25519", "type": "# ++
  r#""ed25519" }, "qfrfBrkB4lBBSDEBlZgaTGS_SrE6UfmON9kP4i3dJFY=": { "public_key": "# ++
  r#""MCwwBwYDK2VwBQADIQDrisJrXJ7wJ5474-giYqk7zhb-WO5CJQDTjK9GHGWjtg==", "scheme": "ed25519", "type": "# ++
  r#""ed25519" } }, "roles": [ { "keyids": [ "qfrfBrkB4lBBSDEBlZgaTGS_SrE6UfmON9kP4i3dJFY=" ], "paths": "# ++
  r#"[ "bar" ], "role": "foo", "terminating": false, "threshold": 1 } ] }"#

end RustTuf.Conformance.Documents
