# Formal model of rust-tuf: design

The subject is the pinned source of rust-tuf in /repo. It is read as text. Nothing in it was built or run.
The model and the proofs are in Lean 4 under `lean/Verif`. Properties are listed in `properties.jsonl`,
their status and theorems in `MANIFEST.json`, experiments with wrong programs in `seeded/LOG.jsonl`.

## 1. Layout

| Directory | Content |
|---|---|
| `Verif/Model/*.lean` | The code, function by function. Every definition cites file and lines and states simplifications. |
| `Verif/Spec/*.lean` | Small specifications written without the model's helper functions, and the toy worlds used by examples. |
| `Verif/Lemmas/*.lean` | Helper lemmas. |
| `Verif/Props/*.lean` | The property theorems, named `Cnn_...`, each with an `example` that meets its hypotheses. |
| `Verif/Conformance/*.lean` | The model run against the test data of the crate. No claim rests on it. |

A theorem whose name ends in `_partial` proves less than the English statement of its property. In almost
all cases the reason is that the code does not have the property. Then the negation is proved next to it,
with a concrete witness, and section 6 lists it as a finding.

## 2. Modelling conventions

* `Result<T>` is `Except Err T`. Panics are the explicit error value `Err.panic`. Running out of fuel would be
  `Err.diverged`; C26 and C38 prove that this never happens.
* A call that mutates state returns both result and state, also on error, since some code mutates before failing.
* Strings are lists of Unicode scalar values (`List Char`). Bytes are `List UInt8`.
* `HashMap` is an association list in arbitrary order. Where code iterates over a `HashMap`, theorems hold for every order.
* `u32` versions are natural numbers. Each arithmetic operation has its overflow behaviour spelled out.
  `overflowChecks` says whether the crate was compiled with overflow checks.
* `usize` has 64 bits.
* `Utc::now()` is a clock parameter. Each place that reads the clock gets its own, unconstrained reading.
* Asynchronous code is modelled as sequential code. Streams are lists of events (data, pending, error).
  Interleavings matter only where state is shared, that is in the repositories (C56, C57).
* External code is a parameter of the theorems and is never assumed to be correct unless the theorem says so:
  signature verification and digests (`ring`), the network, the file system calls. Base64, DER and dates are parameters in most theorems;
  `Model/Formats` defines them, C79 and C80 prove what the other theorems assume of them.
* Clients run in a `World`: two arbitrary stateful repositories, a writer and a clock, which may share state and
  behave adversarially. The client keeps a ghost record (`LogEntry`) of requests, replies, verifications and
  writes. It influences nothing.

## 3. What is modelled

| Code | Model | Remarks |
|---|---|---|
| `verify.rs` | `Model/Verify` | all |
| `tuf.rs` | `Model/Tuf` | constructors, all update functions, `target_description`; getters are fields |
| `client.rs` | `Model/Client`, `Model/Config` | constructors, `update`, all `fetch_*`, delegation walk, configuration builder; logging left out; the deprecated aliases are not modelled |
| `futures_util::io::copy` (third party) | `Model/Copy` | poll by poll, after the documentation |
| `repository.rs` | `Model/Repository` | wrapper with path check, length and digest check |
| `repository/http.rs` | `Model/Http`, `Model/HttpRepository` | URL construction, status handling; the `http` crate's URI parser as far as it accepts the result; builder, requests, bodies with the bitrate check, with the network as a parameter |
| `repository/file_system.rs` | `Model/FilePath`, `Model/FileStore`, `Model/FileSystem` | path construction; stores as small steps with crashes and interleaving; all functions one after the other on a tree of files and directories |
| `repository/ephemeral.rs` | `Model/Ephemeral` | stores and fetches at the granularity of lock acquisitions |
| `util.rs` | `Model/Readers`, `Model/Bitrate` | `SafeReader`, `EnforceMinimumBitrate` with binary32 rounding |
| `crypto.rs` | `Model/Readers`, `Model/Shims`, `Model/Encode`, `Model/Keys`, `Model/KeyOrder` | `hash_preference`, `calculate_hashes`, key IDs, (de)serialisation of keys and signatures, loading private keys, signing, comparison of keys; not the generation of keys |
| `metadata.rs` | `Model/Paths`, `Model/Metadata`, `Model/Signed`, `Model/Encode` | paths, signature bookkeeping, constructors with their checks; `Model/Builders`: all builders |
| `interchange/cjson/*` | `Model/Cjson`, `Model/Shims`, `Model/JsonEnv` | canonical JSON, a JSON reader after serde_json, all shims |
| `interchange/cjson/pretty.rs` | `Model/Pretty` | pretty-printing after serde_json; everything else is `Json` |
| `data-encoding`, `derp`, `chrono` (third party) | `Model/Formats` | base64, DER as used for SPKI, dates; after the documentation, since the sources are not in /repo |
| `error.rs`, `format_hex.rs` | errors as an enumeration; hex inside `Model/Shims` | |
| `repo_builder.rs`, `error_repo.rs`, `track_repo.rs` | not modelled, except for the order of uploads in `RepoBuilder::commit` (C92) | compiled for tests only |

Simplifications worth knowing:

* Paths follow Unix rules. Symbolic links are not considered.
* File stores: `rename` is atomic; temporary names differ from destination names (`TempsApart`, a hypothesis,
  because the code creates temporary files in the destination directories); durability (`fsync`) is not modelled.
* JSON reader: the input is UTF-8-decoded as a whole first; members that serde ignores are checked like values;
  the conversion of decimal fractions to floating point is a parameter; `serde_json::Map` is sorted
  (no `preserve_order`).
* The root loop has a constant amount of fuel. C38 proves that it is irrelevant.
* `Client.lookupIn` counts the delegation depth down. `Model/Depth` has the `u32` counter of the code
  (client.rs:1007); C118 proves the two equal for every setting below 2^32 - 1.
* A chunk that the caller's writer accepted only in part before failing counts as not written in the record of the
  client. `Model/Copy` describes the copying poll by poll; C117 relates the two.

## 4. Hypotheses that theorems make about parameters

| Name | Meaning | Used by |
|---|---|---|
| `Decoders E` | versions in decoded metadata are in 1..u32::MAX; both ways of decoding a root agree | histories, client; proved for JSON by C54_json_decoders |
| `NodupKeys`/`WF` | maps have unique keys, as `HashMap` guarantees | verification |
| `Quiet`, `Static` | repositories do not panic; the remote answers the same way at all times | C39, C40 |
| `KeepsTargets` | the local repository keeps targets faithfully | C33, C34 |
| `Faithful`, `Lossy` | the local repository returns what was written last; writes may additionally fail | C31, C32 |
| `Lives` | any sequence of starts, calls, restarts and crashes | C31, C32 |
| `Steady`, `ProperNames` | no accepted document describes one version in two ways; no delegated role has a reserved name | C31 |
| `Serves`, `Writable`, `Published`, `Roots`, `Behind`, `Before` | the remote repository holds an honestly published, unexpired repository, and the client is not ahead of it | C73 |
| `ServesTarget`, `Accepts`, `AcceptsTargets` | the target is served; writer and local repository do not fail | C74 |
| `Release`, `NotAhead` | metadata was built, signed and uploaded with this crate; the client is not ahead of it | C78 |
| `RingLaw` | `ring` accepts the signatures it makes; an Ed25519 public key has 32 bytes | C81 |
| `FullRelease`, `Rotations`, `SignedByLoaded`, `Installs` | the calls an author makes from private keys to upload, and the ways to install a client | C84, C85 |
| `Outside`, `Reliable`, `Holds`, `Apart`, `PlainLog` | everything around a client but its local repository; writes of metadata do not fail; files hold the contents of a map under names that do not meet | C86 |
| `OverHttp` | the remote repository is the HTTP repository; holds for `Model/HttpRepository` by C87_over_http | C75 |
| `FileServer`, `PointsAt`, `Brisk` | a web server hands out the files below a directory, fast enough, after decoding and normalising paths; the address and prefixes of the HTTP repository lead to the directories of the file system repository | C87 |
| `Unforgeable`, `Guarded`, `Approved` | valid signatures of honest keys are over what the author approves of; the attacker has fewer distinct key IDs than the threshold; the metadata decodes from something approved of | C88 |
| `Releases`, `OneEach`, `NoSecondPreimage` | approved timestamps and published snapshots list published documents; a version number is given to one document; no received document has the digest of another published one | C106, C109 |
| `Spells`, `AlgName` | hexadecimal text, two lower-case digits for every byte; the names of hash algorithms | C111 |
| `NoForks`, `Others`, `Shared`, `Among` | a root has one signed successor; writes that clients do to a local repository; accesses are atomic and other writes happen between them; the life of a client in such a repository | C110 |
| `Newest`, `RolesGuarded` | the author has approved of no newer timestamp and of one document per version; less than a threshold of the keys of each role is lost | C90 |
| `InTime` | calls and restarts of a client, also after calls that were stopped, none of the restarts after its root or timestamp has expired | C91 |
| `Orderly`, `Hosts`, `Rotating`, `uploads`, `filesAfter`, `lastRelease`, `Later`, `Holding`, `Stocked`, `HostsTargets` | a repository whose files change between and during requests; the uploads of releases in the order of src/repo_builder.rs:162-202; target files that stay as long as clients may ask for them | C92, C112 |
| `EndAlike`, `SameButChunks`, `SameOutside`, `Seamless`, `drip` | worlds that differ in how streams are cut into chunks; the local repositories of the library meet the condition by C113_in_memory and C113_on_disk | C113 |
| `JsonText`, `ValueText`, `NumberText`, `CharText`, … | the grammar of RFC 8259 as inductive predicates with the value of each text; independent of the reader | C114 |
| `MapLike`, `RootMaps`, …, `TargetsMaps` | lists that stand for hash maps and sets hold no key twice; follows from C69 and C77 for decoded and built metadata | C115 |
| `Orders`, `TufAlike` | the two sides differ in the layout of hash maps only; C116_json shows that for JSON documents the conditions hold for every reordering, except that targets metadata listing two keys with one ID (a SHA-256 collision, C116_clash_is_collision) is left alone | C116 |
| `RespondingWriter`, `TruthfulWriter`, `FaultlessWriter` | what the contract of `AsyncWrite` asks of a writer: it answers in the end, does not claim more bytes than it was offered; does not fail | C117 where stated |
| `StaysAtEnd`, `NoneAfterEnd` | the reader gives no data after it has reported its end; needed only for releases of `copy` that poll it again; C117_growing_file shows what happens otherwise | C117 |
| `IsPolled` | the writer of a world, in large steps, is a given writer polled again and again; C117_every_writer gives such a world for every writer that answers in the end | C117 |
| `OrderBlind` | the remote repository does not look at the order of the maps in a target description; holds for the HTTP repository, which ignores it | C116 |
| `DecoderErrors`, `RepositoryErrors` | decoders and repositories report no expired or missing metadata; the former proved for JSON by C93_json | C93 |
| `QuietCaller` | repositories and the translation of paths do not panic | C94 |
| `TopName`, `Available` | names of top-level metadata; the trusted targets metadata lists the content under this path | C74, C78, C84, C85, C87 |
| `Laws`, `GoodDate`, `GoodKey` | base64, SPKI and date formatting can be read back | C70, C71, C76, C78; proved of the formats in use by C79, C80 |

Each use is accompanied by an `example` that meets the hypotheses with a non-trivial instance.

## 5. How the properties are proved

| Id | How |
|---|---|
| C01 to C05 | counting argument over the deduplicated signature map, induction on the visiting order |
| C06, C07, C11, C13, C16, C18 | exact characterisation (iff) against `Spec/TufRules` |
| C08, C09, C12, C14, C15, C17, C19, C20 | induction over histories of update calls, with ghost provenance where needed |
| C10, C21 to C23 | case analysis |
| C24 to C27, C72 | induction on fuel and on the list of delegations; fuel is shown to suffice |
| C28 to C41, C65 to C67 | a small Hoare logic (`Lemmas/Hoare`, `Lemmas/Keeps`) over arbitrary worlds; loops by induction |
| C31, C32 | an invariant that relates disk and trusted metadata (`Lemmas/Disk`), preserved by every call even if writes fail |
| C42 to C46, C58 to C60, C62 | induction on strings |
| C47 to C50, C63, C64 | induction on event lists; exact rational bounds on binary32 rounding |
| C51, C52, C68 | a reader is modelled and proved to invert the writer |
| C53 | induction over operation sequences |
| C54, C69 | inversion of the decoders |
| C56, C57 | inductive invariants over all interleavings |
| C73, C74 | forward execution in the Hoare logic with `False` as error postcondition |
| C75 | loop invariant, inversion of the checked read; "during this call" (`During`): reached by actions of the outside world from the state at the start, and leading by such to the state at the end |
| C77, C108 | invariants over chains of builder calls |
| C78 | composition of C70, C71, C73, C74 and C77 |
| C84, C85 | composition of C71, C77 to C81; a whole second is one more builder call; the root loop of an empty local repository |
| C86 | refinement of a map by a tree of files; a relational logic over the client code (`Lemmas/Sim`) |
| C87 | names of files and paths of URLs correspond (C59); C85 in a world with a map, carried over to files by the relational logic of C86 |
| C88 | a threshold of distinct key IDs with valid signatures (C01) contains an honest one; induction over the chain of roots (C09) of any session (C28) |
| C89 | the functions are equal for worlds that differ in one provider; induction over the root loop |
| C90 | C73 does not need `Behind` if the root is older; with the same root, what is trusted is approved (C19, C88) and hence not newer |
| C91 | one restart: the stored roots and the stored timestamp are replayed (as in C31), later stages keep root and timestamp whether they succeed or fail; calls: C12; calls that are stopped: Hoare triples for the file of the timestamp and the stored roots; then induction over `InTime` |
| C92 | the stages of C73 for a repository that answers from the files at the moment of the answer: the timestamp fixes the release, and the snapshot and targets of a release stay available under their versions; induction over the uploads and over the updates; for replaced roots, a loop invariant that names the moment at which the last answered root was the last one |
| C93 | case analysis of each update; Hoare logic with the moment of the call (`During`) in the error postcondition |
| C94 | every step of the reader consumes input, so its fuel suffices; then C38, C39 |
| C95 | Hoare logic with a budget of requests; the lower bound by induction on the depth for a family of roles that share one document |
| C96 | induction over setter calls; the record invariant of C65 extended to constructors and failures |
| C97 | case analysis; C76 |
| C98 | Hoare triples with a record of the roles reached so far, as for C37 |
| C99 | Hoare triples that add up requests and bytes; composition with the effects used for C29 |
| C100 | an invariant (on the way to the published metadata) kept by every call over an unreliable connection, also by one whose request panics; then C73. For dropped calls a relational logic (`Lemmas/Cut`) between the call and the call in which a request does not return |
| C101 | induction over the place of the addition, with one lemma per decoder: a struct decoder reads only the members it knows; injectivity of the canonical form (C51) for the signed bytes |
| C102 | corollaries of C09, C19, C29 and C33; the witness is a root published with C71 |
| C103 | induction on the content and on the size of a value; normal forms are compared member by member |
| C104 | two runs in step: changing the trusted delegations commutes with every step of the search |
| C105 | invariant: the trusted root was decoded, so its keys are listed under their own IDs; composition with C19, C18, C70 |
| C106 | invariant over good records: every trusted document was downloaded with a digest listed by trusted metadata of that moment (C65), which goes back to a timestamp signed for the same root (C19); then C88 for the timestamp |
| C109 | two executions compared through the author: C88 and C106 for each of them, a chain of roots passes through every version in between |
| C110 | rely and guarantee: an assertion about files and trusted root that is stable under the writes of others, kept by each step of the code; the files then hold a chain of roots without gaps, and a root of a given version is unique |
| C111 | the decoder of hexadecimal text is the inverse of a relation between texts and bytes; inversion of the decoders of signatures, hashes and keys |
| C112 | calls other than updates keep the trusted top-level metadata and do not send time back, so C92 applies after any calls; a download then asks for a name that stays |
| C113 | the outcome of a checked read is a function of what the source delivers, whatever the limit; every function of the client that reads is rewritten with this equation |
| C114 | induction on fuel (what is read is derived) and on derivations (what is derived is read with the fuel there is); uniqueness follows, because the reader is a function |
| C115 | entries of equal maps are permutations of each other after the values are normalized, and sorted maps are determined by their entries; signing is shown to commute up to the order of the map of signatures, which `build` sorts; the converse is by decoding (C70) |
| C118 | induction on what is left of the depth; for the largest setting, the repository of C95 with one role |
| C119 | relation of two runs that see different clocks, closed under sequencing; for two unrelated clocks, both against their minimum |
| C121 | C88 for bytes, then: bytes that the author has signed are read as the value they were written from (C68), as metadata of one role only (C107), which is the metadata that was encoded (C70); guards do not depend on the order of a key map |
| C122 | invariant over all steps of the store: trusted targets metadata, delegated or not, is the author's, so the keys that judge the next delegated document are guarded (C88); a description comes from a trusted document (C24) |
| C123 | everything trusted has been installed since the root was; invariant: timestamp and snapshot are the author's (C88), and each trusted version is listed in a snapshot of the author not newer than the announced one; timestamps only go forward (C12); with JSON, what the author has made is what is read (C121), so that the root stays until the author makes a newer one |
| C124 | two runs side by side: equal results and equal states up to the limits in the record, unless the first one has failed with the error of the limited reader; by induction on the root loop and on the search |
| C125 | C99 for each update, with the announced lengths bounded because timestamp and snapshot are the author's (C88, C19); summed up over the session, new roots being paid for by the author's roots that are left; for searches C95 with the author's delegations, and at most one document of limited length for each request; with JSON, bounds on what the author has made are bounds on what is read (C121) |
| C126 | C30 says which update call accepted a stored document; that call verified it with keys of the trusted root or of a delegation of trusted metadata, which are the author's (C88, C122); also in the branch where the document is stored though nothing changed |
| C127 | invariant of the store: the announcing timestamp and snapshot were unexpired when the announced document was accepted, so they expire after the earliest time of any clock; the client reads only clocks that the world shows (Lemmas/Timed); signatures by C88; negation for running clients by a toy client that starts at 100 and delivers at 300 |
| C120 | invariants on the record of calls; for listed targets, direct computation of the record |
| C117 | an invariant of the loop of `copy`: what the writer has taken, what is in the buffer and what the reader still delivers make up what the reader delivers in all; by induction on the polls of the writer every large step of `copyToWriter` is a number of turns of the loop. `futures_util::io::copy` is third-party and not in /repo; both ways in which its releases handle the end of the reader are covered |
| C116 | a relation between two stores that differ in layout is shown to be kept by every function of `Tuf` and, with a relational program logic for the client monad, by every function of the client. A layout is a function of the document: reading the same bytes twice within one call gives the same layout, in different calls it may differ |
| C107 | every decoder checks `_type` (inversion of `decodeHead`), the member is unique in what is signed; case analysis of accepted update calls (`StepCase`) |
| C79 | induction on blocks and on DER lengths; reader and writer are inverse |
| C82, C83 | induction on values; the text minus white space is the canonical text |
| C81 | inversion of the DER readers against `Spec/Der`; induction over the ways of signing |
| C80 | Euclidean division over 400-year, 100-year, 4-year cycles; digit strings; inversion of the parser step by step |
| C76 | canonical bytes determine the encoded key, which decodes to the key |
| C70, C71 | composition of encoder, canonical writer, reader and decoder |

## 6. Findings

Where the code does not have a property, or has it only under a condition that may surprise. "Proved" names
the theorem with the witness.

1. Client lookup drops descriptions found in delegated roles, so delegated targets are never found
   (client.rs:1014-1018). Proved: C35_delegated_targets_never_found, C35_delegated_target_missed.
2. The device name check in `safe_path` compares lower-cased components with upper-case names and never fires.
   Proved: C43_check_never_fires, C43_device_names_are_accepted.
3. `update_timestamp` clears the trusted snapshot before it checks expiry. Proved: C21_failure_can_change_state.
4. A newer timestamp may announce an older snapshot, and a newer snapshot older targets. Proved:
   C15_snapshot_can_roll_back, C17_targets_can_roll_back.
5. `version() + 1` overflows at root version u32::MAX; with overflow checks this is a panic. Proved:
   C39_update_panics, C41_start_up_panics.
6. The threshold counts key IDs, and one key may have two IDs. Proved: C04_same_material_counts_twice.
7. `fuzzy_matches_path` lets a delegated role named `timestamp` overwrite timestamp.json. Proved:
   C58_timestamp_overwritten.
8. `target_description` never checks the paths of the last delegation, and gives up early at a role that is not
   trusted. Proved: C25_own_paths_not_checked, C27_untrusted_role_stops_search.
9. The client follows delegations by `is_child` only, so a delegation of exactly one path is never followed
   (C98_nothing_to_ask).
10. `with_trusted_root_keys` does not check the requested version. Proved: C67_requested_version_ignored.
    It also fails if the fetched root cannot be stored.
11. Delegated metadata stays trusted after its parent revokes its keys. Proved: C20_revoked_delegation_stays_trusted.
12. The error of `update_targets` for expired metadata names the snapshot role. Proved: C93_targets_blamed_on_snapshot,
    C93_update_blames_snapshot.
13. `merge_signatures` keeps duplicates that the other object has. Proved: C53_merge_keeps_parsed_duplicates.
14. `%` is not encoded in request URLs. Proved: C59_percent_traversal, C60_percent_collision,
    C87_percent_is_misread.
15. File names of different metadata can collide; with the builder defaults also those of targets and metadata.
    Proved: C44_collisions, C62_builder_default_collides.
16. Fetching a target checks no expiry dates. Proved: C36_served_under_expired_metadata.
17. Expired snapshots and roots can become trusted. Proved: C22_expired_snapshot_installed, C22_expired_root_installed.
18. `RoleDefinition::new` allows duplicate key IDs; only the decoder refuses them. So a key that is added twice to a
    role with the root builder counts twice towards the threshold check of `build`, and `signed` signs the result, but
    no client ever accepts it. Proved: C77_key_added_twice_is_never_accepted, C77_key_added_twice_is_refused.
19. `JsonPretty`: descriptions computed by builders hash pretty-printed bytes, while `to_raw` yields canonical bytes,
    for every document (C83). Clients then refuse the published snapshot and targets metadata.
20. Writing a date drops fractions of a second. Proved: C80_good_dates, C80_expiry. Second 60 parses but is
    written as 59. Proved: C80_second_60.
21. The `unwrap` in the client's lookup is safe only because versions are at least 1 (part of C39).
22. `EnforceMinimumBitrate` never aborts a transfer that delivers nothing. Rounding can abort a transfer that is fast
    enough by less than one part in 2^21. Proved: C50_rounding_can_abort.
23. If one version of a snapshot or targets file is announced again with another digest, a restart cannot use the
    cached file. Proved: C31_reannounced_snapshot_is_lost. A root write that fails in a process that goes on leaves a
    gap, and a restart falls back to an older root. Proved: C32_failed_write_and_go_on.
24. Duplicate keys in JSON objects are refused by the shims, but in the verification path the content was already
    parsed into a `serde_json::Value`, where the last one wins, for signature and content alike (C103).
25. `SafeReader` reports a wrong digest once; a consumer that polls again sees a normal end. Proved: C48_error_not_sticky.
26. The client follows delegations one level deeper than configured. Proved: C37_depth_exceeded.
27. An I/O error of kind `NotFound` while reading a root ends the root update like a missing file. Proved:
    C75_missing_root_ends_the_search.
28. `update` reports success with already trusted, expired metadata. Proved: C66_expired_files_accepted.
29. Derived decoders accept arrays in place of objects, and objects with one null member in place of enum names.
    Proved for the metadata: C103_arrays_are_read_as_objects.
30. Metadata that lists an unknown hash algorithm cannot be decoded at all, also if it lists known algorithms too. One
    key of an unknown type or scheme makes the whole root unreadable, and a timestamp may list no file besides the
    snapshot. Proved: C101_unknown_hash_refused, C101_unknown_key_refused, C101_timestamp_lists_one_file. Key IDs in the key map of delegations are not
    compared with computed IDs, so that a delegation can be satisfied by a key whose ID it does not name. Proved:
    C105_foreign_key_is_accepted, C105_foreign_key_is_decoded. An `rsa` key may carry any scheme (C79_from_spki_keys).
31. A decoded role may name keys that the document does not list, so that its threshold cannot be met. A client accepts
    such a root and then fails every update until the next root. Proved: C102_keys_may_be_missing,
    C102_update_needs_all_keys.
32. `PublicKey::from_spki` can build an Ed25519 key whose serialisation cannot be read back. A root that lists it can be
    signed, but no client accepts it. Proved: C79_from_spki_keys, C79_odd_key_is_never_accepted.
33. `SignedMetadata::new` does not check that the content can be parsed. Content nested 127 levels deep or more can be
    built and signed but not read. Proved: C71_readable_iff_not_deep, C71_deep_custom_data_is_unreadable.
34. A terminating delegation to a role without delegations does not end the search, and a delegation of the delegated role
    overrides the flag. Proved: C72_leaf_does_not_end_search, C72_child_overrides.
35. RSA keys of more than 65515 bytes can be written but not read. Proved: C79_rsa_keys. The SPKI reader ignores the
    content of the NULL parameters, so one key has several SPKI forms (C79_spki_form).
36. Metadata that expire after the year 9999 can be built, signed and published, but no client can read them. Proved:
    C80_late_dates, C80_late_expiry.
37. With the file system repository, a delegated role called `2.root` is stored in the file of root version 2. A lookup
    that passes through it makes the next start fall back to root 1. Proved: C86_role_overwrites_root.
38. A `FileSystemRepositoryBuilder` without prefixes puts targets and metadata into one directory, where the target
    `timestamp.json` replaces the timestamp metadata. Proved: C86_shared_directory.
39. An expired timestamp in the local repository is not loaded at a start, and its version is forgotten with it: the
    restarted client accepts an older timestamp that expires later, under the same root, which it would have refused
    without the restart. Proved: C91_expired_timestamp_is_forgotten.
40. The search for a target does not remember the roles that it visited. Roles that delegate to each other make the
    number of requests exponential in the depth: 10 roles that share one document and the default depth 8 cause more
    than 10^9 requests in one call. Proved: C95_search_is_exponential.
41. Metadata become trusted before they are stored. If an update fails or is dropped while it stores a timestamp,
    later updates see that the timestamp is trusted already and never store it. They report success, and a restarted
    client has forgotten the timestamp. Proved: C100_missed_write_is_not_made_up.
42. A terminating delegation ends the client's search also if it does not cover the path (client.rs:893-899), so
    delegations listed after it are never followed. Proved: C104_terminating_elsewhere_ends_search. A delegated role
    called `targets` is mistaken for the top-level role when the keys of its delegations are looked up (tuf.rs:621-634).
43. A snapshot that is reissued under the same version is not fetched: a client that has the first one keeps it, with
    the new timestamp that announces another digest. Proved: C106_reissued_version_is_missed.
44. Delegated metadata do not name their role. Where two roles are delegated to the same keys and have the same version
    in the snapshot, `update_delegation` accepts the metadata of one role for the other. Proved:
    C107_delegated_role_is_not_named. (A client also compares the digest in the snapshot.)
45. A builder made from existing metadata can only add: a root made with it lists every key that the old one listed, so
    keys cannot be revoked that way, and adding a key that the role has already makes a root that no client accepts.
    Proved: C108_no_key_is_removed, C108_key_listed_already. Likewise a snapshot never loses a path.
46. Clients that share a local repository overwrite each other's timestamps: one that has been shown an older timestamp
    writes it over a newer one, and a client that is started then trusts the older one. Proved:
    C110_timestamps_go_back. Roots are not lost (C110_no_root_is_lost).
47. `SafeReader` checks the digest at the first end of the source only, and passes on what the source delivers after it,
    up to the limit. With a release of `copy` that polls the reader again while it waits for the writer to be flushed,
    a source that goes on after its end, such as a file that grows, gets unchecked bytes to the writer although the
    call succeeds, if the description announces a greater length than the file had. Proved: C117_growing_file.
    Not possible if the lengths agree (C117_checked).
48. `max_delegation_depth(u32::MAX)` is no limit: the depth counter wraps around (without overflow checks) or the
    addition panics (with them), if memory suffices for that many nested calls. Proved:
    C118_largest_setting_is_no_limit.
49. Trusted delegated metadata is filed by the name of the role, whoever has delegated to it. Who has the keys of one
    delegated role `a` can let `a` delegate to a role `b` of the same name as another role of the author, with other
    keys. `update_delegation(a, b, ..)` then accepts metadata for `b` signed with these keys, if it has the version that
    the snapshot lists, and the search for a target uses it where the author has delegated to `b`. Proved:
    C122_other_roles_matter. Not possible while the keys of all delegated roles are guarded (C122_store).
50. `update_root` forgets all other metadata for every new root, although the section of the TUF specification quoted
    there asks for this only if timestamp or snapshot keys have changed. With any new root, say one with a later expiry
    date, clients lose the protection against old metadata: unexpired older timestamps, snapshots and targets are
    accepted again. Proved: C123_new_root_forgets. While the root stays: C123_store.

## 7. Trusted base

* The Lean kernel. No own axioms, no `sorry`, no `native_decide`, no `bv_decide`.
* That the definitions under `Verif/Model` say what the Rust code says.
  Evidence, not proof: `Verif/Conformance` fills in the parameters with SHA-2 and Ed25519 and runs the model on the
  data of the crate's own tests. `lake env lean --run Verif/Conformance/Interop.lean /repo/tests` runs
  tests/interop (six repositories, four of them made by another implementation of TUF) and ports of the tests in
  src and tests/*.rs (54 groups). All pass, including test vectors for key IDs, canonical bytes and signatures.
  The model of the builders, run as tests/metadata/generate.rs, writes the 60 files under tests/metadata byte for byte.
* That the statements under `Verif/Spec` and in the theorems say what `properties.jsonl` says.
* Assumptions that a theorem makes about parameters are visible in its statement (section 4).

Not modelled: the cryptographic primitives, TLS and HTTP transport, the operating system beyond create, write,
rename and the tree of directories, the scheduler of asynchronous tasks, logging, error texts, memory exhaustion, stack overflow in recursive
decoding, code compiled for tests only.

Axioms that the theorems in MANIFEST.json depend on, from `#print axioms`:

**no axioms** (4 theorems): C53_merge_keeps_parsed_duplicates, C55_choice_is_usable, C57_new_is_empty, C87_new_panics.

**`propext`** (10 theorems): C48_streaming, C48_error_not_sticky, C55_preference, C57_failed_store, C61_content_iff, C61_other_statuses, C97_order, C97_hash, C117_in_order, C117_failure.

**`propext`, `Classical.choice`, `Quot.sound`** (496 theorems): C01_threshold_sound, C02_threshold_complete, C02_leading_junk_harmless, C02_unauthorised_junk_harmless, C03_key_order_independent, C04_same_material_counts_twice, C04_distinct_material_partial, C05_content_binding, C06_bootstrap_trusted_keys, C06_bootstrap_tofu, C07_root_rule, C08_root_version_counts, C08_root_version_bounded, C09_root_chain, C09_root_self_signed, C10_root_forgets, C10_root_only_by_root, C11_timestamp_rule, C11_timestamp_same_version, C11_timestamp_lower_rejected, C12_timestamp_no_rollback, C13_snapshot_rule, C13_snapshot_post, C13_snapshot_same_version, C14_consistent, C15_snapshot_no_rollback_partial, C15_direct_replacement_partial, C15_snapshot_can_roll_back, C16_targets_rule, C16_targets_same_version, C17_targets_no_rollback_partial, C17_delegated_no_rollback_partial, C17_direct_replacement_partial, C17_targets_can_roll_back, C18_delegation_rule, C18_delegation_effect, C18_delegation_same_version, C19_signed_under_current_root, C20_delegated_authorised_partial, C20_revoked_delegation_stays_trusted, C21_failed_update_partial, C21_noop_changes_nothing, C21_failure_can_change_state, C22_unexpired_when_installed_partial, C22_expired_snapshot_installed, C22_expired_root_installed, C23_expired_root_blocks, C23_expired_timestamp_blocks, C23_expired_snapshot_blocks, C23_expired_targets_blocks, C25_chain_covers_path_partial, C25_own_paths_not_checked, C26_lookup_terminates, C26_fuel_irrelevant, C27_untrusted_role_stops_search, C28_client_refines_tuf, C28_client_root_chain, C28_client_consistent, C29_update_complete, C29_root_unexpired, C30_only_verified_is_stored, C30_constructors, C31_restart_partial, C31_reannounced_snapshot_is_lost, C32_crash_safe, C32_failed_write_and_go_on, C33_writer_gets_the_target, C33_writer_bounded, C33_stored_target_matches, C34_failure_changes_nothing, C35_top_level_targets_found_partial, C35_delegated_targets_never_found, C35_delegated_target_missed, C36_served_under_expired_metadata, C36_expired_trusts_nothing_new_partial, C37_depth_bounded_partial, C37_depth_exceeded, C38_rounds, C38_fuel_irrelevant, C38_terminates, C39_update_panics, C39_only_overflow_panics_partial, C40_update_idempotent, C41_start_up_partial, C41_release_partial, C41_start_up_panics, C42_target_inside, C42_metadata_inside, C42_refused, C43_device_names_are_accepted, C43_check_never_fires, C43_with_colon_partial, C44_collisions, C44_targets_partial, C44_shared_target_file_iff, C44_shared_metadata_file_iff, C44_metadata_partial, C44_toplevel_unversioned_partial, C45_is_child, C45_matches_chain, C45_chain_covers_each, C46_hash_prefix_accepted, C46_hash_prefix_injective, C46_empty_digest, C47_oversize_fails, C47_within_limit_passes, C48_success_iff, C49_outcome, C49_chunking_independent, C50_aborted_only_if_slow, C50_fast_enough_passes_partial, C50_slow_is_aborted, C50_rounding_can_abort, C50_other_events_pass, C51_injective, C51_same_bytes_iff_reordered, C52_order_irrelevant, C52_total_on_integers, C52_canonical_form, C54_root, C54_root_value, C54_timestamp, C54_snapshot, C54_targets, C54_json_decoders, C57_fetch_sees_latest_store, C57_reader_is_unaffected, C57_store_puts_its_source, C58_other_roles_refused_partial, C58_own_path_reaches_repository, C58_timestamp_overwritten, C59_server_file, C59_server_stays_below_partial, C59_accepted_components, C59_percent_traversal, C60_same_url_iff, C60_same_target_url_iff, C60_percent_collision, C60_injective_partial, C60_targets_partial, C61_status_of_next_root, C62_targets_apart_from_metadata, C62_builder_default_collides, C63_digests_of_everything, C63_failures, C64_description_round_trip, C65_requests_limited, C65_constructors, C66_expired_files_accepted, C66_new_files_fresh_partial, C67_requested_version_ignored, C67_requested_version_partial, C68_canonical_bytes_read_back, C68_canonical_bytes_read_back_normal, C68_never_misread, C69_snapshot_names, C69_targets_names, C70_root, C70_timestamp, C70_snapshot, C70_targets, C70_root_again, C70_timestamp_again, C70_snapshot_again, C70_targets_again, C71_readable_iff_not_deep, C71_deep_custom_data_is_unreadable, C71_to_raw_parses, C71_published_is_accepted, C71_root, C71_timestamp, C71_snapshot, C71_targets, C71_builder_content, C71_builder_succeeds, C71_root_builder, C71_signed_is_published, C72_leaf_does_not_end_search, C72_child_overrides, C73_honest_update_succeeds, C74_published_target_is_written, C74_listed_target_is_written, C74_published_target_is_stored, C75_next_root_was_missing, C75_http_next_root_404, C75_other_errors_stop_the_update, C75_missing_root_ends_the_search, C76_key_id_determines_key, C76_listed_keys, C76_root_key_ids, C76_two_ids_for_one_key, C77_root_is_as_asked, C77_root_builds_iff, C77_built_root_is_publishable, C77_root_from_existing, C77_key_added_twice_is_never_accepted, C77_key_added_twice_is_refused, C77_description_of_published_bytes, C77_description_exists, C77_snapshot_is_as_asked, C77_built_snapshot_is_publishable, C77_timestamp_is_as_asked, C77_built_timestamp_is_publishable, C77_targets_are_as_asked, C77_delegations, C77_built_targets_are_publishable, C78_release_is_published, C78_release_is_adopted, C78_released_target_is_listed, C78_released_target_is_delivered, C79_base64, C79_base64_read, C79_laws, C79_rsa_keys, C79_good_keys, C79_from_spki_keys, C79_odd_key_is_never_accepted, C80_read_exactly, C80_second_60, C80_calendar, C80_text, C80_reads, C80_read_back, C80_late_dates, C80_never_later, C80_good_dates, C80_expiry, C80_late_expiry, C80_root, C81_extract, C81_extract_only, C81_public_key_unique, C81_private_key_unique, C81_ed25519_signs, C81_ed25519_loads, C81_rsa_signs, C81_sign_never_panics, C81_rsa_loads, C81_rsa_loads_iff, C81_loaded_signs, C81_keys_are_good, C81_exactly_the_signers, C81_signed_is_published, C81_root_is_accepted, C82_canonical_plus_layout, C82_same_document, C82_same_verdict, C83_describes_written_bytes_partial, C83_never_describes_the_published_bytes, C83_published_bytes_are_refused, C83_timestamp_and_snapshot, C84_rotations_are_followed, C84_release_is_adopted, C84_target_is_listed, C84_target_is_delivered, C85_starts_with_root, C85_starts_with_keys, C85_installs, C85_new_client_knows_target, C85_new_client_gets_target, C86_names_apart, C86_file_system_is_a_map, C86_memory_clients_cannot_tell, C86_clients_cannot_tell, C86_restart_with_files, C86_crash_with_files, C86_shared_directory, C86_reopen, C86_new_is_empty, C86_role_overwrites_root, C87_web_sees_files_partial, C87_web_sees_decoded_names, C87_body_errors, C87_body_is_whole, C87_missing_iff_404, C87_builder, C87_percent_is_misread, C87_web_serves, C87_web_serves_target_partial, C87_over_http, C87_newest_root_was_asked_for, C87_from_disk_to_disk_partial, C87_from_upload_to_disk_partial, C88_authentic_is_approved, C88_roots_are_the_authors, C88_installed_with_keys, C88_trusted_is_the_authors, C88_delivered_is_the_authors, C88_stored_is_the_authors, C88_targets_keys_are_needed, C89_start_ignores_remote, C89_keys_start_prefers_local, C89_local_start_takes_local_root, C89_keys_start_takes_root, C89_update_ignores_local, C90_new_root_recovers, C90_replaced_keys_recover, C90_without_new_root_stuck, C91_no_rollback_after_restart_partial, C91_expired_timestamp_is_forgotten, C92_update_while_publishing, C92_commit_order_is_orderly, C92_all_updates_succeed, C92_clients_update_while_releases_are_uploaded, C92_consistent_snapshots_are_needed, C92_upload_order_matters, C92_root_change_during_update_fails, C92_update_while_rotating, C92_all_updates_succeed_while_rotating, C93_expired_names_role_partial, C93_missing_names_role, C93_targets_blamed_on_snapshot, C93_lookup_errors, C93_json, C93_update_expired_partial, C93_update_never_missing, C93_update_blames_snapshot, C94_reading_ends, C94_verification_errors, C94_no_document_stops_the_client, C95_requests_bounded, C95_search_is_exponential, C95_requests_bounded_by_documents, C96_last_setting_wins, C96_default_translator, C96_limits_enforced, C96_always_limited, C97_equality_and_order, C97_equal_is_identical, C98_only_covering_roles, C98_nothing_to_ask, C99_work_bounded, C99_requests, C100_interrupted_calls_can_be_repeated, C100_dropped_call_is_an_initial_part, C100_missed_write_is_not_made_up, C101_unknown_members_are_ignored, C101_unknown_members_outside, C101_newer_documents_are_accepted, C101_unknown_members_are_signed, C101_unknown_hash_refused, C101_unknown_key_refused, C101_timestamp_lists_one_file, C102_root_has_its_keys, C102_trusted_roles_have_their_keys, C102_delegations_need_their_keys, C102_timestamp_refused, C102_update_needs_all_keys, C102_targets_need_their_keys, C102_keys_may_be_missing, C103_signed_bytes_are_the_content, C103_last_member_counts, C103_repeated_parts_refused, C103_repeated_in_signature_refused, C103_arrays_are_read_as_objects, C104_other_delegations_do_not_matter_partial, C104_added_delegations_do_not_matter_partial, C104_terminating_elsewhere_ends_search, C105_top_level_roles, C105_delegated_roles_partial, C105_foreign_key_is_accepted, C105_foreign_key_is_decoded, C106_trusted_goes_back_to_timestamps, C106_trusted_is_published, C106_delivered_is_published, C106_no_mix_and_match, C106_reissued_version_is_missed, C106_timestamp_keys_are_needed, C107_type_is_read, C107_one_role, C107_other_roles_refuse, C107_only_roots_start, C107_delegated_role_is_not_named, C108_root_is_edited, C108_root_builds_iff, C108_no_key_is_removed, C108_key_listed_already, C108_edited_root_is_publishable, C108_next_root_is_accepted, C108_snapshot_is_edited, C108_edited_snapshot_is_publishable, C109_roots_do_not_fork, C109_same_version_same_content, C109_timestamp_keys_suffice, C109_one_timestamp_one_view, C109_same_targets, C109_version_used_twice, C110_no_root_is_lost, C110_others_can_go_on, C110_others_can_go_on_at_start, C110_no_forks, C110_timestamps_go_back, C111_hex_is_read_exactly, C111_one_spelling, C111_hex_is_written, C111_from_hex, C111_signature_is_read, C111_hashes_are_read, C111_hashes_are_spelled, C111_ed25519_key_is_spelled, C112_written_while_publishing, C112_stored_while_publishing, C112_updates_and_downloads_while_publishing, C112_updates_and_downloads_while_rotating, C112_earlier_targets_are_needed, C112_names_with_digests_are_needed, C113_calls, C113_sessions, C113_in_memory, C113_on_disk, C113_downloads_to_a_writer, C113_partial_output_depends_on_chunks, C114_texts, C114_documents, C114_one_meaning, C114_others_are_refused, C114_decoded, C114_canonical_form_is_json, C114_accepted_metadata, C114_short_texts, C115_root, C115_timestamp, C115_snapshot, C115_targets, C115_published_bytes, C115_published_at_once, C115_root_iff, C115_timestamp_iff, C115_snapshot_iff, C115_targets_iff, C116_trusted_metadata, C116_descriptions, C116_calls, C116_construction, C116_sessions, C116_json, C116_clash_is_collision, C117_every_writer, C117_downloads, C117_gets_the_target, C117_any_way, C117_checked, C117_growing_file, C118_counter, C118_largest_setting_is_no_limit, C119_calls_of_tuf, C119_update_with_a_slow_clock, C119_update_with_any_clock, C119_listed_targets, C119_start_is_not_covered, C120_update, C120_other_targets, C120_listed_targets, C120_without_snapshot, C121_signed_metadata, C121_signed_by_builder, C121_root_is_read, C121_timestamp_is_read, C121_snapshot_is_read, C121_targets_is_read, C121_roots_are_made, C121_installed_with_keys, C121_trusted_is_made, C121_delivered_is_made, C121_stored_is_made, C122_store, C122_client, C122_described_is_made, C122_other_roles_matter, C123_store, C123_client, C123_withdrawn, C123_new_root_forgets, C123_withdrawn_made, C123_until_new_root, C124_names_and_depth_do_not_matter_for_updates, C124_targets_depend_on_their_own_name, C124_depth_does_not_matter_for_listed_targets, C124_refused_names, C124_raised_limits, C124_raised_limits_in_sessions, C124_http_ignores_limits, C124_start_is_not_covered, C125_updates_are_cheap, C125_updates_are_cheap_made, C125_searches_are_made, C125_searches_are_the_authors, C126_stored_is_the_authors, C126_constructors, C126_stored_is_made, C127_store, C127_client, C127_expired_releases_are_gone, C127_running_clients_are_not_covered, C127_versions_are_made, C127_expired_releases_are_gone_made.

**`propext`, `Quot.sound`** (25 theorems): C03_order_independent, C24_description_source, C24_top_level_precedence, C27_search_continues_partial, C47_never_more_than_limit, C48_unsupported_refused, C53_one_signature_per_key, C53_add_replaces_own, C53_merge_adds_missing, C53_build_is_sorted, C53_builder_sign, C53_signatures_cover_content, C55_depends_only_on_supported, C56_atomic, C56_failed_stores_change_nothing, C56_ok_only_if_complete, C56_nothing_else_changes, C56_persist_installs, C57_store_then_fetch_metadata, C57_store_then_fetch_target, C59_url_shape, C72_terminating_ends_search_partial, C79_spki_form, C86_memory_is_a_map, C117_success.
