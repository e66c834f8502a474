{"id": "C01", "title": "Signature threshold is sound", "statement": "Whenever signature verification accepts a document for a role with threshold n, n is at least 1 and the document carries valid signatures, over the canonical form of its signed part, from at least n different authorised key IDs. Unauthorised keys, invalid signatures and repeated signatures of one key never help to reach the threshold.", "quantifier": "every raw byte string, every threshold, every list of authorised keys, every signature scheme behaviour, every hash-map iteration order", "why_tests_cant": "The attacker chooses the document and the signature list; a test samples a handful of signature lists and one hash order per run.", "anchors": ["src/verify.rs: verify_signatures"]}
{"id": "C02", "title": "Signature threshold is complete", "statement": "If the last-listed signature of at least n >= 1 different authorised key IDs is valid over the canonical signed part, and that part decodes, verification accepts, however many unknown, invalid or duplicate signatures are also listed and in whatever order they are examined.", "quantifier": "every raw byte string, threshold, authorised key list and iteration order", "why_tests_cant": "An early exit or a counting slip only shows for particular mixes of good and bad signatures.", "anchors": ["src/verify.rs: verify_signatures"]}
{"id": "C03", "title": "Verification does not depend on hash-map order", "statement": "The outcome of signature verification (success value or the kind of failure) is the same for every order in which the deduplicated signatures are visited.", "quantifier": "every pair of iteration orders, every document, every key list", "why_tests_cant": "Hash-map order is randomised per process; a test sees one order per run.", "anchors": ["src/verify.rs: verify_signatures"]}
{"id": "C04", "title": "A threshold of n needs n different keys", "statement": "Accepting a document at threshold n requires n different pieces of public key material, so holding one private key never satisfies a threshold above one.", "quantifier": "every authorised key list and document", "why_tests_cant": "Needs reasoning about every way the same key material can be listed under different IDs.", "anchors": ["src/verify.rs: verify_signatures", "src/crypto.rs: PublicKey, calculate_key_id"]}
{"id": "C05", "title": "What is returned is what was signed", "statement": "Metadata returned by verification is decoded from exactly the bytes the signatures were checked against. Two documents with the same canonical signed part that are both accepted yield the same metadata, whatever else differs in their raw bytes.", "quantifier": "every pair of raw documents", "why_tests_cant": "The difference only appears for inputs where the raw and the canonical form disagree.", "anchors": ["src/verify.rs: verify_signatures"]}
{"id": "C06", "title": "Bootstrapping from trusted keys", "statement": "A trusted-metadata store created from a root document and a set of trusted keys exists only if the document meets the given threshold of the given keys and also the threshold of its own root role; it starts with that root and nothing else trusted. Created by trust-on-first-use, it exists only if the document meets its own root threshold.", "quantifier": "every document, key set and threshold", "why_tests_cant": "Both checks must be present for every input; a test with a correctly signed root passes with either one missing.", "anchors": ["src/tuf.rs: Tuf::from_root_with_trusted_keys", "src/tuf.rs: Tuf::from_trusted_root"]}
{"id": "C07", "title": "Root rotation rule", "statement": "A root update succeeds exactly when the new root meets the root threshold of the currently trusted root, meets its own root threshold, and its version is exactly the trusted version plus one (and that does not overflow 32 bits).", "quantifier": "every trusted state and every candidate document", "why_tests_cant": "An exact characterisation needs all combinations of signature sets and versions.", "anchors": ["src/tuf.rs: Tuf::update_root"]}
{"id": "C08", "title": "Root version counts accepted rotations", "statement": "Over any sequence of update calls the trusted root version equals the starting version plus the number of successful root updates: it never decreases, never skips and never exceeds 2^32-1.", "quantifier": "every finite history of update calls with arbitrary documents and clock readings", "why_tests_cant": "Histories are unbounded.", "anchors": ["src/tuf.rs: Tuf::update_root", "src/tuf.rs: Tuf::update_timestamp", "src/tuf.rs: Tuf::update_snapshot", "src/tuf.rs: Tuf::update_targets", "src/tuf.rs: Tuf::update_delegation"]}
{"id": "C09", "title": "Unbroken chain of trust between roots", "statement": "After any history the trusted root is linked to the initial root by a chain of roots with consecutive versions, each of which was signed by a threshold of the previous root's root keys and by a threshold of its own root keys.", "quantifier": "every finite history of update calls", "why_tests_cant": "The property is about unbounded histories with adversarial documents.", "anchors": ["src/tuf.rs: Tuf::update_root"]}
{"id": "C10", "title": "Root rotation forgets dependent metadata", "statement": "A successful root update leaves no trusted timestamp, snapshot, targets or delegated metadata, so nothing signed under rotated-out keys survives. Every other call leaves the trusted root unchanged.", "quantifier": "every state and every document", "why_tests_cant": "A leftover field shows only when that field was populated before the rotation.", "anchors": ["src/tuf.rs: Tuf::update_root", "src/tuf.rs: Tuf::purge_metadata"]}
{"id": "C11", "title": "Timestamp acceptance rule", "statement": "A timestamp update installs a document exactly when it meets the timestamp threshold of the trusted root, its version is strictly greater than the trusted one and it is not expired; an equal version is a successful no-op and a lower version is rejected.", "quantifier": "every state, document and clock reading", "why_tests_cant": "Boundary behaviour on version and expiry must hold at every value.", "anchors": ["src/tuf.rs: Tuf::update_timestamp"]}
{"id": "C12", "title": "Timestamp never rolls back", "statement": "Between two root rotations the trusted timestamp, once present, stays present and its version never decreases.", "quantifier": "every finite history of update calls without a successful root update", "why_tests_cant": "Histories are unbounded and adversarial.", "anchors": ["src/tuf.rs: Tuf::update_timestamp"]}
{"id": "C13", "title": "Snapshot acceptance rule", "statement": "A snapshot update installs a document exactly when the trusted root and timestamp are unexpired, the timestamp announces a version above the trusted snapshot version, the document meets the root's snapshot threshold and carries exactly the announced version. If the announced version is already trusted the call is a successful no-op.", "quantifier": "every state, document and clock reading", "why_tests_cant": "Exact acceptance conditions need all states, including missing and expired ones.", "anchors": ["src/tuf.rs: Tuf::update_snapshot"]}
{"id": "C14", "title": "Trusted metadata stays mutually consistent", "statement": "In every reachable state: a trusted snapshot has exactly the version announced by the trusted timestamp; trusted targets metadata has exactly the version listed in the trusted snapshot; no trusted delegated metadata is newer than the version the snapshot lists for it.", "quantifier": "every state reachable by any finite history from any freshly bootstrapped store", "why_tests_cant": "Mix-and-match attacks interleave calls arbitrarily.", "anchors": ["src/tuf.rs: Tuf::update_timestamp", "src/tuf.rs: Tuf::update_snapshot", "src/tuf.rs: Tuf::update_targets", "src/tuf.rs: Tuf::update_delegation", "src/tuf.rs: Tuf::purge_delegations"]}
{"id": "C15", "title": "Snapshot never rolls back", "statement": "Between two root rotations, a snapshot that has been trusted is never replaced by one with a lower version.", "quantifier": "every finite history of update calls without a successful root update", "why_tests_cant": "The rollback needs a particular interleaving of timestamp and snapshot updates.", "anchors": ["src/tuf.rs: Tuf::update_timestamp", "src/tuf.rs: Tuf::update_snapshot"]}
{"id": "C16", "title": "Targets acceptance rule", "statement": "A targets update installs a document exactly when the trusted root and snapshot are unexpired, the snapshot lists a targets version above the trusted one, the document meets the root's targets threshold, carries exactly the listed version and is unexpired. If the listed version is already trusted the call is a successful no-op.", "quantifier": "every state, document and clock reading", "why_tests_cant": "Exact acceptance conditions need all states.", "anchors": ["src/tuf.rs: Tuf::update_targets"]}
{"id": "C17", "title": "Targets and delegated metadata never roll back", "statement": "Between two root rotations, trusted top-level targets metadata (and the trusted metadata of each delegated role) is never replaced by a lower version.", "quantifier": "every finite history of update calls without a successful root update", "why_tests_cant": "The rollback needs a particular interleaving of snapshot and targets updates.", "anchors": ["src/tuf.rs: Tuf::update_snapshot", "src/tuf.rs: Tuf::update_targets", "src/tuf.rs: Tuf::update_delegation", "src/tuf.rs: Tuf::purge_delegations"]}
{"id": "C18", "title": "Delegation acceptance rule", "statement": "Delegated metadata is installed exactly when root, snapshot and targets are unexpired, the top-level targets delegate at all, the snapshot lists the role with a version above the trusted one, the named parent delegates to the role, the document meets that delegation's threshold with that delegation's keys, carries the listed version and is unexpired.", "quantifier": "every state, parent, role, document and clock reading", "why_tests_cant": "Exact acceptance conditions need all states and delegation graphs.", "anchors": ["src/tuf.rs: Tuf::update_delegation", "src/tuf.rs: Tuf::find_delegation_threshold_and_keys"]}
{"id": "C19", "title": "Everything trusted is signed under the current root", "statement": "In every reachable state the trusted timestamp, snapshot and targets metadata were each decoded from a document that meets the corresponding role threshold of the root that is trusted now.", "quantifier": "every finite history of update calls from any bootstrapped store", "why_tests_cant": "Requires an invariant over unbounded adversarial histories, including key rotation.", "anchors": ["src/tuf.rs: Tuf::update_root", "src/tuf.rs: Tuf::update_timestamp", "src/tuf.rs: Tuf::update_snapshot", "src/tuf.rs: Tuf::update_targets"]}
{"id": "C20", "title": "Delegated metadata is authorised by its parent", "statement": "In every reachable state each trusted delegated metadata was decoded from a document that meets the threshold and keys its delegating parent states now.", "quantifier": "every finite history of update calls", "why_tests_cant": "Needs histories in which the parent is replaced after the child was accepted.", "anchors": ["src/tuf.rs: Tuf::update_delegation", "src/tuf.rs: Tuf::update_targets", "src/tuf.rs: Tuf::purge_delegations"]}
{"id": "C21", "title": "A failed update changes nothing", "statement": "If an update call returns an error, the whole trusted state is exactly what it was before the call.", "quantifier": "every state, document, clock reading and every kind of error", "why_tests_cant": "There are many error paths, each reachable only from specific states.", "anchors": ["src/tuf.rs: Tuf::update_root", "src/tuf.rs: Tuf::update_timestamp", "src/tuf.rs: Tuf::update_snapshot", "src/tuf.rs: Tuf::update_targets", "src/tuf.rs: Tuf::update_delegation"]}
{"id": "C22", "title": "Expired metadata never becomes trusted", "statement": "No update call installs metadata whose expiry is at or before the time of the call.", "quantifier": "every state, document and clock reading", "why_tests_cant": "Expiry boundaries and clock readings are unbounded.", "anchors": ["src/tuf.rs: Tuf::update_timestamp", "src/tuf.rs: Tuf::update_snapshot", "src/tuf.rs: Tuf::update_targets", "src/tuf.rs: Tuf::update_delegation"]}
{"id": "C23", "title": "Expired trusted metadata blocks use", "statement": "If the trusted root is expired, no snapshot, targets or delegation update changes anything and no target description is returned; likewise for an expired timestamp (snapshot updates), snapshot (targets, delegations, lookups) and targets (delegations, lookups).", "quantifier": "every state, document, target path and clock reading", "why_tests_cant": "All combinations of expired roles and operations.", "anchors": ["src/tuf.rs: Tuf::trusted_root_unexpired", "src/tuf.rs: Tuf::trusted_snapshot_unexpired", "src/tuf.rs: Tuf::trusted_targets_unexpired", "src/tuf.rs: Tuf::trusted_timestamp_unexpired", "src/tuf.rs: Tuf::target_description"]}
{"id": "C24", "title": "Target descriptions come from trusted, unexpired metadata", "statement": "A target description returned for a path is the one listed for exactly that path in the trusted top-level targets, or in trusted unexpired delegated metadata reached from the top level through a chain of delegations each of whose members is trusted and unexpired. Top-level entries take precedence.", "quantifier": "every state, delegation graph (including cyclic and shared), target path and clock reading", "why_tests_cant": "Delegation graphs are unbounded.", "anchors": ["src/tuf.rs: Tuf::target_description"]}
{"id": "C25", "title": "A delegated role only speaks for its paths", "statement": "A target description is taken from a delegated role only if the target path is covered by the path patterns of every delegation on the chain to that role.", "quantifier": "every state, delegation graph and target path", "why_tests_cant": "Needs all chains and patterns.", "anchors": ["src/tuf.rs: Tuf::target_description", "src/metadata.rs: VirtualTargetPath::matches_chain"]}
{"id": "C26", "title": "Target lookup terminates on every delegation graph", "statement": "Looking up a target in the trusted metadata terminates for every delegation graph, including cycles, and nests no deeper than the number of trusted delegated roles.", "quantifier": "every state and target path", "why_tests_cant": "Non-termination needs adversarial cyclic graphs.", "anchors": ["src/tuf.rs: Tuf::target_description"]}
{"id": "C27", "title": "Non-terminating delegations do not stop the search", "statement": "If a non-terminating delegation cannot supply a target (its role is unknown, expired or lists nothing), the search goes on to the next delegation; if a later delegation supplies the target it is found.", "quantifier": "every state, delegation list and target path", "why_tests_cant": "Depends on the order and kind of the delegations.", "anchors": ["src/tuf.rs: Tuf::target_description", "src/client.rs: Client::lookup_target_description"]}
{"id": "C28", "title": "Client updates refine the trusted-metadata rules", "statement": "Whatever the remote and the local repository answer, every trusted state a client can reach through construction, update and target calls is reachable by verified update calls alone; so root chain, consistency and provenance guarantees hold for clients with a fully malicious remote and a corrupted local cache.", "quantifier": "every remote and local behaviour (stateful, adversarial), every clock, every finite sequence of client calls", "why_tests_cant": "Adversarial repositories and histories are unbounded.", "anchors": ["src/client.rs: Client::new", "src/client.rs: Client::update", "src/client.rs: Client::update_root_with_repos", "src/client.rs: Client::lookup_target_description", "src/client.rs: Client::fetch_target"]}
{"id": "C29", "title": "A successful client update leaves a complete, current state", "statement": "When update returns Ok, root is unexpired, timestamp, snapshot and targets are trusted, the snapshot has the version the timestamp announces and targets the version the snapshot lists. It returns true exactly when some role changed, and false only if nothing changed.", "quantifier": "every client state, remote behaviour and clock", "why_tests_cant": "Combines four stages and every remote answer.", "anchors": ["src/client.rs: Client::update"]}
{"id": "C30", "title": "Only verified metadata reaches local storage", "statement": "During an update every metadata document written to the local repository was accepted by verification immediately before, and it is written under the path of its own role (unversioned, and for root also under its version).", "quantifier": "every remote and local behaviour, every client state", "why_tests_cant": "Needs every failure path.", "anchors": ["src/client.rs: Client::update_root_with_repos", "src/client.rs: Client::update_timestamp_with_repos", "src/client.rs: Client::update_snapshot_with_repos", "src/client.rs: Client::update_targets_with_repos", "src/client.rs: Client::with_trusted_root_keys"]}
{"id": "C31", "title": "Restarting from the cache restores the trusted state", "statement": "After a successful update with a faithful local store, constructing a new client from the same initial root and that store (while nothing has expired) trusts the same root, timestamp, snapshot and targets without contacting the remote.", "quantifier": "every remote behaviour, every initial root, every history of updates", "why_tests_cant": "Quantifies over all histories of what was cached.", "anchors": ["src/client.rs: Client::new", "src/client.rs: Client::with_trusted_root"]}
{"id": "C32", "title": "A crash during update cannot lose or forge trust", "statement": "If the process stops after any prefix of the local writes of an update, restarting from the cache succeeds with a root version at least the one before the update and with only verified metadata.", "quantifier": "every crash point, remote behaviour and initial state", "why_tests_cant": "Crash points must be enumerated for every run.", "anchors": ["src/client.rs: Client::update_root_with_repos", "src/client.rs: Client::new"]}
{"id": "C33", "title": "A fetched target matches its trusted description", "statement": "If fetching a target succeeds, the bytes delivered are no longer than the length in the description the trusted top-level targets list for that path and their digest under the preferred algorithm equals the listed digest.", "quantifier": "every remote behaviour including chunking, truncation and substitution", "why_tests_cant": "The remote is adversarial.", "anchors": ["src/client.rs: Client::fetch_target", "src/client.rs: Client::fetch_target_to_writer", "src/repository.rs: Repository::fetch_target", "src/util.rs: SafeReader"]}
{"id": "C34", "title": "A failed target fetch leaves the local store alone", "statement": "If fetching a target into the local repository fails at any point (missing description, remote error, oversize, digest mismatch), the target previously stored under that path is unchanged.", "quantifier": "every remote behaviour, every failure point", "why_tests_cant": "Failure points depend on chunking.", "anchors": ["src/client.rs: Client::fetch_target", "src/repository/ephemeral.rs: EphemeralRepository::store_target", "src/repository/file_system.rs: FileSystemRepository::store_target"]}
{"id": "C35", "title": "The client finds delegated targets", "statement": "If a target is not listed at top level but is listed in a correctly signed, unexpired delegated role whose paths cover it, the client returns its description.", "quantifier": "every delegation graph within the depth limit and every target path", "why_tests_cant": "Needs all delegation shapes.", "anchors": ["src/client.rs: Client::lookup_target_description"]}
{"id": "C36", "title": "The client does not serve targets under expired metadata", "statement": "A target fetch does not succeed while the trusted root, snapshot or targets metadata is expired.", "quantifier": "every client state and clock", "why_tests_cant": "Time passes between update and fetch.", "anchors": ["src/client.rs: Client::fetch_target_description", "src/client.rs: Client::lookup_target_description"]}
{"id": "C37", "title": "Delegation walks are bounded by the configured depth", "statement": "A target lookup by the client never requests metadata of a role more than max-depth delegations below the top level, and terminates for every remote.", "quantifier": "every remote behaviour, delegation graph and configured depth", "why_tests_cant": "Adversarial graphs can be cyclic.", "anchors": ["src/client.rs: Client::lookup_target_description", "src/client.rs: Config::max_delegation_depth"]}
{"id": "C38", "title": "The root update loop terminates", "statement": "Fetching successive roots terminates for every remote: each round either stops or raises the root version by one, so there are at most 2^32 rounds, and exactly one more fetch than accepted roots when the chain ends.", "quantifier": "every remote behaviour", "why_tests_cant": "An endless remote cannot be tested.", "anchors": ["src/client.rs: Client::update_root_with_repos"]}
{"id": "C39", "title": "Client calls never panic", "statement": "No remote or local behaviour makes a client call panic: in particular the delegated metadata unwrapped during a target walk is always present, and computing the next root version does not overflow.", "quantifier": "every remote and local behaviour, every reachable client state", "why_tests_cant": "Panics hide in corner states.", "anchors": ["src/client.rs: Client::lookup_target_description", "src/client.rs: Client::update_root_with_repos"]}
{"id": "C40", "title": "Update is idempotent", "statement": "If update succeeded and the repository serves the same files at a time when nothing has expired, a second update succeeds, reports no change, changes no trusted metadata and writes nothing to local storage.", "quantifier": "every state after a successful update, every repository content", "why_tests_cant": "Needs every repository content.", "anchors": ["src/client.rs: Client::update"]}
{"id": "C41", "title": "A bad cache cannot prevent start-up or forge trust", "statement": "Once the initial root is accepted, constructing a client always succeeds whatever the local repository contains, and the resulting root is the initial one or a successor verified from it.", "quantifier": "every local repository content and behaviour", "why_tests_cant": "Cache corruption is arbitrary.", "anchors": ["src/client.rs: Client::new", "src/client.rs: Client::with_trusted_root", "src/client.rs: Client::with_trusted_local"]}
{"id": "C42", "title": "Accepted paths stay inside the repository directory", "statement": "For every accepted metadata or target path (and version), joining its components to a base directory yields a location inside that directory: no component is empty of meaning as '.', '..', absolute, or contains a separator, drive or NUL character.", "quantifier": "every string and version", "why_tests_cant": "The input space is all strings.", "anchors": ["src/metadata.rs: safe_path", "src/metadata.rs: MetadataPath::components", "src/metadata.rs: TargetPath::components", "src/repository/file_system.rs: FileSystemRepository"]}
{"id": "C43", "title": "Reserved device names are rejected", "statement": "No accepted path has a component that equals a DOS device name in any letter case.", "quantifier": "every string", "why_tests_cant": "All case variants of all components.", "anchors": ["src/metadata.rs: safe_path", "src/metadata.rs: PATH_ILLEGAL_COMPONENTS_CASE_INSENSITIVE"]}
{"id": "C44", "title": "Different metadata never share a file", "statement": "Two different (metadata path, version) pairs, and two different target paths, are stored in different files.", "quantifier": "every pair of accepted paths and versions", "why_tests_cant": "Collisions are rare pairs of names.", "anchors": ["src/metadata.rs: MetadataPath::components", "src/metadata.rs: MetadataVersion::prefix", "src/metadata.rs: TargetPath::components"]}
{"id": "C45", "title": "Path matching means what it says", "statement": "A path is a child of a pattern exactly when the pattern names a directory (ends in '/') and is a prefix of the path. A path matches a chain of pattern sets exactly when the chain is non-empty and one can pick a pattern from every set such that each later pattern equals or lies under each earlier one and the path equals or lies under the last.", "quantifier": "every path and every chain of pattern sets", "why_tests_cant": "Chains are unbounded.", "anchors": ["src/metadata.rs: VirtualTargetPath::is_child", "src/metadata.rs: VirtualTargetPath::matches_chain"]}
{"id": "C46", "title": "Hash-prefixed target names are always valid and unambiguous", "statement": "Prefixing the file name of an accepted target path with a digest always gives an accepted path in the same directory, and different (path, digest) pairs of the same algorithm give different names.", "quantifier": "every accepted target path and digest", "why_tests_cant": "All path shapes.", "anchors": ["src/metadata.rs: TargetPath::with_hash_prefix"]}
{"id": "C47", "title": "Reads never exceed the announced length", "statement": "A length-checked reader hands out at most the configured number of bytes in total; if the source would deliver more, the read fails.", "quantifier": "every source behaviour: chunk sizes, pending polls, errors, and every limit", "why_tests_cant": "Adversarial sources and chunkings.", "anchors": ["src/util.rs: SafeReader::poll_read", "src/repository.rs: Repository::fetch_metadata"]}
{"id": "C48", "title": "Reads complete only with the right digest", "statement": "A digest-checked read reaches its end successfully only if the digest of everything delivered equals the expected one; otherwise it fails.", "quantifier": "every source behaviour and every digest", "why_tests_cant": "Adversarial sources and chunkings.", "anchors": ["src/util.rs: SafeReader::poll_read"]}
{"id": "C49", "title": "Reading does not depend on chunking", "statement": "The outcome of reading a whole checked stream (bytes or failure) depends only on the bytes delivered and where an error occurs, not on how they are split into chunks or how often the source is pending.", "quantifier": "every two chunkings of the same data", "why_tests_cant": "Scheduling and chunking are unbounded.", "anchors": ["src/util.rs: SafeReader::poll_read", "src/crypto.rs: calculate_hashes"]}
{"id": "C50", "title": "Minimum bitrate enforcement", "statement": "A transfer is aborted for being slow only after the grace period and only if the average rate since the first read is below the minimum; a transfer meeting the minimum is never aborted.", "quantifier": "every sequence of reads and elapsed times", "why_tests_cant": "Timing is continuous and unbounded.", "anchors": ["src/util.rs: EnforceMinimumBitrate::poll_read"]}
{"id": "C51", "title": "Canonical JSON is injective", "statement": "Two JSON values with the same canonical bytes are the same value, so a signature never covers two different contents.", "quantifier": "every pair of JSON values", "why_tests_cant": "The space of JSON values is infinite.", "anchors": ["src/interchange/cjson/mod.rs: canonicalize", "src/interchange/cjson/mod.rs: Value::write", "src/interchange/cjson/mod.rs: convert"]}
{"id": "C52", "title": "Canonical JSON ignores member order", "statement": "The canonical bytes do not depend on the order in which object members are listed; canonicalising is deterministic and total on values without floating point numbers and fails on any value containing one.", "quantifier": "every JSON value and every permutation of members at every level", "why_tests_cant": "Infinite space of values.", "anchors": ["src/interchange/cjson/mod.rs: convert", "src/interchange/cjson/mod.rs: canonicalize"]}
{"id": "C53", "title": "Signature bookkeeping keeps one signature per key", "statement": "Starting from a builder, adding and merging signatures never yields two signatures with the same key ID; adding replaces the signer's old signature and keeps the others; merging keeps every own signature, adds exactly those of unknown keys, and refuses different contents.", "quantifier": "every sequence of sign, add and merge operations", "why_tests_cant": "Operation sequences are unbounded.", "anchors": ["src/metadata.rs: SignedMetadataBuilder::sign", "src/metadata.rs: SignedMetadataBuilder::build", "src/metadata.rs: SignedMetadata::add_signature", "src/metadata.rs: SignedMetadata::merge_signatures"]}
{"id": "C54", "title": "Decoded role definitions are satisfiable", "statement": "Every decoded role or delegation has a threshold of at least one and at most its number of distinct key IDs; decoded versions are at least one; every key in decoded root metadata is stored under its own key ID; delegated role names are distinct.", "quantifier": "every JSON value", "why_tests_cant": "Infinite space of documents.", "anchors": ["src/interchange/cjson/shims.rs: RoleDefinition::try_into", "src/interchange/cjson/shims.rs: RootMetadata::try_into", "src/interchange/cjson/shims.rs: Delegation::try_into", "src/metadata.rs: RoleDefinition::new", "src/metadata.rs: Delegation::new", "src/metadata.rs: Delegations::new"]}
{"id": "C55", "title": "Strongest available hash is chosen", "statement": "The digest used to check a download is the SHA-512 one if listed, else the SHA-256 one, else the download is refused; the choice does not depend on map order or on other listed algorithms.", "quantifier": "every set of listed digests", "why_tests_cant": "All maps and orders.", "anchors": ["src/crypto.rs: hash_preference"]}
{"id": "C56", "title": "File stores are atomic", "statement": "With concurrent stores and a crash at any point, the file at a metadata or target path always holds either its original content or the complete content of one store that finished; a failed store leaves no change.", "quantifier": "every interleaving of any number of stores, every chunking, every crash point", "why_tests_cant": "Interleavings and crash points are unbounded.", "anchors": ["src/repository/file_system.rs: FileSystemRepository::store_metadata", "src/repository/file_system.rs: FileSystemRepository::store_target", "src/repository/file_system.rs: create_temp_file"]}
{"id": "C57", "title": "The in-memory repository is a map", "statement": "Fetching from the in-memory repository returns exactly the content of the latest completed store under the same (path, version), or NotFound if there was none; stores under other names never interfere.", "quantifier": "every interleaving of stores and fetches", "why_tests_cant": "Histories are unbounded.", "anchors": ["src/repository/ephemeral.rs: EphemeralRepository"]}
{"id": "C58", "title": "A document is only stored under its own role's name", "statement": "Fetching or storing metadata of one top-level role under the path of another role is refused.", "quantifier": "every role and path", "why_tests_cant": "All names.", "anchors": ["src/repository.rs: Repository::check", "src/metadata.rs: Role::fuzzy_matches_path"]}
{"id": "C59", "title": "Request URLs stay below the base URL", "statement": "The URL requested for any accepted path starts with the base path and prefix, adds exactly one segment per component, keeps the query, and a server that decodes and normalises the path stays below the base.", "quantifier": "every base URI, prefix and accepted path", "why_tests_cant": "All strings.", "anchors": ["src/repository/http.rs: extend_uri"]}
{"id": "C60", "title": "Different files have different URLs", "statement": "Two different component lists are requested from different URLs.", "quantifier": "every pair of component lists", "why_tests_cant": "All strings.", "anchors": ["src/repository/http.rs: extend_uri"]}
{"id": "C61", "title": "Only status 200 is content", "statement": "An HTTP response is used as content only if its status is 200; 404 means not found and ends the root update normally; anything else is an error that aborts.", "quantifier": "every status code", "why_tests_cant": "All status codes and states.", "anchors": ["src/repository/http.rs: HttpRepository::get", "src/client.rs: Client::update_root_with_repos"]}
{"id": "C62", "title": "Targets are stored apart from metadata", "statement": "In a file system repository created with `new`, no accepted target path is ever stored in, or fetched from, a file that belongs to a metadata path.", "quantifier": "every local path, metadata path, version and target path", "why_tests_cant": "All strings.", "anchors": ["src/repository/file_system.rs: FileSystemRepository::new, FileSystemRepositoryBuilder::build"]}
{"id": "C63", "title": "Computed digests are those of the whole input", "statement": "calculate_hashes returns the number of bytes of the input and, for exactly the requested algorithms, the digest of all bytes, independent of chunking and of repeated algorithms; it fails for no algorithm, an unsupported algorithm or a read error.", "quantifier": "every input, chunking and algorithm list", "why_tests_cant": "All inputs and chunkings.", "anchors": ["src/crypto.rs: calculate_hashes"]}
{"id": "C64", "title": "A computed description accepts exactly its own data", "statement": "A length and digest set computed from some data lets every download of the same data succeed whatever the chunking, and every download it lets through is at most as long and has the same digest under the preferred algorithm.", "quantifier": "every data, algorithm list and source behaviour on both sides", "why_tests_cant": "All data and chunkings; relates producer and consumer code.", "anchors": ["src/crypto.rs: calculate_hashes, hash_preference", "src/util.rs: SafeReader"]}
{"id": "C65", "title": "Downloads are limited and pinned before verification", "statement": "Every metadata request of a client carries the length limit and digest of the trusted description (for root and timestamp: the configured limit), asks for the right file version (next root; versioned file exactly when the trusted root says consistent snapshots and the source is remote), and a document that is longer or hashes differently is never submitted to verification.", "quantifier": "every remote and local behaviour, every sequence of client calls", "why_tests_cant": "Tests fix one repository and look at results, not at every request of every run; limits that are dropped on one branch only show up under attack.", "anchors": ["src/client.rs:498-554", "src/client.rs:592-794", "src/client.rs:892-1024", "src/repository.rs:255-281"]}
{"id": "C66", "title": "A successful update proves freshness", "statement": "When update returns Ok, the trusted timestamp, snapshot and targets metadata were unexpired during the call.", "quantifier": "every client state, remote behaviour and clock", "why_tests_cant": "Tests expire metadata only in single-step scenarios; a replayed, already trusted file takes a different branch.", "anchors": ["src/client.rs:418-425", "src/tuf.rs:251-338", "src/tuf.rs:341-617"]}
{"id": "C67", "title": "Pinned root versions are honoured", "statement": "A client constructed with a root version and trusted keys starts from a root of exactly that version.", "quantifier": "every repository behaviour, version and key set", "why_tests_cant": "Needs a repository that serves another correctly signed root under the requested name.", "anchors": ["src/client.rs:331-382"]}
{"id": "C68", "title": "Canonical bytes read back as the same value", "statement": "Reading the canonical bytes of a JSON value yields that value again, so the metadata decoded after verification is the metadata that was signed.", "quantifier": "every JSON value nested less than 128 levels deep", "why_tests_cant": "Infinite space of values, including all strings and their escapes.", "anchors": ["src/interchange/cjson/mod.rs: canonicalize", "src/interchange/cjson/mod.rs: Json::from_slice", "src/verify.rs: verify_signatures"]}
{"id": "C69", "title": "Every name in decoded metadata is safe", "statement": "Target paths, delegated role names, delegated paths and the role names listed in a snapshot, once decoded, are non-empty relative paths without '.', '..', backslashes, colons or control characters in any component, so they never lead outside a repository.", "quantifier": "every byte string", "why_tests_cant": "Infinite space of documents; a missing check on one of the five kinds of names only shows with a hostile document.", "anchors": ["src/metadata.rs: safe_path", "src/metadata.rs: MetadataPath::deserialize", "src/metadata.rs: VirtualTargetPath::deserialize", "src/interchange/cjson/shims.rs: SnapshotMetadata::try_into"]}
{"id": "C70", "title": "Encoded metadata decodes to the same metadata", "statement": "Metadata of any of the four kinds that satisfies the rules of the format can be serialized, and deserializing the result gives metadata that is equal as Rust compares it (hash maps and sets without order). In particular metadata that was obtained by decoding can be encoded again and decodes to itself.", "quantifier": "all root, timestamp, snapshot and targets metadata; all key and date libraries whose formats can be read back", "why_tests_cant": "Example documents exercise few combinations of keys, schemes, hash algorithms, custom data, delegations and member orders.", "anchors": ["src/interchange/cjson/shims.rs", "src/crypto.rs:731-801", "src/metadata.rs:674-700"]}
{"id": "C71", "title": "What is signed and published is accepted", "statement": "Signed metadata made with the crate (builder, SignedMetadata::new, add_signature, merge_signatures) can be turned into bytes with to_raw; parsing these bytes gives back the same signatures and content, and a client that trusts at least the threshold number of the signing keys verifies them successfully and obtains the same metadata.", "quantifier": "all metadata that can be published, all ways to make signed metadata, all key sets, thresholds and hash map orders", "why_tests_cant": "Depends on the composition of encoding, canonicalization, signing, the JSON reader with its recursion limit, deduplication of signatures and decoding.", "anchors": ["src/metadata.rs:275-466", "src/verify.rs:66-155", "src/interchange/cjson/mod.rs:199-316"]}
{"id": "C72", "title": "Terminating delegations end the search", "statement": "If the search for a target reaches a terminating delegation that covers the target path, then no delegation listed after it can supply the target.", "quantifier": "every state, delegation list, target path and clock reading", "why_tests_cant": "Depends on the flags of nested delegations and on which roles are trusted at that moment.", "anchors": ["src/tuf.rs: Tuf::target_description"]}
{"id": "C73", "title": "An honest repository is accepted", "statement": "If the remote repository serves root files that lead from the root the client trusts to a last, unexpired root, and below it a timestamp, a snapshot and targets metadata that are signed by enough keys of this root, match the lengths, hashes and versions announced for them and have not expired, and if the client trusts nothing newer and the local repository can be written, then Client::update returns Ok and the client trusts exactly the published metadata.", "quantifier": "all clients in reachable states, all repositories, all chunkings of the files, any number of root changes", "why_tests_cant": "Rejections are tested one by one; that no check rejects an honest repository needs every state the client can be in, including caches that are partly outdated.", "anchors": ["src/client.rs: Client::update", "src/tuf.rs", "src/repository.rs: fetch_metadata"]}
{"id": "C74", "title": "A published target is delivered", "statement": "If the trusted top-level targets metadata lists a target and the remote repository serves its bytes (under the name with the digest in front if consistent snapshots are in use), then fetch_target_to_writer returns Ok and passes exactly these bytes to the writer, and fetch_target returns Ok and stores exactly these bytes; the trusted metadata does not change.", "quantifier": "all targets, contents, chunkings, target paths, with and without consistent snapshots", "why_tests_cant": "Depends on the composition of lookup, name construction, length and hash checks over all chunkings.", "anchors": ["src/client.rs: fetch_target, fetch_target_to_writer", "src/repository.rs: fetch_target", "src/util.rs: SafeReader"]}
{"id": "C75", "title": "Only a missing file ends the root update", "statement": "Client::update succeeds only if, during this call, the remote repository said that the root file after the one now trusted does not exist (for an HTTP repository: the server answered 404). Any other error answer to that request makes update fail with this error and leaves the trusted metadata unchanged; an error answer never silently ends the search for newer roots.", "quantifier": "all clients, all remote repositories (arbitrary stateful code), all errors, all streams", "why_tests_cant": "The loop runs over an unknown number of root versions and the errors come from streams that may fail at any point.", "anchors": ["src/client.rs:483-579", "src/error.rs:96-103", "src/repository/http.rs:211-240"]}
{"id": "C76", "title": "A key ID stands for one key", "statement": "Two keys that were created by the crate or decoded from root metadata or from delegations and that have the same key ID are the same key (type, scheme, declared hash algorithms and key material), unless the canonical documents of these two keys are a SHA-256 collision. So nobody can give a key ID that a role names a new meaning in another document. (The converse does not hold: one key has a different ID for each list of declared hash algorithms.)", "quantifier": "all keys, all documents, all base64 and SPKI libraries whose output can be read back", "why_tests_cant": "Injectivity of encoding plus canonicalization over all keys cannot be sampled.", "anchors": ["src/crypto.rs:126-170", "src/crypto.rs:567-582", "src/crypto.rs:747-801"]}
{"id": "C77", "title": "Builders produce the metadata that was asked for", "statement": "A chain of calls on RootMetadataBuilder, SnapshotMetadataBuilder, TimestampMetadataBuilder or TargetsMetadataBuilder builds metadata with the last version, expiry, thresholds and delegations set, all keys added, and for each path the description inserted last. A description computed from signed metadata carries its version and the length and digests of exactly the bytes that to_raw publishes; one computed from a reader those of everything the reader delivers. The root builder succeeds exactly if the version is positive and every threshold lies between 1 and the number of keys added. What is built can be encoded and read back, except that a root with a key added twice to a role is refused by every client.", "quantifier": "all sequences of builder calls, all keys, contents, readers, algorithms", "why_tests_cant": "Builder calls combine in unboundedly many orders, and the digests must match bytes produced later by another function.", "anchors": ["src/metadata.rs:497-656", "src/metadata.rs:819-840", "src/metadata.rs:965-1064", "src/metadata.rs:1114-1139", "src/metadata.rs:1192-1329", "src/metadata.rs:1582-1642", "src/metadata.rs:1753-1949"]}
{"id": "C78", "title": "What is built, signed and uploaded is what clients get", "statement": "If targets, snapshot and timestamp metadata are built with the builders, signed with enough of the keys of a root, and the to_raw results are uploaded under their names, then a client that trusts this root (or an earlier one that leads to it), that is not ahead of the release and whose clock is before the expiry dates succeeds in update and then trusts exactly the metadata that was built. A target whose content was handed to the targets builder and uploaded under its name is then delivered with exactly this content.", "quantifier": "all metadata, keys, signatures, contents, clients, local repositories, chunkings of the remote streams", "why_tests_cant": "The claim composes builder, encoder, signing, canonical JSON, parser, verification and download for arbitrary metadata.", "anchors": ["src/metadata.rs:373-420", "src/metadata.rs:965-1064", "src/metadata.rs:1192-1329", "src/client.rs:450-800", "src/verify.rs:1-130"]}
{"id": "C79", "title": "Keys are written as RFC 4648 base64 and DER and can be read back", "statement": "Base64 written by the crate is the RFC 4648 URL alphabet with padding, and reading it gives the same bytes. Every key that can be read from SPKI can be written again and read as the same key. Exactly the Ed25519 keys of 32 bytes and the RSA keys of at most 65515 bytes can be listed in metadata. Two SPKI documents that are read as the same key differ at most in the content of the NULL parameters.", "quantifier": "all byte strings, all keys", "why_tests_cant": "The formats are recursive over unbounded byte strings with length-dependent encodings; tests use a few fixed keys.", "anchors": ["src/crypto.rs:569-676", "src/crypto.rs:780-957", "src/interchange/cjson/shims.rs:110-140"]}
{"id": "C80", "title": "Expiry dates mean the same to author and client", "statement": "The date in published metadata is the Gregorian calendar date of the expiry time. A client that reads the metadata sees an expiry that is never later than the author's and less than a second earlier, for all four roles. Exactly the whole seconds up to year 9999 survive unchanged; metadata that expire after the year 9999 can be built and signed, but nobody can read them.", "quantifier": "all points in time that chrono can represent, all metadata", "why_tests_cant": "Calendar arithmetic has corner cases (leap years, month ends, negative years, five-digit years) over an unbounded range.", "anchors": ["src/interchange/cjson/shims.rs:11-27", "src/metadata.rs:497-656", "src/interchange/cjson/shims.rs:29-105"]}
{"id": "C81", "title": "Private keys sign for the public key that metadata lists", "statement": "From an RSA private key in PKCS#8 form, exactly the public key with the same modulus and exponent is extracted, and nothing is extracted from anything else. Whatever a loaded Ed25519 or RSA private key signs verifies under its public key and carries its key ID; signing never panics; the public key can be listed in metadata. Signed metadata hold exactly one signature for each key that signed, over the canonical form of the content, whether signed with the builder, new, add_signature or merge_signatures. A root signed with enough of a client's keys is accepted by the client.", "quantifier": "all key files, schemes, messages, random numbers, sets of keys, ways of signing", "why_tests_cant": "Key files are nested variable-length encodings, and the claim composes loading, signing, encoding, parsing and verification; tests use two RSA and a few Ed25519 keys.", "anchors": ["src/crypto.rs:331-555", "src/crypto.rs:912-957", "src/metadata.rs:298-466"]}
{"id": "C82", "title": "Pretty-printed metadata is the same document", "statement": "What JsonPretty::to_writer writes for signed metadata is the text that to_raw gives plus white space between tokens. Every reader and decoder reads the same from both, and signature verification gives the same result for both.", "quantifier": "all signed metadata whose content is nested less than 127 levels deep and can be published, all decoders, keys and thresholds", "why_tests_cant": "Needs reasoning about all JSON documents; the doc test compares one document with one expected text.", "anchors": ["src/interchange/cjson/pretty.rs: to_writer", "src/metadata.rs: SignedMetadata::to_raw"]}
{"id": "C83", "title": "Builders describe published bytes under JsonPretty too", "statement": "Under the JsonPretty interchange, the length and digests that TimestampMetadataBuilder::from_snapshot and SnapshotMetadataBuilder::insert_metadata compute are those of the bytes that to_raw publishes, so that clients accept the published snapshot and targets metadata.", "quantifier": "all signed metadata, digest functions and lists of hash algorithms", "why_tests_cant": "No test publishes with JsonPretty; a test that did would show one failing document, not that every document fails.", "anchors": ["src/metadata.rs: TimestampMetadataBuilder::from_snapshot, SnapshotMetadataBuilder::insert_metadata_with_path, SignedMetadata::to_raw", "src/interchange/cjson/pretty.rs: to_writer"]}
{"id": "C84", "title": "From private keys to delivered targets", "statement": "An author builds targets, snapshot and timestamp metadata with arbitrary expiry dates up to the year 9999, signs them with enough loaded Ed25519 or RSA private keys, perhaps after rotating root keys, and uploads the to_raw results and the content of a target. Then a client that is not ahead of the release and whose clock is before the second of each expiry date follows the key rotations, succeeds to update, trusts exactly the metadata that was built (up to fractions of a second in the expiry dates), and writes exactly the content when asked for the target. No assumption is made about base64, DER or date formats.", "quantifier": "all keys, chains of builder calls, rotations, clients, remote repositories, targets, digest functions", "why_tests_cant": "The claim spans every module of the crate and has unboundedly many inputs at every step.", "anchors": ["src/client.rs: update, fetch_target_to_writer", "src/metadata.rs: builders, SignedMetadata", "src/crypto.rs: PrivateKey", "src/interchange/cjson/shims.rs"]}
{"id": "C85", "title": "New clients start with the root the author made", "statement": "A client with an empty local repository that is constructed with the bytes of a signed root, or with a version, a threshold and keys for which the remote root of that version is signed, starts with exactly the root the author built (up to fractions of a second in its expiry date), and construction fails neither because nothing is stored nor otherwise. When it is given keys, exactly the bytes of the root are stored. The new client then follows key rotations, updates, and delivers the published targets.", "quantifier": "all roots, keys, rotations, releases, faithful local repositories, remote repositories that serve the files", "why_tests_cant": "Construction swallows errors while loading local metadata; that this neither loses nor adds trust has to hold for every root.", "anchors": ["src/client.rs:162-330", "src/client.rs: update"]}
{"id": "C86", "title": "Local repositories are maps, and clients cannot tell them apart", "statement": "The file system repository behaves like a map: any sequence of fetches and stores returns what it would return if each path had its own cell, also when sources fail, when writes fail half way, and when the repository is opened again in between. This holds for metadata paths without dots and empty directory names, for target paths none of which is a directory of another, and for separate directories for metadata and targets, as FileSystemRepository::new makes them. Hence construction and all calls of a client return the same with a file system repository as with a map, a successful update is restored after a restart, and a client stopped in the middle of its writes can be constructed again with a root that is not older. The in-memory repository behaves like a map for all paths. The conditions are needed: a delegated role called 2.root overwrites the stored root 2 in a file system repository.", "quantifier": "all sequences of calls, all directories, all disks, all failures of writes, all remote repositories, clocks and callers", "why_tests_cant": "Whether two of unboundedly many names meet in one file, or one is a directory of the other, is a property of all pairs of names; failures half way through a write cannot be placed at every point by tests.", "anchors": ["src/repository/file_system.rs", "src/repository/ephemeral.rs", "src/client.rs: update, fetch_target"]}
{"id": "C87", "title": "A repository directory behind a web server is what HTTP clients see", "statement": "If a web server hands out the directory of a FileSystemRepository, an HttpRepository that points there delivers exactly the stored files and says that a file is missing exactly if there is none: for all accepted paths without percent signs, with the directories and prefixes appended to the address. It says that something is missing exactly if the server has answered 404; a broken, slow or refused transfer is never taken for a missing file. Hence the whole life of a target: an author builds, signs and stores metadata and a target with a file system repository; a client that is installed with the first root or keys for it, with an HTTP repository that points at the server and a new file system repository of its own, updates successfully and gets exactly the author's bytes, also in its own file. The builder of the HTTP repository uses what it was told last, and 4096 bytes per second and the user agent rust-tuf otherwise.", "quantifier": "all directories, addresses, prefixes, servers that hand out files fast enough, paths, releases, targets, installations, contents", "why_tests_cant": "It composes names of files, encoding of URLs, decoding by servers, transfer rates, status codes, formats, signatures and the client's rules; a test can only run one such chain.", "anchors": ["src/repository/http.rs", "src/repository/file_system.rs", "src/util.rs: EnforceMinimumBitrate", "src/client.rs"]}
{"id": "C88", "title": "Without enough keys nobody can make a client accept anything", "statement": "Let honest key holders sign only what the author approves of, and let their signatures not be forgeable. If an attacker has less than a threshold of the root keys of the root that a client trusts and of each later root of the author, the client's root stays or becomes a newer one that the author has approved of, whatever the attacker does with all other keys, the repositories, the network, the clock and the local files; keys that an earlier rotation has removed do not matter. A client that is installed with keys of which the attacker has less than a threshold starts with a root of the author. Trusted timestamp, snapshot and targets metadata is the author's, each if less than a threshold of its keys is lost. If the same holds for targets keys, whatever a client writes or stores for a target with success matches a description that the author has approved of for this path, even if all timestamp and snapshot keys are lost. The threshold of targets keys is needed.", "quantifier": "all attackers, sets of lost keys, sets of approved documents, repositories, networks, clocks, local files, installations, sequences of calls, target paths", "why_tests_cant": "It quantifies over everything an attacker could send; a test can only try attacks that its author has thought of.", "anchors": ["src/crypto.rs: PublicKey::verify", "src/metadata.rs: SignedMetadata::verify", "src/tuf.rs", "src/client.rs"]}
{"id": "C89", "title": "Starting a client asks the local repository, updating it asks the remote one", "statement": "A client that is constructed from a given root or from local metadata does not use the remote repository: with any other remote repository the result, everything stored and all requests are the same; with_trusted_local starts with version 1 of the local root. A client that is constructed from keys takes the local root of the given version if there is one, then stores nothing and does not use the remote repository either; only if the local repository says that it has no such root, the remote one is asked, and the root is stored under its version before the client exists. An update does not use what the local repository answers: whatever is changed in it while the client runs, the update does the same.", "quantifier": "all worlds, repositories, clocks, contents, keys, thresholds, versions", "why_tests_cant": "A test uses some repositories; that others would make no difference is a statement about pairs of runs.", "anchors": ["src/client.rs: with_trusted_local", "src/client.rs: with_trusted_root", "src/client.rs: with_trusted_root_keys", "src/client.rs: update"]}
{"id": "C90", "title": "Clients recover once lost keys are replaced", "statement": "A new root makes clients forget: whatever timestamp, snapshot and targets metadata a client trusts, also of the largest versions, if its root is older than the last one of an honestly published repository, update succeeds and the client trusts exactly what is published. If an attacker had any keys but less than a threshold of root keys, and the client has done anything under the attacker's control, also learnt the new root in the meantime, then the first update from the author's repository succeeds, provided that the last root lists keys of which the attacker has less than a threshold and that the author has approved of nothing newer than what is published. Without a new root there is no recovery: a client that has accepted a timestamp of the largest version refuses all of the author's.", "quantifier": "all attackers, sets of lost keys other than a threshold of root keys, sequences of calls, worlds, repositories, versions", "why_tests_cant": "It quantifies over everything that a client may have accepted before.", "anchors": ["src/tuf.rs: update_root, purge_metadata", "src/tuf.rs: update_timestamp", "src/client.rs: update"]}
{"id": "C91", "title": "Restarts in time keep the protection against old timestamps", "statement": "Whatever calls a client executes against whatever repositories, and however often it is constructed again from its local repository, also after having been stopped in the middle of a call, as long as its root stays the same it trusts a timestamp whose version is not less than that of any timestamp it trusted between its calls before. This needs that it is not restarted after the root or the timestamp it trusts has expired: an expired timestamp in the local repository is not loaded, so that the next update may accept an older one that expires later.", "quantifier": "all interleavings of calls, restarts and calls that are stopped after any number of writes, all remote repositories and clocks, all versions", "why_tests_cant": "Old timestamps would have to be replayed after every history of calls and restarts; the loss appears only when three events at different times are combined.", "anchors": ["src/client.rs: with_trusted_root, new, update", "src/client.rs: update_timestamp_with_repos", "src/tuf.rs: update_timestamp"]}
{"id": "C92", "title": "Clients can update while the author publishes", "statement": "If consistent snapshots are used and the author keeps the root and uploads the documents of each release so that the timestamp comes last (as RepoBuilder::commit does), then every update of a client succeeds whatever is uploaded between, or during, its requests, and leaves the client with exactly one complete release: one that was current at some moment of the call, never a mixture. If roots are replaced meanwhile, the same holds provided the releases published during a call are signed for every root that was the last one since the call began; the client then has one of these roots together with one release. Without consistent snapshots, with the timestamp uploaded before the snapshot, or with a root replaced during the call by one with other keys and no such releases, an update can fail.", "quantifier": "all sequences of releases, all interleavings of uploads with the requests of any number of updates, all chunkings of the answers", "why_tests_cant": "The interleavings of an upload with the requests of a client are too many to enumerate, and a test with a fixed repository shows none of them.", "anchors": ["src/client.rs: update, update_timestamp_with_repos, update_snapshot_with_repos, update_targets_with_repos", "src/tuf.rs: update_timestamp, update_snapshot, update_targets", "src/repo_builder.rs: commit"]}
{"id": "C93", "title": "Errors name the role they are about", "statement": "If an update of trusted metadata, a lookup in it, or Client::update fails with ExpiredMetadata or MissingMetadata for a role, then metadata of that role, trusted or offered, really have expired (by the clock as read during the call), or none are trusted. Client::update never fails with MissingMetadata. One error is wrong: expired targets metadata are reported as expired snapshot metadata.", "quantifier": "all states reachable by updates, all documents, repositories and clocks, all orders of events", "why_tests_cant": "A test checks single error values in prepared states; which of several roles an error may name when several conditions fail at once, at different readings of the clock, is not covered by any finite list of states.", "anchors": ["src/tuf.rs: update_timestamp, update_snapshot, update_targets, update_delegation, target_description", "src/tuf.rs: safe_root_ref, safe_snapshot_ref, safe_targets_ref, safe_timestamp_ref", "src/client.rs: update"]}
{"id": "C94", "title": "No document stops the reader or the client", "statement": "Whatever bytes a repository serves, reading them as a signed document or as metadata gives a result or Error::Encoding, and checking their signatures gives metadata or one of three errors; neither panics nor runs forever. Hence no bytes, at whatever time they are served, make a call of a client that exchanges JSON panic or run forever, unless the client trusts a root with the largest version number.", "quantifier": "all byte strings, all keys and thresholds, all repositories and clocks, all calls of a client", "why_tests_cant": "The documents are chosen by an attacker out of all byte strings; tests and fuzzing see finitely many.", "anchors": ["src/interchange/cjson/mod.rs: from_slice, canonicalize", "src/verify.rs: verify_signatures", "src/client.rs: update, fetch_target"]}
{"id": "C95", "title": "The work of a search for a target", "statement": "A call that looks for a target asks the repositories for at most 2 * (b + b^2 + ... + b^(d+1)) metadata files, where d is the configured depth and b the largest number of roles that trusted targets metadata delegate to. The bound is exponential in the depth and essentially reached: a repository with a single document of targets metadata can cause b + b^2 + ... + b^(d+1) requests, because roles that were visited are visited again.", "quantifier": "all repositories, all reachable trust states, all target paths, all numbers of roles and depths", "why_tests_cant": "Tests use small delegation trees; the growth with cyclic delegations only shows for families of repositories.", "anchors": ["src/client.rs: fetch_target_description, lookup_target_description"]}
{"id": "C96", "title": "Configured limits are enforced", "statement": "A configuration built with ConfigBuilder has, for each setting, the value set last or the documented default, and building never fails. Every metadata request of a client with this configuration, from its construction through any calls and whether or not they fail, carries the configured limit (root, timestamp) or a limit from trusted metadata, and no document longer than its limit is ever received for verification. Unless a limit was turned off explicitly, no request is unlimited.", "quantifier": "all sequences of setter calls, all repositories, all ways to construct a client, all sequences of calls", "why_tests_cant": "A limit that is lost between builder, configuration and one of the many request sites shows only with oversized answers at that site; tests cover the defaults.", "anchors": ["src/client.rs: ConfigBuilder, Config, with_trusted_root_keys, with_trusted_local, update", "src/client.rs: DefaultTranslator"]}
{"id": "C97", "title": "Equality, order and hash of public keys agree", "statement": "PublicKey's Ord is a linear order of key IDs and agrees with PartialOrd. Two keys are equal exactly when they feed a hasher the same data. For keys whose ID was computed by the library, equal keys compare as equal, keys that compare as equal are equal (or exhibit a SHA-256 collision), and equality means identity although it skips the key ID. So ordered and hashed collections treat the same keys as duplicates.", "quantifier": "all pairs of keys", "why_tests_cant": "The three implementations look at different fields; agreement concerns all pairs of keys and depends on how key IDs are computed.", "anchors": ["src/crypto.rs: PartialEq, Ord, PartialOrd and Hash for PublicKey"]}
{"id": "C98", "title": "A search asks only roles whose delegations cover the target", "statement": "In a call about a target, the client requests metadata only of roles that the trusted snapshot lists and that a chain of delegations leads to, starting at the trusted top-level targets. Each delegation of the chain was trusted before the request and names a directory containing the path. If no top-level delegation covers the path, no metadata is requested.", "quantifier": "all clients, paths, delegation trees and repositories, including hostile ones", "why_tests_cant": "Delegation trees are unbounded and may change while they are searched; tests fix one tree.", "anchors": ["src/client.rs: Client::lookup_target_description", "src/metadata.rs: VirtualTargetPath::is_child"]}
{"id": "C99", "title": "An update asks for no more than it needs", "statement": "However Client::update ends, it has asked the remote repository for the roots following the trusted one, in order, with at most one request beyond the accepted ones, and then for timestamp, snapshot and targets, in this order and at most once each; what it received is within (accepted roots + 1) times max_root_length, max_timestamp_length and the lengths announced by the trusted timestamp and snapshot. A successful update asks for the snapshot exactly if the announced version is not trusted yet, and for the targets exactly if the listed version is not trusted yet.", "quantifier": "all clients, trusted states, repositories and outcomes of the update", "why_tests_cant": "The number of requests depends on what a possibly hostile repository serves; a test observes single exchanges.", "anchors": ["src/client.rs: Client::update", "src/client.rs: update_root_with_repos, update_timestamp_with_repos, update_snapshot_with_repos, update_targets_with_repos"]}
{"id": "C100", "title": "Interrupted calls do no harm", "statement": "The connection to an honest repository may fail at any request, and the caller may drop the future of any call while it waits for a repository. Whatever happened in such attempts, an update over a working connection then succeeds and the client trusts exactly the published metadata. A dropped call did exactly an initial part of what the whole call does: its requests, writes and verified updates are the first ones of the whole call, and what the client trusts is the result of those updates. (A write that was missed is not made up for: see the limit theorem.)", "quantifier": "for all clients, honest repositories, sequences of attempts, connections that fail at any requests in any way, and points at which each call is dropped", "why_tests_cant": "A test can inject a failure at one request of one call; there is one way to fail per request and combination of earlier failures, and a dropped future leaves no error to check.", "anchors": ["src/client.rs:418-425", "src/client.rs:478-795", "src/client.rs:797-1030", "src/repository.rs:255-345"]}
{"id": "C101", "title": "Unknown members are ignored but signed", "statement": "A document of a newer author may have additional members, at any place where the format has an object with fixed members. A reader accepts such a document exactly if it accepts it without them, and reads the same metadata; the same holds for the outer object and each signature in it. The added members are covered by the signatures: adding a member changes the bytes that are signed, so that members cannot be added or removed under a signature. (Digests under unknown algorithm names, keys of unknown type or scheme, and further files in a timestamp are not ignored: see the limit theorems.)", "quantifier": "for all documents, places, added names and values, keys, thresholds and signatures", "why_tests_cant": "A test adds one member at one place; there are infinitely many names and values, and the rule must hold at every level of five document types and for the signed bytes.", "anchors": ["src/interchange/cjson/shims.rs:30-152", "src/interchange/cjson/shims.rs:154-205", "src/interchange/cjson/shims.rs:207-269", "src/interchange/cjson/shims.rs:271-321", "src/interchange/cjson/shims.rs:323-367", "src/interchange/cjson/shims.rs:369-497", "src/verify.rs:86-120", "src/crypto.rs:747-801"]}
{"id": "C102", "title": "A trusted root can always be replaced", "statement": "In every state that a client can reach, the trusted root lists enough keys for the root role, so that its owners can always sign a successor. A role for which the root lists fewer keys than its threshold can never be updated: no timestamp, snapshot, targets or delegated metadata is accepted for it, every update of the client fails and no target is delivered, whatever the repository serves, until the root (or the delegating metadata) is replaced. (Such a root is decoded and accepted: see the limit theorem.)", "quantifier": "for all histories, documents, repositories, clocks and clients", "why_tests_cant": "Tests use roots whose roles have their keys; that no document at all is accepted for a role, and that the root role never gets into this state, are statements about all documents and histories.", "anchors": ["src/interchange/cjson/shims.rs:72-152", "src/metadata.rs:713-755", "src/tuf.rs:64-155", "src/tuf.rs:157-338", "src/verify.rs:63-155"]}
{"id": "C103", "title": "Repeated members have one meaning", "statement": "If an object in what is signed has several members with the same name, the last one counts, for the signature as well as for the content that is read. Two documents give the same bytes to sign exactly if they have the same content in this sense, regardless of the order of members; and documents with the same signatures whose signed parts have the same content have the same effect on every verification and first start. A document that repeats its signed part, its list of signatures, or the key ID or value of a signature is refused.", "quantifier": "for all documents as they are written, with any members in any order and any repetitions at any depth", "why_tests_cant": "Which of two repeated members a parser takes differs between libraries and between the code paths that check and that read a document; tests contain no repeated members, and agreement of the two paths must hold for all of them.", "anchors": ["src/verify.rs:86-113", "src/interchange/cjson/mod.rs:207-250", "src/interchange/cjson/mod.rs:310-433", "src/tuf.rs:64-100"]}
{"id": "C104", "title": "Delegations for other paths do not affect a search", "statement": "Adding, moving or changing a delegation that does not cover a path makes no difference to a client call about that path: same reply, same requests, same change to the trusted metadata.", "quantifier": "all clients, calls, paths, delegation lists and repositories, including hostile ones", "why_tests_cant": "The claim compares whole executions with arbitrary delegation lists, trees and repository answers; tests use one or two delegations that all cover the target.", "anchors": ["src/client.rs:893-1027", "src/tuf.rs:621-756"]}
{"id": "C105", "title": "Signatures count only under the key IDs a role names", "statement": "Metadata is trusted for a role only if it carries at least the threshold number of valid signatures whose key IDs the role definition names, each made by a key with this very ID. The trusted root and the trusted timestamp, snapshot and targets metadata meet the role definitions of the trusted root in this sense, delegated metadata the delegation in the trusted parent.", "quantifier": "every history of update calls on JSON metadata from any bootstrapped store; every delegation and document", "why_tests_cant": "A test fixes one document and one key map; here whoever writes the metadata chooses under which IDs keys are listed, and only a proof over all maps shows where the listed ID and the key's own ID can differ.", "anchors": ["src/tuf.rs:621-663 find_delegation_threshold_and_keys", "src/verify.rs:66-155 verify_signatures", "src/interchange/cjson/shims.rs:65-87 RootMetadata::try_into", "src/interchange/cjson/shims.rs:445-447 Delegations::try_into"]}
{"id": "C106", "title": "The timestamp keys guard everything clients trust", "statement": "As long as less than a threshold of root keys and of timestamp keys is stolen, and nobody finds two documents with equal digests, clients trust only snapshots and (delegated) targets metadata that the author has published, and deliver only targets that match descriptions in published targets metadata, even if all keys for snapshots, targets metadata and delegated roles are stolen. If the author uses every version number once, the trusted timestamp, snapshot and targets metadata always belong to one release: pieces of different releases cannot be combined.", "quantifier": "every client session from construction on, every behaviour of repositories, local files and clocks, every attacker with fewer than the threshold of root and timestamp keys", "why_tests_cant": "The attacker may combine genuine and self-made documents of all releases in any order and over any number of calls and restarts; tests try a few replacements, the claim is about all of them.", "anchors": ["src/client.rs:655-716 update_snapshot_with_repos", "src/client.rs:730-793 update_targets_with_repos", "src/client.rs:856-980 lookup_target_description", "src/tuf.rs:341-410 update_snapshot", "src/tuf.rs:515-580 update_targets"]}
{"id": "C107", "title": "A document serves for one role", "statement": "Metadata documents name their type, and a document is read as metadata of at most one of the four roles, whoever has signed it. So a genuine document of one role never replaces that of another one, also if one key signs for several roles: update calls for another role refuse it and change nothing, and no client can be started from anything but root metadata. (Delegated metadata do not name their role: where two roles are delegated to the same keys with the same version, the metadata of one are accepted as those of the other by the record; only a digest in the snapshot tells them apart.)", "quantifier": "every byte sequence, every role, every state of the record and every update call", "why_tests_cant": "A test swaps a few valid files; the claim is about every document, also crafted ones (arrays instead of objects, variant objects, members in any order).", "anchors": ["src/interchange/cjson/shims.rs:65-71 RootMetadata::try_into", "src/interchange/cjson/shims.rs:184-190 TimestampMetadata::try_into", "src/interchange/cjson/shims.rs:233-239 SnapshotMetadata::try_into", "src/interchange/cjson/shims.rs:299-305 TargetsMetadata::try_into", "src/tuf.rs:666-757 update_delegation"]}
{"id": "C108", "title": "Editing existing metadata changes only what is called for", "statement": "A builder made from existing root or snapshot metadata builds metadata that differ from the old ones exactly in what the calls say: version, expiry, thresholds and consistent snapshots are those of the last call or else the old ones, keys come in addition to the old ones, and listed metadata are those of the last call about a path or else the old ones. Edited metadata can be published if the old ones could, and a root edited to the next version and signed by enough old and enough new root keys is accepted by every client that trusts the old root. (No call removes anything: a builder made from a root cannot revoke a key, one made from a snapshot cannot drop a path, and adding a key that a role has already makes a root that no client accepts.)", "quantifier": "every root, snapshot, chain of builder calls and client", "why_tests_cant": "A test makes a few edits; which of thirteen fields an unlucky order of calls loses is a question about all chains of calls.", "anchors": ["src/metadata.rs:639-656 From<RootMetadata> for RootMetadataBuilder", "src/metadata.rs:494-637 RootMetadataBuilder", "src/metadata.rs:1195-1300 SnapshotMetadataBuilder", "src/tuf.rs:155-205 update_root"]}
{"id": "C109", "title": "Clients agree", "statement": "Two clients that start from the same root never end up on diverging root chains: the root of one leads to that of the other by accepted rotations, and roots with the same version are equal. Clients that trust timestamps with the same version trust the same timestamp, the same snapshot and the same targets metadata as far as they have got, and deliver the same bytes for the same target. Metadata of a role, delegated or not, with the same version are the same. This holds whatever each client is shown, as long as less than a threshold of root keys and of timestamp keys is stolen, the author uses every version number once and nobody finds two documents with equal digests; keys for snapshots, targets metadata and delegated roles may all be stolen.", "quantifier": "every pair of client sessions with arbitrary, different repositories, clocks, local files, configurations and trusted roots, every attacker with fewer than the threshold of root and timestamp keys", "why_tests_cant": "An attacker may show each client something different over any number of calls; a test compares two clients in one scenario, the claim is about all pairs of executions.", "anchors": ["src/tuf.rs:155-246 update_root", "src/tuf.rs:251-338 update_timestamp", "src/tuf.rs:341-485 update_snapshot", "src/tuf.rs:515-617 update_targets", "src/client.rs:418-427 update", "src/client.rs:807-819 fetch_target_to_writer"]}
{"id": "C110", "title": "Clients can share a local repository", "statement": "Several clients that start from the same root may use one local repository at the same time: their calls run side by side with their writes mixed in any order, some of them are shown old mirrors, some are stopped in the middle of a call. A client that is started from this repository afterwards trusts the root that any of them trusted, or one that follows it in the chain of rotations. Every write of a client is one that the others are prepared for, whatever the client is shown: a root is written only after its predecessor, and only if the predecessor's keys and its own keys have signed it. (Only for roots: a client that has been shown an older timestamp writes it over a newer one.) Two different successors of the same root must not exist; they do not if the root keys are not stolen and the author uses every version number once.", "quantifier": "every number of clients, every interleaving of their reads and writes, all remote repositories, clocks, calls and failures of writes", "why_tests_cant": "Interleavings of several clients at the level of single file accesses cannot be enumerated by tests.", "anchors": ["src/client.rs:260-270 with_trusted_root", "src/client.rs:483-579 update_root_with_repos", "src/client.rs:418-427 update", "src/repository/file_system.rs:154-176 store_metadata"]}
{"id": "C111", "title": "Values written in hexadecimal have one spelling", "statement": "Signature values, hashes and Ed25519 keys are written with two lower-case hexadecimal digits for every byte, and a text is read just if it is written that way: upper-case digits, odd lengths, spaces and prefixes are refused. So a value has exactly one spelling. An object is read as a signature just if it has the members `keyid` and `sig` once each with a text of 64 bytes and a spelled value; hashes are read just if every entry names sha256 or sha512 and spells a value, and the last entry of a name counts; `SignatureValue::from_hex` and the display of hash values use the same spelling.", "quantifier": "every text, every byte sequence and every JSON value", "why_tests_cant": "Tests try a few texts; that no other text is read as a given value is a claim about all texts.", "anchors": ["src/crypto.rs:240-242 SignatureValue::from_hex", "src/format_hex.rs:12-20 deserialize", "src/crypto.rs:747-801 PublicKey::deserialize", "src/crypto.rs:816-821 Signature", "src/crypto.rs:887-891 HashValue::fmt"]}
{"id": "C112", "title": "Clients can download while the author publishes", "statement": "If consistent snapshots are in use, the files of each release are uploaded in the order of RepoBuilder::commit, and the target files of the current and of earlier releases are there under their names with digests, then a client can call update, fetch_target and fetch_target_to_writer in any order at any time: every update returns Ok, and between two updates fetch_target_to_writer and fetch_target return Ok and deliver exactly the content that the release the client has means by the path, whatever is published meanwhile, also during the call and also while roots are replaced. That release was current at some moment of the last update. Without names that contain digests, or if earlier targets are removed, a download can fail.", "quantifier": "all sequences of releases and of roots, all sequences of calls, any number of uploads before and during each request, all targets", "why_tests_cant": "A test fixes a few interleavings of uploads and requests; the claim covers all of them, of any length.", "anchors": ["src/client.rs:797-854", "src/client.rs:856-1030", "src/repo_builder.rs:142-206"]}
{"id": "C113", "title": "How the network cuts data into chunks does not matter to clients", "statement": "If two worlds answer every request with the same error or with streams that deliver the same bytes and end in the same way, but cut them into different chunks and let the reader wait at different places, then Client::with_trusted_*, update, fetch_target and fetch_target_description return the same in both, and the same metadata is trusted and the same files are in the local repository afterwards, for the local repositories of the library. fetch_target_to_writer returns the same with every writer that takes all bytes, and passes the same bytes if it succeeds. What the writer has got when it fails may depend on the chunks.", "quantifier": "all worlds, all ways to cut streams, all sequences of calls", "why_tests_cant": "Unit tests use in-memory sources that deliver everything in one chunk; the ways in which a network can cut a download are unbounded, and the check of length and digest happens per chunk.", "anchors": ["src/util.rs:151-187", "src/repository.rs:255-301", "src/client.rs:797-818", "src/repository/file_system.rs:154-199", "src/repository/ephemeral.rs:105-133"]}
{"id": "C114", "title": "Documents are read as RFC 8259 says", "statement": "Json::from_slice reads bytes as a value if and only if they are the UTF-8 form of a text that the grammar of RFC 8259 derives with that value, and the value is nested less than 128 levels deep; all other bytes give Error::Encoding. The grammar gives a text at most one meaning, so two readers that follow it see the same document. A client accepts nothing but such texts as metadata, and canonical forms are such texts.", "quantifier": "all byte strings, all values, all decoders", "why_tests_cant": "Tests read a handful of documents; the grammar is recursive and the claim covers every text, both those that must be read and those that must be refused.", "anchors": ["src/interchange/cjson/mod.rs:310-315", "src/interchange/cjson/mod.rs:228-233", "src/metadata.rs:264-270", "src/verify.rs:95"]}
{"id": "C115", "title": "Publishing is reproducible", "statement": "Two pieces of metadata that are equal as Rust compares them (hash maps and sets without order) serialize to the same bytes, for root, timestamp, snapshot and targets metadata; and metadata that can be published serializes to the same bytes only if it is equal. If the same keys then sign with SignedMetadataBuilder::sign, in whatever order, build, to_raw and to_writer of JsonPretty give the same bytes. So two runs of a program that publishes the same release publish the same files, although hash maps are iterated in random order.", "quantifier": "all pairs of equal metadata, all orders of their maps and sets, all sets of keys whose signatures are a function of the message, all orders of signing", "why_tests_cant": "The order of a hash map is random in each process; a test that compares two results sees one or two of the orders, and small maps often agree by chance.", "anchors": ["src/interchange/cjson/shims.rs:36-63", "src/interchange/cjson/shims.rs:380-401", "src/metadata.rs:275-338", "src/metadata.rs:396-399"]}
{"id": "C116", "title": "Clients behave the same whatever the order of hash maps", "statement": "However the hash maps and sets of a client happen to be laid out (keys, roles, digests, targets, delegations, signatures), Tuf::update_root, update_timestamp, update_snapshot, update_targets, update_delegation and target_description give the same result, also the same error, and afterwards the same metadata is trusted. A Client, from its construction on and over any sequence of calls, makes the same requests in the same order, stores the same documents, returns the same and trusts the same, even if the order changes from call to call.", "quantifier": "all layouts of all hash maps in all documents read and in the trusted metadata, all orders of visiting signatures, all worlds whose remote repository does not itself look at the order of maps in a target description, all sequences of calls", "why_tests_cant": "Rust seeds its hash maps randomly; a test run sees one order, and a failure that depends on the order looks like a flaky test.", "anchors": ["src/verify.rs:82-136", "src/metadata.rs:714-755", "src/tuf.rs:487-512", "src/tuf.rs:621-663", "src/tuf.rs:762-837", "src/client.rs:856-1027", "src/crypto.rs:65-75"]}
{"id": "C117", "title": "Downloads reach the caller's writer complete and in order, however it takes them", "statement": "fetch_target_to_writer hands the bytes of the checked reader to the caller's AsyncWrite in order, none left out and none repeated, at every moment, also if the writer takes only part of a buffer, makes its caller wait, fails, or if the future is dropped. It returns Ok only after the writer has taken everything and has been flushed, and the bytes then match the trusted description; the writer never takes more than the announced length. Every writer that answers in the end is covered by the other theorems about clients, which treat writing a chunk as one step. A reader that goes on after its end is harmless if copy remembers the end, or if the repository delivers nothing then, or if all data with the announced digest has the announced length.", "quantifier": "all readers, all writers as state machines of poll_write and poll_flush, every number of polls", "why_tests_cant": "Tests use writers such as Vec that take everything at once; the behaviours of a writer over time are unbounded", "anchors": ["src/client.rs:802-818 fetch_target_to_writer", "src/util.rs:150-188 SafeReader::poll_read"]}
{"id": "C118", "title": "The limit on the delegation depth holds for every setting below 2^32 - 1", "statement": "For every max_delegation_depth below u32::MAX the depth counter of the search for a target, a u32, does not overflow, and the nested calls are limited as the other properties say. u32::MAX is no limit: a role that delegates to itself makes the search go on without end in builds without overflow checks, and panic in builds with them.", "quantifier": "all settings, all repositories, all targets, both kinds of builds", "why_tests_cant": "The overflow is 2^32 nested calls away", "anchors": ["src/client.rs:864 lookup_target_description", "src/client.rs:1007 current_depth + 1", "src/client.rs:1171 ConfigBuilder::max_delegation_depth"]}
{"id": "C119", "title": "The time shows in an update only through expiry", "statement": "A client whose clock is behind updates itself exactly as one whose clock is right: update replies the same, trusts the same afterwards and leaves the same in the repositories, unless with the right clock it fails because something has expired. With any two clocks the results are the same unless one of the updates reports expired metadata. The calls for targets that the trusted top-level targets metadata list do not depend on the clock at all.", "quantifier": "all pairs of clocks, all repositories, all states of the client", "why_tests_cant": "A test runs one clock; the claim compares every run with the runs under all other clocks, in the middle of which some documents expire and others do not.", "anchors": ["src/client.rs:418-425", "src/client.rs:567-570", "src/tuf.rs:269-340", "src/tuf.rs:522-616"]}
{"id": "C120", "title": "Every call touches only what it has to", "statement": "update asks only the remote repository, asks only for metadata and does not touch targets. A call for a target that the trusted top-level targets metadata list asks for no metadata and changes nothing that is trusted: fetch_target_description does nothing at all, fetch_target asks for the one file of that target and hands it to the local repository under the caller's name, fetch_target_to_writer asks for the same file and writes to the caller's writer only. A call for any other target fails, touches no target and no writer, stores neither root nor snapshot metadata, and leaves the trusted root, timestamp, snapshot and targets metadata alone. Without a trusted snapshot it does nothing.", "quantifier": "all calls, all repositories, clocks and writers, all states of the client", "why_tests_cant": "Absence of side effects cannot be seen by looking at results; it is about every path through the code, including failing ones", "anchors": ["src/client.rs:418 update", "src/client.rs:797 fetch_target", "src/client.rs:807 fetch_target_to_writer", "src/client.rs:821 fetch_target_description", "src/client.rs:839 _fetch_target"]}
{"id": "C121", "title": "What a client trusts is what the author has made", "statement": "If honest key holders sign only metadata objects made with this crate, in the JSON format, then every root, timestamp, snapshot and targets metadata that a client trusts equals an object the author made for that role, and every delivered target matches its description in targets metadata the author made, as long as the attacker has fewer than a threshold of the keys involved.", "quantifier": "all libraries with readable key formats, sets of objects, repositories, networks, clocks, local files, attackers with any other keys, and sequences of calls", "why_tests_cant": "It relates objects on the author's side to objects in the client through signing, canonical form, parsing and decoding under attack; tests compare single documents that were not tampered with", "anchors": ["src/metadata.rs:291-320 SignedMetadataBuilder", "src/metadata.rs:373 SignedMetadata::new", "src/verify.rs verify_signatures", "src/interchange/cjson/mod.rs", "src/client.rs Client"]}
{"id": "C122", "title": "Without delegated keys nobody can describe delegated targets", "statement": "An attacker who lacks a threshold of the root and targets keys, and of the keys of every role to which the author has delegated, cannot make Tuf or a client trust delegated metadata, or return from Tuf::target_description a description, that is not the author's. It does not suffice that the attacker lacks the keys of those roles which the author has entrusted with the path: who has the keys of any one delegated role can replace the metadata of the others.", "quantifier": "for all stores that are fresh from a bootstrap, all sequences of submitted documents with any clock, all paths; for all clients and all sequences of calls; for all environments in which signatures of honest keys are not forged", "why_tests_cant": "The attacker chooses documents, parents, order and clock; tests try a few forgeries.", "anchors": ["src/tuf.rs:666-756 (update_delegation)", "src/tuf.rs:762-837 (target_description)", "src/tuf.rs:621-664 (find_delegation_threshold_and_keys)"]}
{"id": "C123", "title": "Withdrawn targets stay withdrawn", "statement": "While the trusted root stays, trusted targets metadata and the metadata of each delegated role give way only to metadata of the same or a higher version, even if there was none in between, provided that the author's timestamps and snapshots do not go back and the attacker lacks a threshold of the timestamp keys and of the snapshot keys. So once a client trusts some version of the targets metadata, fetch_target, fetch_target_to_writer and fetch_target_description fail for every target that the author lists in no targets metadata of this or a higher version. With the crate's own formats this holds, whatever the attacker does, until the author makes a newer root. Replacing the root, even without changing keys, lifts this protection.", "quantifier": "for all stores fresh from a bootstrap and all sequences of submitted documents with any clock; for all clients, repositories, networks and sequences of calls; for all environments in which signatures of honest keys are not forged", "why_tests_cant": "It concerns all interleavings of old and new documents an attacker can replay, including states in which metadata is missing for a while; tests replay single documents", "anchors": ["src/tuf.rs:236 update_root purges metadata", "src/tuf.rs update_timestamp, update_snapshot, update_targets, update_delegation", "src/client.rs fetch_target"]}
{"id": "C124", "title": "Every setting affects only what it is for", "statement": "Constructing and updating a client does not depend on its path translator or its limit on the delegation depth. A call for a target depends on the path translator only through what it makes of this target's path, does not depend on the limits for root and timestamp metadata, and for a target listed in the top-level targets does not depend on the limit on the depth either. If the translator refuses the path, the call fails with the translator's error, asks no repository and changes nothing. If the remote repository ignores the limit it is told, as HttpRepository does, raising the limits for root and timestamp metadata makes no difference to a session, except where an update fails with the lower limits with the error for documents that are too long. (Starting a client is different: cached metadata that exceeds a limit is skipped without an error.)", "quantifier": "all configurations, repositories, client states and sequences of calls", "why_tests_cant": "Two runs with different configurations have to be compared for every world; tests try a few settings in one world each.", "anchors": ["src/client.rs:1078-1200", "src/client.rs:498-641", "src/client.rs:821-854", "src/repository.rs:255-281", "src/repository/http.rs:245-268"]}
{"id": "C125", "title": "Without keys nobody can make updates and searches expensive", "statement": "If an attacker has less than a threshold of the root, timestamp and snapshot keys of the trusted root and of each later root of the author, then from any point of a session on, whatever repositories, network, clock and local files do, all updates together ask the remote repository for at most four files per update plus one for each root of the author that the client does not have yet. The metadata documents they receive have together at most max_root_length for each such root, and for each update max_root_length, max_timestamp_length and the largest lengths the author announces for the snapshot and the top-level targets. In particular endless data and endless chains of roots are impossible. If the attacker also lacks a threshold of the keys of every delegated role, a call for a target asks for at most 2 * (b + b^2 + ... + b^(d+1)) metadata files, where d is the configured depth and b the largest number of roles to which metadata of the author delegate, each of at most the largest length that the author states or the configuration allows.", "quantifier": "all attackers, sessions, repositories and configurations with limits", "why_tests_cant": "The bound is on unboundedly long sessions against arbitrary hostile repositories; tests can only try some attacks.", "anchors": ["src/client.rs:418-425", "src/client.rs:498-554", "src/client.rs:592-794", "src/client.rs:864-1026", "src/repository.rs:255-281"]}
{"id": "C126", "title": "Without keys nobody can plant metadata in the local repository", "statement": "Every metadata file that a client writes to its local repository, in its constructor or in any later call, has a signed part that the author has written, and it is what its file name says: metadata of that top-level role, or of a role of that name to which the author has delegated, and for a numbered root file the root of that version. This holds for every attacker who has less than a threshold of the keys of each role of the first root and of the author's later roots, of each role to which the author has delegated, and of the keys given to the constructor.", "quantifier": "for all clients, constructors, sequences of calls, repositories and clocks; for all environments in which signatures of honest keys are not forged", "why_tests_cant": "Tests check that one forged file is refused; what is stored in all interleavings of root rotation, delegation and repeated lookups, including the branch that stores a document although nothing changed, cannot be enumerated.", "anchors": ["src/client.rs:370-378", "src/client.rs:536-549", "src/client.rs:625-636", "src/client.rs:980-990"]}
{"id": "C127", "title": "Expired releases are gone for clients started later", "statement": "A client that is started when the clock shows some time, and whose clock never shows less afterwards, trusts only unexpired releases of the author: its timestamp is the author's and expires after that time; its snapshot is the author's and an unexpired timestamp of the author announces its version; and the version of its targets and of every delegated role is listed in an unexpired snapshot of the author that an unexpired timestamp of the author announces, and those metadata expire later than that time as well. So a target that is listed only in expired releases is never delivered, even if the local repository of the client still contains the expired release. This holds for every attacker who controls the repositories and has less than a threshold of the keys of the timestamp and of the snapshot of the root the client trusts (and, for what is delivered, of the targets). A client that is not restarted is not covered: it goes on using a release after its timestamp has expired.", "quantifier": "for all clients, constructors, sequences of calls, repositories and clocks that do not show less than the starting time; for all environments in which signatures of honest keys are not forged; and for all sequences of calls of the store", "why_tests_cant": "Tests check that one expired document is refused. Whether a mixture of old and new timestamps, snapshots, targets and local files can bring back an expired release depends on every order of calls and replies.", "anchors": ["src/tuf.rs:329-331", "src/tuf.rs:515-615", "src/tuf.rs:666-760", "src/tuf.rs:846-890"]}
