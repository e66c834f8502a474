import Verif.Model.Metadata

/-!
# Stream adapters of src/util.rs and hashing helpers of src/crypto.rs
A source is a list of events: what its successive `poll_read` calls return. After the list is
exhausted the source stays at its end (`Ok(0)`). Buffers passed to `poll_read` are non-empty, as
those of `read_to_end` and `copy` are.
-/

namespace RustTuf

/-- `std::io::ErrorKind`, as far as the code tells kinds apart (src/error.rs:96-103) or creates
them. -/
inductive IoKind where
  | notFound | timedOut | invalidData | other
deriving DecidableEq, Repr

/-- src/error.rs:96-103 `From<io::Error> for Error`. -/
def IoKind.toErr : IoKind → Err
  | .notFound => .notFound
  | _ => .opaqueErr

/-- Result of one `poll_read` of a source: `Ready(Ok(n))` with the `n` bytes written to the buffer
(`n = 0` is the end), `Ready(Err)`, or `Pending`. -/
inductive Ev where
  | data (bs : Bytes)
  | err (k : IoKind)
  | pending
deriving DecidableEq, Repr

/-- The digest function of `ring` for a supported algorithm. -/
abbrev Digest := HashAlg → Bytes → Bytes

/-- src/util.rs:117-122 `SafeReader`, without the inner reader. A `digest::Context` is the bytes fed
to it so far. -/
structure SafeReader where
  maxSize : Nat
  hasher : Option (HashAlg × Bytes × HashValue)
  bytesRead : Nat
deriving DecidableEq, Repr

/-- src/crypto.rs:850-859 `HashAlgorithm::digest_context`: fails for unknown algorithms. -/
def digestContext (a : HashAlg) : Except Err Bytes :=
  match a with
  | .sha256 => .ok []
  | .sha512 => .ok []
  | .unknown _ => .error .illegalArgument

/-- src/util.rs:131-147 `SafeReader::new`. -/
def SafeReader.new (maxSize : Nat) (hashData : Option (HashAlg × HashValue)) :
    Except Err SafeReader :=
  match hashData with
  | none => .ok ⟨maxSize, none, 0⟩
  | some (alg, value) =>
    match digestContext alg with
    | .error e => .error e
    | .ok ctx => .ok ⟨maxSize, some (alg, ctx, value), 0⟩

/-- src/util.rs:151-187 `SafeReader::poll_read`, given what the inner reader returns. -/
def SafeReader.poll (D : Digest) (s : SafeReader) : Ev → Ev × SafeReader
  -- 156
  | .pending => (.pending, s)
  | .err k => (.err k, s)
  -- 158-170
  | .data [] =>
    match s.hasher with
    | some (alg, ctx, expected) =>
      if D alg ctx ≠ expected then (.err .invalidData, { s with hasher := none })
      else (.data [], { s with hasher := none })
    | none => (.data [], s)
  -- 172-186
  | .data bs =>
    if s.bytesRead + bs.length ≤ u64Max ∧ s.bytesRead + bs.length ≤ s.maxSize then
      (.data bs, { s with
        bytesRead := s.bytesRead + bs.length
        hasher := s.hasher.map fun (alg, ctx, v) => (alg, ctx ++ bs, v) })
    else (.err .invalidData, s)

/-- `AsyncReadExt::read_to_end` on a `SafeReader`: poll until the end or the first error; `acc` is
the buffer filled so far. -/
def SafeReader.readToEnd (D : Digest) (s : SafeReader) : List Ev → Bytes → Except IoKind Bytes
  | [], acc =>
    match s.poll D (.data []) with
    | (.err k, _) => .error k
    | _ => .ok acc
  | ev :: evs, acc =>
    match s.poll D ev with
    | (.pending, s') => SafeReader.readToEnd D s' evs acc
    | (.err k, _) => .error k
    | (.data [], _) => .ok acc
    | (.data bs, s') => SafeReader.readToEnd D s' evs (acc ++ bs)

/-- All results a consumer sees that polls once per source event, even after errors. -/
def SafeReader.polls (D : Digest) (s : SafeReader) : List Ev → List Ev
  | [] => []
  | ev :: evs => (s.poll D ev).1 :: SafeReader.polls D (s.poll D ev).2 evs

/-- src/crypto.rs:28 `HASH_ALG_PREFS`. -/
def hashAlgPrefs : List HashAlg := [.sha512, .sha256]

/-- src/crypto.rs:65-75 `hash_preference`: the loop. -/
def hashPreferenceIn (hashes : Map HashAlg HashValue) :
    List HashAlg → Except Err (HashAlg × HashValue)
  | [] => .error .noSupportedHash
  | a :: as =>
    match hashes.get? a with
    | some v => .ok (a, v)
    | none => hashPreferenceIn hashes as

/-- src/crypto.rs:65-75 `hash_preference`. -/
def hashPreference (hashes : Map HashAlg HashValue) : Except Err (HashAlg × HashValue) :=
  hashPreferenceIn hashes hashAlgPrefs

/-- src/crypto.rs:98-101: one context per algorithm. -/
def contextsFor : List HashAlg → Map HashAlg Bytes → Except Err (Map HashAlg Bytes)
  | [], m => .ok m
  | a :: as, m =>
    match digestContext a with
    | .error e => .error e
    | .ok ctx => contextsFor as (m.insert a ctx)

/-- src/crypto.rs:103-117: the read loop over a synchronous reader. There is no `Pending`; such
events are skipped. An error, also of kind `Interrupted`, ends the loop. `size` is a `u64`; the
model does not bound it. -/
def hashLoop : List Ev → Nat → Map HashAlg Bytes → Except IoKind (Nat × Map HashAlg Bytes)
  | [], size, m => .ok (size, m)
  | .pending :: evs, size, m => hashLoop evs size m
  | .err k :: _, _, _ => .error k
  | .data [] :: _, size, m => .ok (size, m)
  | .data bs :: evs, size, m => hashLoop evs (size + bs.length) (m.map fun p => (p.1, p.2 ++ bs))

/-- src/crypto.rs:85-124 `calculate_hashes`. -/
def calculateHashes (D : Digest) (src : List Ev) (algs : List HashAlg) :
    Except Err (Nat × Map HashAlg HashValue) :=
  if algs.isEmpty then .error .illegalArgument else
  match contextsFor algs [] with
  | .error e => .error e
  | .ok ctxs =>
    match hashLoop src 0 ctxs with
    | .error k => .error k.toErr
    | .ok (size, ctxs') => .ok (size, ctxs'.map fun p => (p.1, D p.1 p.2))

end RustTuf
