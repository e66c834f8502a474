import Verif.Model.Metadata

/-!
# `verify_signatures`
-/

namespace RustTuf

/-- Everything outside the crate, or treated as a parameter by the trust logic.
Nothing is assumed about these functions except that `sigOrder` really is an iteration order. -/
structure Env where
  /-- `D::RawData`. -/
  Raw : Type
  /-- src/verify.rs:89-95: `D::from_slice` into `{signatures, signed}`; also the parse in
  src/metadata.rs:268-270 `parse_untrusted`, which reads the same two fields. -/
  parseSigned : Bytes → Except Err (List Signature × Raw)
  /-- `D::canonicalize`. -/
  canonicalize : Raw → Except Err Bytes
  /-- `D::from_slice::<RootMetadata>`. -/
  rootFromSlice : Bytes → Except Err RootMetadata
  /-- `D::from_slice::<TimestampMetadata>`. -/
  timestampFromSlice : Bytes → Except Err TimestampMetadata
  /-- `D::from_slice::<SnapshotMetadata>`. -/
  snapshotFromSlice : Bytes → Except Err SnapshotMetadata
  /-- `D::from_slice::<TargetsMetadata>`. -/
  targetsFromSlice : Bytes → Except Err TargetsMetadata
  /-- `D::deserialize::<RootMetadata>` (src/metadata.rs:491-493 `assume_valid`). -/
  rootOfRaw : Raw → Except Err RootMetadata
  /-- `ring::signature::UnparsedPublicKey::verify` for the algorithm belonging to a scheme. -/
  ringVerify : Scheme → Bytes → Bytes → Bytes → Bool
  /-- Iteration order of the `HashMap` of deduplicated signatures (src/verify.rs:115). -/
  sigOrder : Map KeyId Signature → List (KeyId × Signature)
  /-- An iteration visits every entry exactly once, in some order. -/
  sigOrder_perm : ∀ m, (sigOrder m).Perm m

/-- src/crypto.rs:678-694 `PublicKey::verify`. The error value is not used by the caller, so the
result is a `Bool`. -/
def PublicKey.verify (E : Env) (k : PublicKey) (msg : Bytes) (sig : Signature) : Bool :=
  match k.scheme with
  | .unknown _ => false
  | s => E.ringVerify s k.value msg sig.value

/-- src/verify.rs:115-136: the loop over the deduplicated signatures. The argument and the result
are `signatures_needed`. The subtraction cannot underflow because the loop stops at zero and starts
above zero. -/
def countDown (E : Env) (auth : Map KeyId PublicKey) (msg : Bytes) :
    List (KeyId × Signature) → Nat → Nat
  | [], needed => needed
  | (id, sig) :: rest, needed =>
    let needed' :=
      match auth.get? id with
      | some k => if k.verify E msg sig then needed - 1 else needed
      | none => needed
    if needed' = 0 then 0 else countDown E auth msg rest needed'

/-- src/verify.rs:66-155 `verify_signatures`, for a metadata type decoded by `fromSlice`. -/
def verifySignatures (E : Env) {M : Type} (fromSlice : Bytes → Except Err M)
    (raw : Bytes) (threshold : Nat) (keys : List PublicKey) : Except Err M :=
  -- 76-80
  if threshold < 1 then .error .verification else
  -- 82-85
  let auth := Map.collect (keys.map fun k => (k.keyId, k))
  -- 95
  match E.parseSigned raw with
  | .error e => .error e
  | .ok (sigs, signed) =>
    -- 97-101
    if sigs.isEmpty then .error .verification else
    -- 103
    match E.canonicalize signed with
    | .error e => .error e
    | .ok msg =>
      -- 107-113
      let smap := Map.collect (sigs.map fun s => (s.keyId, s))
      -- 115-136
      let needed := countDown E auth msg (E.sigOrder smap) threshold
      -- 138-144
      if needed > 0 then .error .verification else
      -- 152
      fromSlice msg

end RustTuf
