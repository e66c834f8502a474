/-!
# Basic types shared by all model files
-/

namespace RustTuf

/-- Rust `String`: a sequence of Unicode scalar values. Rust stores UTF-8; the model keeps the
scalar values, which determine the bytes. -/
abbrev Str := List Char

/-- Rust `Vec<u8>` / `&[u8]`. -/
abbrev Bytes := List UInt8

/-- `chrono::DateTime<Utc>` as a point on a line (nanoseconds since some epoch). Only the order is
used by the code modelled here. -/
notation "Time" => Int

deriving instance DecidableEq for Except

/-- Largest `u32`. -/
def u32Max : Nat := 4294967295

/-- Largest `u64`. -/
def u64Max : Nat := 18446744073709551615

/-- src/metadata.rs:148-163 `Role`. -/
inductive Role where
  | root | snapshot | targets | timestamp
deriving DecidableEq, Repr

/-- src/error.rs:11-81 `Error`. Message strings are dropped, since no code branches on them.
`panic` is added: it stands for a Rust panic (arithmetic overflow, `unwrap` on `None`).
`diverged` is added: it marks that a fuelled loop ran out of fuel; it is proved unreachable. -/
inductive Err where
  | badSignature
  | encoding
  | expired (r : Role)
  | illegalArgument
  | http
  | badHttpStatus (code : Nat)
  | hyper
  | missing (r : Role)
  | noSupportedHash
  | notFound
  | opaqueErr
  | programming
  | targetUnavailable
  | unknownKeyType
  | verification
  | panic
  | diverged
deriving DecidableEq, Repr

/-- Finite maps (`HashMap`, `BTreeMap`) as association lists. A Rust `HashMap` is any list with
distinct keys, in any order. Theorems quantify over all lists, hence over all orders. -/
abbrev Map (K V : Type) := List (K × V)

namespace Map
variable {K V : Type} [DecidableEq K]

/-- `HashMap::get`. -/
def get? : Map K V → K → Option V
  | [], _ => none
  | (k', v) :: m, k => if k' = k then some v else get? m k

/-- `HashMap::remove`. -/
def erase (m : Map K V) (k : K) : Map K V := m.filter (fun p => decide (p.1 ≠ k))

/-- `HashMap::insert`: replaces an existing entry with the same key. -/
def insert (m : Map K V) (k : K) (v : V) : Map K V := (k, v) :: erase m k

/-- `iter.collect::<HashMap<_, _>>()`: entries are inserted one after the other, so the last entry
for a key wins. -/
def collect (l : List (K × V)) : Map K V := l.foldl (fun m p => insert m p.1 p.2) []

/-- The keys of a map. -/
def keys (m : Map K V) : List K := m.map Prod.fst

end Map

end RustTuf
