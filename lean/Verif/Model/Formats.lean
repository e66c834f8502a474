import Verif.Model.Shims

/-!
# The formats of keys and dates (src/crypto.rs:598-623, 893-957, src/interchange/cjson/shims.rs:13-28)

`ShimLib` leaves base64, the SPKI format and dates open. Here they are defined, so that what the
decoders owe to the libraries data-encoding, derp and chrono can be proved instead of assumed. The
sources of these libraries are not part of the repository: the functions follow their documented
behaviour (data-encoding 2, derp 0.0.13, chrono 0.4.11).
-/

namespace RustTuf
namespace Formats

/-! ### base64 (`data_encoding::BASE64URL`) -/

/-- The symbol of a number below 64. -/
def b64Sym (n : Nat) : Char :=
  if n < 26 then Char.ofNat (65 + n)
  else if n < 52 then Char.ofNat (71 + n)
  else if n < 62 then Char.ofNat (n - 4)
  else if n = 62 then '-'
  else '_'

/-- The number of a symbol. -/
def b64Val (c : Char) : Option Nat :=
  let n := c.toNat
  if 65 ≤ n ∧ n ≤ 90 then some (n - 65)
  else if 97 ≤ n ∧ n ≤ 122 then some (n - 71)
  else if 48 ≤ n ∧ n ≤ 57 then some (n + 4)
  else if c = '-' then some 62
  else if c = '_' then some 63
  else none

/-- `BASE64URL.encode`: the last block is padded. -/
def b64Encode : Bytes → Str
  | [] => []
  | [a] => [b64Sym (a.toNat / 4), b64Sym (a.toNat % 4 * 16), '=', '=']
  | [a, b] =>
    [b64Sym (a.toNat / 4), b64Sym (a.toNat % 4 * 16 + b.toNat / 16), b64Sym (b.toNat % 16 * 4), '=']
  | a :: b :: c :: r =>
    b64Sym (a.toNat / 4) :: b64Sym (a.toNat % 4 * 16 + b.toNat / 16) ::
      b64Sym (b.toNat % 16 * 4 + c.toNat / 64) :: b64Sym (c.toNat % 64) :: b64Encode r

/-- One block of `BASE64URL.decode`: padding is removed, bits that are not used must be zero. -/
def b64Block (a b c d : Char) : Option Bytes :=
  match b64Val a, b64Val b with
  | some a, some b =>
    match b64Val c, b64Val d with
    | some c, some d =>
      some [UInt8.ofNat (a * 4 + b / 16), UInt8.ofNat (b % 16 * 16 + c / 4),
        UInt8.ofNat (c % 4 * 64 + d)]
    | some c, none =>
      if d = '=' ∧ c % 4 = 0 then
        some [UInt8.ofNat (a * 4 + b / 16), UInt8.ofNat (b % 16 * 16 + c / 4)]
      else none
    | none, _ =>
      if c = '=' ∧ d = '=' ∧ b % 16 = 0 then some [UInt8.ofNat (a * 4 + b / 16)] else none
  | _, _ => none

/-- `BASE64URL.decode`: data-encoding accepts padding in any block. -/
def b64Decode : Str → Option Bytes
  | [] => some []
  | a :: b :: c :: d :: s =>
    match b64Block a b c d, b64Decode s with
    | some x, some y => some (x ++ y)
    | _, _ => none
  | _ => none

/-! ### DER (derp) -/

/-- The values of `derp::Tag` that are used. -/
abbrev Tag := UInt8

def tagInteger : Tag := 0x02
def tagBitString : Tag := 0x03
def tagOctetString : Tag := 0x04
def tagNull : Tag := 0x05
def tagOid : Tag := 0x06
def tagSequence : Tag := 0x30

/-- Reading some of the input; `none` is an error. -/
abbrev Reader (α : Type) := Bytes → Option (α × Bytes)

/-- `untrusted::Reader::read_bytes`. -/
def readBytes (n : Nat) : Reader Bytes := fun b =>
  if n ≤ b.length then some (b.take n, b.drop n) else none

/-- The length in `derp::read_tag_and_get_value`: one, two or three bytes, the shortest form. -/
def readLen : Reader Nat
  | [] => none
  | n :: b =>
    if n < 0x80 then some (n.toNat, b)
    else if n = 0x81 then
      match b with
      | x :: b => if x.toNat < 128 then none else some (x.toNat, b)
      | [] => none
    else if n = 0x82 then
      match b with
      | x :: y :: b =>
        if x.toNat * 256 + y.toNat < 256 then none else some (x.toNat * 256 + y.toNat, b)
      | _ => none
    else none

/-- `derp::expect_tag_and_get_value`. (Tags with `tag & 0x1f = 0x1f` are refused there; none of the
expected tags has this form.) -/
def expectTag (tag : Tag) : Reader Bytes
  | [] => none
  | t :: b =>
    if t = tag then
      match readLen b with
      | none => none
      | some (n, b) => readBytes n b
    else none

/-- `untrusted::Input::read_all`: everything must be consumed. -/
def readAll {α : Type} (f : Reader α) (b : Bytes) : Option α :=
  match f b with
  | some (a, []) => some a
  | _ => none

/-- `derp::nested`. -/
def nested {α : Type} (tag : Tag) (f : Reader α) : Reader α := fun b =>
  match expectTag tag b with
  | none => none
  | some (v, b) =>
    match readAll f v with
    | none => none
    | some a => some (a, b)

/-- `derp::bit_string_with_no_unused_bits`. -/
def bitString : Reader Bytes :=
  nested tagBitString fun b =>
    match b with
    | 0 :: v => some (v, [])
    | _ => none

/-- src/crypto.rs:31. -/
def rsaOid : Bytes := [0x2a, 0x86, 0x48, 0x86, 0xf7, 0x0d, 0x01, 0x01, 0x01]

/-- src/crypto.rs:34. -/
def ed25519Oid : Bytes := [0x2b, 0x65, 0x70]

/-- src/crypto.rs:270-279 `KeyType::from_oid`. -/
def typeOfOid (oid : Bytes) : Option KeyType :=
  if oid = rsaOid then some .rsa else if oid = ed25519Oid then some .ed25519 else none

/-- src/crypto.rs:281-287 `KeyType::as_oid`. -/
def oidOfType : KeyType → Option Bytes
  | .rsa => some rsaOid
  | .ed25519 => some ed25519Oid
  | .unknown _ => none

/-- src/crypto.rs:606-616: the algorithm. `read_null` does not look at the content. -/
def readAlgorithm : Reader KeyType := fun b =>
  match expectTag tagOid b with
  | none => none
  | some (oid, b) =>
    match typeOfOid oid with
    | none => none
    | some t =>
      match expectTag tagNull b with
      | none => none
      | some (_, b) => some (t, b)

/-- src/crypto.rs:603-620. -/
def readSpki (b : Bytes) : Option (KeyType × Bytes) :=
  readAll (nested tagSequence fun b =>
    match nested tagSequence readAlgorithm b with
    | none => none
    | some (t, b) =>
      match bitString b with
      | none => none
      | some (v, b) => some ((t, v), b)) b

/-- The bytes of a number, at least one, the most significant first. -/
def lenBytes (n : Nat) : Bytes :=
  if n < 256 then [UInt8.ofNat n] else lenBytes (n / 256) ++ [UInt8.ofNat (n % 256)]

/-- `derp::Der::write_len`. -/
def writeLen (n : Nat) : Bytes :=
  if n < 128 then [UInt8.ofNat n] else UInt8.ofNat (128 + (lenBytes n).length) :: lenBytes n

/-- `derp::Der::element`, `sequence`. -/
def element (tag : Tag) (v : Bytes) : Bytes := tag :: (writeLen v.length ++ v)

/-- src/crypto.rs:893-910 `write_spki`. -/
def writeSpki (t : KeyType) (v : Bytes) : Option Bytes :=
  match oidOfType t with
  | none => none
  | some oid =>
    some (element tagSequence
      (element tagSequence (element tagOid oid ++ element tagNull []) ++
        element tagBitString (0 :: v)))

/-! ### Dates (chrono)

A point in time is a number of nanoseconds since the start of the year 1, where every second has room
for 2·10^9 of them: chrono represents a leap second by letting the fraction of the second before it
run on, and compares times by second and fraction. -/

/-- The length of a second in these units. -/
def second : Int := 2000000000

/-- Leap years. -/
def isLeap (y : Int) : Bool := decide (y % 4 = 0 ∧ (y % 100 ≠ 0 ∨ y % 400 = 0))

/-- The lengths of the months of a year. -/
def monthLengths (y : Int) : List Nat :=
  [31, if isLeap y then 29 else 28, 31, 30, 31, 30, 31, 31, 30, 31, 30, 31]

/-- Month and day of a day of the year (both from zero); `m` is the number of the first month of the
list. -/
def monthDay : List Nat → Nat → Nat → Nat × Nat
  | [], m, d => (m, d + 1)
  | l :: ls, m, d => if d < l then (m, d + 1) else monthDay ls (m + 1) (d - l)

/-- A day of the calendar. -/
structure Date where
  year : Int
  month : Nat
  day : Nat
deriving DecidableEq

/-- The year and the day of the year (from zero) of a day counted from 0001-01-01. -/
def yearDay (n : Int) : Int × Nat :=
  let r := (n % 146097).toNat
  let c := min (r / 36524) 3
  let r := r - 36524 * c
  let f := r / 1461
  let r := r - 1461 * f
  let y := min (r / 365) 3
  (400 * (n / 146097) + 100 * c + 4 * f + y + 1, r - 365 * y)

/-- The date of a day counted from 0001-01-01: `year()`, `month()` and `day()` of a date. -/
def dateOfDay (n : Int) : Date :=
  let yd := yearDay n
  let md := monthDay (monthLengths yd.1) 1 yd.2
  ⟨yd.1, md.1, md.2⟩

/-- The days before a year, counted from 0001-01-01. -/
def daysBefore (y : Int) : Int := 365 * (y - 1) + (y - 1) / 4 - (y - 1) / 100 + (y - 1) / 400

/-- `NaiveDate::from_ymd_opt`: the day of a date, if there is such a date in the range of chrono. -/
def dayOfDate (d : Date) : Option Int :=
  match (monthLengths d.year)[d.month - 1]? with
  | none => none
  | some l =>
    if 1 ≤ d.month ∧ 1 ≤ d.day ∧ d.day ≤ l ∧ -262144 ≤ d.year ∧ d.year ≤ 262143 then
      some (daysBefore d.year + (((monthLengths d.year).take (d.month - 1)).sum : Nat) + (d.day - 1 : Nat))
    else none

/-- `{:0w}` of a number that is not negative. -/
def padded (w n : Nat) : Str := List.replicate (w - (decimal n).length) '0' ++ decimal n

/-- `{:04}` of a year. -/
def formatYear (y : Int) : Str := if y < 0 then '-' :: padded 3 y.natAbs else padded 4 y.natAbs

/-- src/interchange/cjson/shims.rs:18-28 `format_datetime`. -/
def formatDate (t : Time) : Str :=
  let s := t / second
  let d := dateOfDay (s / 86400)
  let x := (s % 86400).toNat
  formatYear d.year ++ '-' :: padded 2 d.month ++ '-' :: padded 2 d.day ++ 'T' ::
    padded 2 (x / 3600) ++ ':' :: padded 2 (x / 60 % 60) ++ ':' :: padded 2 (x % 60) ++ ['Z']

/-- `char::is_whitespace`. -/
def isSpace (c : Char) : Bool :=
  decide ((9 ≤ c.toNat ∧ c.toNat ≤ 13) ∨ c.toNat = 32 ∨ c.toNat = 0x85 ∨ c.toNat = 0xA0 ∨
    c.toNat = 0x1680 ∨ (0x2000 ≤ c.toNat ∧ c.toNat ≤ 0x200A) ∨ c.toNat = 0x2028 ∨
    c.toNat = 0x2029 ∨ c.toNat = 0x202F ∨ c.toNat = 0x205F ∨ c.toNat = 0x3000)

/-- chrono `scan::number`: at most `max` digits, at least one. (Overflow is not modelled: such numbers
are out of range for a date anyway.) -/
def scanNumber (max : Nat) (s : Str) : Option (Nat × Str) :=
  let ds := (spanDigits s).1.take max
  if ds.isEmpty then none else some (digitsVal 0 ds, s.drop ds.length)

/-- chrono, a numeric item without sign: white space before it is skipped. -/
def parseField (s : Str) : Option (Nat × Str) := scanNumber 2 (s.dropWhile isSpace)

/-- chrono, the year: a signed number may have any number of digits, an unsigned one at most four. -/
def parseYear (s : Str) : Option (Int × Str) :=
  match s.dropWhile isSpace with
  | '-' :: s => (scanNumber s.length s).map fun p => (-(p.1 : Int), p.2)
  | '+' :: s => (scanNumber s.length s).map fun p => ((p.1 : Int), p.2)
  | s => (scanNumber 4 s).map fun p => ((p.1 : Int), p.2)

/-- chrono, a literal character. -/
def literal (c : Char) : Str → Option Str
  | d :: s => if d = c then some s else none
  | [] => none

/-- chrono `Parsed::to_naive_time`: the second 60 is a leap second. -/
def timeOfDay (h m s : Nat) : Option Int :=
  if h < 24 ∧ m < 60 ∧ s < 60 then some ((h * 3600 + m * 60 + s : Nat) * second)
  else if h < 24 ∧ m < 60 ∧ s = 60 then some ((h * 3600 + m * 60 + 59 : Nat) * second + 1000000000)
  else none

/-- src/interchange/cjson/shims.rs:13-16 `parse_datetime` with the format `%FT%TZ`. -/
def parseDate (s : Str) : Option Time := do
  let (year, s) ← parseYear s
  let s ← literal '-' s
  let (month, s) ← parseField s
  let s ← literal '-' s
  let (day, s) ← parseField s
  let s ← literal 'T' s
  let (hour, s) ← parseField s
  let s ← literal ':' s
  let (minute, s) ← parseField s
  let s ← literal ':' s
  let (sec, s) ← parseField s
  let s ← literal 'Z' s
  if s.isEmpty then
    let n ← dayOfDate ⟨year, month, day⟩
    let t ← timeOfDay hour minute sec
    some (n * 86400 * second + t)
  else none

/-- The formats of the libraries. What remains open are floats and SHA-256. -/
def lib (float : FloatLib) (sha256 : Bytes → Bytes) : ShimLib where
  float := float
  sha256 := sha256
  parseDate := parseDate
  formatDate := formatDate
  base64Decode := b64Decode
  base64Encode := b64Encode
  readSpki := readSpki
  writeSpki := writeSpki

end Formats
end RustTuf
