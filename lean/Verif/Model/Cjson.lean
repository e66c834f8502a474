import Verif.Model.Http
import Verif.Model.Json
import Verif.Model.Paths
import Verif.Model.StrOrder

/-!
# Canonical JSON (src/interchange/cjson/mod.rs)
Texts are lists of characters; the bytes of a text are its UTF-8 encoding.
-/

namespace RustTuf

/-- serde_json `ESCAPE` table and `CharEscape`: how `to_string` writes one character of a string. -/
def escapeChar (c : Char) : Str :=
  if c.toNat = 0x22 then ['\\', '"']
  else if c.toNat = 0x5C then ['\\', '\\']
  else if c.toNat = 0x08 then ['\\', 'b']
  else if c.toNat = 0x0C then ['\\', 'f']
  else if c.toNat = 0x0A then ['\\', 'n']
  else if c.toNat = 0x0D then ['\\', 'r']
  else if c.toNat = 0x09 then ['\\', 't']
  else if c.toNat < 0x20 then ['\\', 'u', '0', '0', hexDigit (c.toNat / 16), hexDigit (c.toNat % 16)]
  else [c]

/-- `serde_json::to_string` of a string, without the closing quotation mark. -/
def writeStrBody : Str → Str
  | [] => []
  | c :: s => escapeChar c ++ writeStrBody s

/-- src/interchange/cjson/mod.rs:355-361, 384-387: a string or an object key. -/
def writeStr (s : Str) : Str := '"' :: (writeStrBody s ++ ['"'])

/-- `itoa::write`, src/interchange/cjson/mod.rs:349-354. -/
def writeInt (i : Int) : Str := if i < 0 then '-' :: decimal i.natAbs else decimal i.natAbs

/-- The integers that `Number::as_i64` or `Number::as_u64` accept. -/
def i64u64 (i : Int) : Bool := decide (-9223372036854775808 ≤ i ∧ i ≤ 18446744073709551615)

namespace Json

mutual
/-- src/interchange/cjson/mod.rs:404-430 `convert`. The result type `Value` is represented by `Json`
values whose objects are sorted. The error is mapped to `Error::Opaque` in lines 207-209. -/
def convert : Json → Except Err Json
  | .null => .ok .null
  | .bool b => .ok (.bool b)
  | .int i => if i64u64 i then .ok (.int i) else .error .opaqueErr
  | .float _ => .error .opaqueErr
  | .str s => .ok (.str s)
  | .arr l =>
    match convertL l with
    | .error e => .error e
    | .ok l' => .ok (.arr l')
  | .obj m =>
    match convertM m with
    | .error e => .error e
    | .ok m' => .ok (.obj (btreeCollect m'))
/-- src/interchange/cjson/mod.rs:415-419. -/
def convertL : List Json → Except Err (List Json)
  | [] => .ok []
  | v :: l =>
    match convert v with
    | .error e => .error e
    | .ok v' =>
      match convertL l with
      | .error e => .error e
      | .ok l' => .ok (v' :: l')
/-- src/interchange/cjson/mod.rs:422-426; the insertions are done afterwards, since they cannot
fail. -/
def convertM : List (Str × Json) → Except Err (List (Str × Json))
  | [] => .ok []
  | (k, v) :: m =>
    match convert v with
    | .error e => .error e
    | .ok v' =>
      match convertM m with
      | .error e => .error e
      | .ok m' => .ok ((k, v') :: m')
end

mutual
/-- src/interchange/cjson/mod.rs:335-396 `Value::write`. Floats do not occur in converted values. -/
def write : Json → Str
  | .null => "null".toList
  | .bool true => "true".toList
  | .bool false => "false".toList
  | .int i => writeInt i
  | .float _ => []
  | .str s => writeStr s
  | .arr l => '[' :: (writeL true l ++ [']'])
  | .obj m => '{' :: (writeM true m ++ ['}'])
/-- src/interchange/cjson/mod.rs:364-371: the flag is `first`. -/
def writeL : Bool → List Json → Str
  | _, [] => []
  | first, v :: l => (if first then [] else [',']) ++ write v ++ writeL false l
/-- src/interchange/cjson/mod.rs:377-392: the flag is `first`. -/
def writeM : Bool → List (Str × Json) → Str
  | _, [] => []
  | first, (k, v) :: m =>
    (if first then [] else [',']) ++ writeStr k ++ [':'] ++ write v ++ writeM false m
end

/-- The text of src/interchange/cjson/mod.rs:318-323 `canonicalize`. -/
def canonicalText (v : Json) : Except Err Str :=
  match convert v with
  | .error e => .error e
  | .ok w => .ok (write w)

/-- src/interchange/cjson/mod.rs:207-209, 318-323 `canonicalize`. -/
def canonicalize (v : Json) : Except Err Bytes :=
  match canonicalText v with
  | .error e => .error e
  | .ok t => .ok (utf8 t)

end Json

/-! ### Reading JSON text
`serde_json::from_slice`, `from_reader` (serde_json 1.0). The whole text is read with the rules for
values that are kept. For members that no field wants (`ignore_value`), serde_json checks neither
UTF-8 nor surrogates, nor the range of floating point numbers, nor (depending on its version) the
nesting; the model refuses such texts. Since `signed` is kept as a whole, only unknown members of the
outer object and of signatures are concerned. -/

/-- The part of serde_json that is not modelled: the float for a number token that is not an
integer in range, or `none` if it is out of range. -/
structure FloatLib where
  bits : Str → Option Nat

/-- `Deserializer::parse_whitespace`. -/
def skipWs : Str → Str
  | [] => []
  | c :: s => if c = ' ' ∨ c = '\n' ∨ c = '\t' ∨ c = '\r' then skipWs s else c :: s

/-- `Deserializer::parse_ident`. -/
def stripPrefix : Str → Str → Option Str
  | [], s => some s
  | _ :: _, [] => none
  | p :: ps, c :: s => if p = c then stripPrefix ps s else none

/-- `decode_hex_val`. -/
def hexVal (c : Char) : Option Nat :=
  if 48 ≤ c.toNat ∧ c.toNat ≤ 57 then some (c.toNat - 48)
  else if 97 ≤ c.toNat ∧ c.toNat ≤ 102 then some (c.toNat - 87)
  else if 65 ≤ c.toNat ∧ c.toNat ≤ 70 then some (c.toNat - 55)
  else none

/-- `decode_hex_escape`: four digits. -/
def hex4 : Str → Option (Nat × Str)
  | a :: b :: c :: d :: s =>
    match hexVal a, hexVal b, hexVal c, hexVal d with
    | some a, some b, some c, some d => some (((a * 16 + b) * 16 + c) * 16 + d, s)
    | _, _, _, _ => none
  | _ => none

/-- `parse_escape` for `\u`, after the `u`. -/
def unescapeU (s : Str) : Except Err (Char × Str) :=
  match hex4 s with
  | none => .error .encoding
  | some (n, s) =>
    if 0xDC00 ≤ n ∧ n ≤ 0xDFFF then .error .encoding
    else if 0xD800 ≤ n ∧ n ≤ 0xDBFF then
      match stripPrefix ['\\', 'u'] s with
      | none => .error .encoding
      | some s =>
        match hex4 s with
        | none => .error .encoding
        | some (n2, s) =>
          if 0xDC00 ≤ n2 ∧ n2 ≤ 0xDFFF then
            .ok (Char.ofNat ((n - 0xD800) * 0x400 + (n2 - 0xDC00) + 0x10000), s)
          else .error .encoding
    else .ok (Char.ofNat n, s)

/-- One character of a string: `none` for the closing quotation mark. -/
def strStep : Str → Except Err (Option Char × Str)
  | [] => .error .encoding
  | c :: s =>
    if c.toNat = 0x22 then .ok (none, s)
    else if c.toNat = 0x5C then
      match s with
      | [] => .error .encoding
      | e :: s =>
        if e = '"' then .ok (some '"', s)
        else if e = '\\' then .ok (some '\\', s)
        else if e = '/' then .ok (some '/', s)
        else if e = 'b' then .ok (some (Char.ofNat 8), s)
        else if e = 'f' then .ok (some (Char.ofNat 12), s)
        else if e = 'n' then .ok (some (Char.ofNat 10), s)
        else if e = 'r' then .ok (some (Char.ofNat 13), s)
        else if e = 't' then .ok (some (Char.ofNat 9), s)
        else if e = 'u' then
          match unescapeU s with
          | .error x => .error x
          | .ok (c, s) => .ok (some c, s)
        else .error .encoding
    else if c.toNat < 0x20 then .error .encoding
    else .ok (some c, s)

/-- The rest of a string after the opening quotation mark. -/
def parseStrBody : Nat → Str → Except Err (Str × Str)
  | 0, _ => .error .diverged
  | fuel + 1, s =>
    match strStep s with
    | .error e => .error e
    | .ok (none, s) => .ok ([], s)
    | .ok (some c, s) =>
      match parseStrBody fuel s with
      | .error e => .error e
      | .ok (t, s) => .ok (c :: t, s)

/-- `parse_str`, after the opening quotation mark. -/
def parseStr (s : Str) : Except Err (Str × Str) := parseStrBody (s.length + 1) s

/-- A decimal digit. -/
def isDigit (c : Char) : Bool := decide (48 ≤ c.toNat ∧ c.toNat ≤ 57)

/-- The digits at the start of a text, and the rest. -/
def spanDigits : Str → Str × Str
  | [] => ([], [])
  | c :: s => if isDigit c then (c :: (spanDigits s).1, (spanDigits s).2) else ([], c :: s)

/-- Value of a digit string. -/
def digitsVal (acc : Nat) : Str → Nat
  | [] => acc
  | c :: s => digitsVal (acc * 10 + (c.toNat - 48)) s

/-- Fraction and exponent of a number: the token and the rest, or an error. -/
def numberTail (s : Str) : Except Err (Str × Str) :=
  let frac : Except Err (Str × Str) :=
    match s with
    | '.' :: r =>
      if (spanDigits r).1.isEmpty then .error .encoding
      else .ok ('.' :: (spanDigits r).1, (spanDigits r).2)
    | _ => .ok ([], s)
  match frac with
  | .error e => .error e
  | .ok (f, s) =>
    match s with
    | c :: r =>
      if c = 'e' ∨ c = 'E' then
        let (sign, r) : Str × Str :=
          match r with
          | d :: r' => if d = '+' ∨ d = '-' then ([d], r') else ([], r)
          | [] => ([], [])
        if (spanDigits r).1.isEmpty then .error .encoding
        else .ok (f ++ c :: sign ++ (spanDigits r).1, (spanDigits r).2)
      else .ok (f, s)
    | [] => .ok (f, s)

/-- `parse_any_number` after an optional minus sign: `parse_integer`, `parse_number`. -/
def parseNumber (L : FloatLib) (neg : Bool) (s : Str) : Except Err (Json × Str) :=
  let ds := (spanDigits s).1
  if ds.isEmpty ∨ (ds.head? = some '0' ∧ ds.length ≠ 1) then .error .encoding else
    match numberTail (spanDigits s).2 with
    | .error e => .error e
    | .ok (tail, r) =>
      let n := digitsVal 0 ds
      if tail.isEmpty ∧ neg = false ∧ n ≤ 18446744073709551615 then .ok (.int n, r)
      else if tail.isEmpty ∧ neg = true ∧ 0 < n ∧ n ≤ 9223372036854775808 then .ok (.int (-n), r)
      else
        match L.bits ((if neg then ['-'] else []) ++ ds ++ tail) with
        | none => .error .encoding
        | some b => .ok (.float b, r)

mutual
/-- `Deserializer::deserialize_any` for a tree that keeps the members of objects as they come.
`depth` is `remaining_depth` (128 at the start); `fuel` bounds the recursion. -/
def parseValue (L : FloatLib) : Nat → Nat → Str → Except Err (Json × Str)
  | 0, _, _ => .error .diverged
  | fuel + 1, depth, s =>
    match skipWs s with
    | [] => .error .encoding
    | c :: r =>
      if c = 'n' then
        match stripPrefix "ull".toList r with
        | none => .error .encoding
        | some r => .ok (.null, r)
      else if c = 't' then
        match stripPrefix "rue".toList r with
        | none => .error .encoding
        | some r => .ok (.bool true, r)
      else if c = 'f' then
        match stripPrefix "alse".toList r with
        | none => .error .encoding
        | some r => .ok (.bool false, r)
      else if c = '"' then
        match parseStr r with
        | .error e => .error e
        | .ok (t, r) => .ok (.str t, r)
      else if c = '[' then
        if depth ≤ 1 then .error .encoding else
        match skipWs r with
        | ']' :: r => .ok (.arr [], r)
        | r =>
          match parseElems L fuel (depth - 1) r with
          | .error e => .error e
          | .ok (l, r) => .ok (.arr l, r)
      else if c = '{' then
        if depth ≤ 1 then .error .encoding else
        match skipWs r with
        | '}' :: r => .ok (.obj [], r)
        | r =>
          match parseMembers L fuel (depth - 1) r with
          | .error e => .error e
          | .ok (m, r) => .ok (.obj m, r)
      else if c = '-' then parseNumber L true r
      else if isDigit c then parseNumber L false (c :: r)
      else .error .encoding
/-- Elements of an array, at least one, and the closing bracket. -/
def parseElems (L : FloatLib) : Nat → Nat → Str → Except Err (List Json × Str)
  | 0, _, _ => .error .diverged
  | fuel + 1, depth, s =>
    match parseValue L fuel depth s with
    | .error e => .error e
    | .ok (v, s) =>
      match skipWs s with
      | ']' :: r => .ok ([v], r)
      | ',' :: r =>
        match parseElems L fuel depth r with
        | .error e => .error e
        | .ok (l, r) => .ok (v :: l, r)
      | _ => .error .encoding
/-- Members of an object, at least one, and the closing brace. -/
def parseMembers (L : FloatLib) : Nat → Nat → Str → Except Err (List (Str × Json) × Str)
  | 0, _, _ => .error .diverged
  | fuel + 1, depth, s =>
    match skipWs s with
    | '"' :: r =>
      match parseStr r with
      | .error e => .error e
      | .ok (k, r) =>
        match skipWs r with
        | ':' :: r =>
          match parseValue L fuel depth r with
          | .error e => .error e
          | .ok (v, r) =>
            match skipWs r with
            | '}' :: r => .ok ([(k, v)], r)
            | ',' :: r =>
              match parseMembers L fuel depth r with
              | .error e => .error e
              | .ok (m, r) => .ok ((k, v) :: m, r)
            | _ => .error .encoding
        | _ => .error .encoding
    | _ => .error .encoding
end

/-- Reading a whole text: `Deserializer::end` allows only white space after the value. -/
def parseText (L : FloatLib) (s : Str) : Except Err Json :=
  match parseValue L (2 * s.length + 2) 128 s with
  | .error e => .error e
  | .ok (v, r) => if (skipWs r).isEmpty then .ok v else .error .encoding

/-- UTF-8 decoding of the whole input. -/
def fromUtf8 (b : Bytes) : Option Str := (ByteArray.utf8Decode? b.toByteArray).map Array.toList

/-- `serde_json::from_slice` into a tree. -/
def parseJson (L : FloatLib) (b : Bytes) : Except Err Json :=
  match fromUtf8 b with
  | none => .error .encoding
  | some s => parseText L s

namespace Json
mutual
/-- Reading into a `serde_json::Value` instead of a raw tree: objects become `BTreeMap`s, the last of
several members with the same name wins. -/
def normal : Json → Json
  | .arr l => .arr (normalL l)
  | .obj m => .obj (btreeCollect (normalM m))
  | v => v
/-- All elements. -/
def normalL : List Json → List Json
  | [] => []
  | v :: l => normal v :: normalL l
/-- All members. -/
def normalM : List (Str × Json) → List (Str × Json)
  | [] => []
  | (k, v) :: m => (k, normal v) :: normalM m
end
end Json

end RustTuf
