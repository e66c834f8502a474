import Verif.Model.Metadata

/-!
# Paths
-/

namespace RustTuf

/-- `str::split(sep)` for a single character: always at least one piece. -/
def splitOn (sep : Char) : Str → List Str
  | [] => [[]]
  | c :: cs =>
    if c = sep then [] :: splitOn sep cs
    else
      match splitOn sep cs with
      | [] => [[c]]
      | h :: t => (c :: h) :: t

/-- `[String]::join(sep)` for a single character separator. -/
def joinWith (sep : Char) : List Str → Str
  | [] => []
  | [s] => s
  | s :: ss => s ++ sep :: joinWith sep ss

/-- Digits of a number, least significant first, with fuel. -/
def digitsRev : Nat → Nat → List Nat
  | 0, _ => []
  | fuel + 1, n => if n < 10 then [n] else (n % 10) :: digitsRev fuel (n / 10)

/-- A decimal digit as a character. -/
def digitChar (d : Nat) : Char := Char.ofNat (48 + d)

/-- `format!("{}", n)` for an unsigned integer: decimal without leading zeros. -/
def decimal (n : Nat) : Str := ((digitsRev (n + 1) n).reverse).map digitChar

/-- src/metadata.rs:22-26 `PATH_ILLEGAL_COMPONENTS`. -/
def illegalComponents : List Str := [".".toList, "..".toList]

/-- src/metadata.rs:29-58 `PATH_ILLEGAL_COMPONENTS_CASE_INSENSITIVE`. -/
def deviceNames : List Str :=
  ["CON", "PRN", "AUX", "NUL",
   "COM1", "COM2", "COM3", "COM4", "COM5", "COM6", "COM7", "COM8", "COM9",
   "LPT1", "LPT2", "LPT3", "LPT4", "LPT5", "LPT6", "LPT7", "LPT8", "LPT9",
   "KEYBD$", "CLOCK$", "SCREEN$", "$IDLE$", "CONFIG$"].map String.toList

/-- src/metadata.rs:61-104 `PATH_ILLEGAL_STRINGS`: all entries are single characters. -/
def illegalChars : List Char :=
  [':', '\\', '<', '>', '"', '|', '?', '*'] ++ (List.range 0x20).map Char.ofNat ++ [Char.ofNat 0x7f]

/-- `str::to_lowercase`. Only ASCII letters are mapped here. Unicode lower-casing of other
characters never produces an ASCII upper-case letter, so the comparison at src/metadata.rs:134-142,
whose right-hand sides all contain one, has the same outcome. -/
def lowercase (s : Str) : Str := s.map Char.toLower

/-- src/metadata.rs:106-146 `safe_path`. The illegal strings are single characters, so
`path.contains(bad_str)` is membership. -/
def safePath (path : Str) : Except Err Unit :=
  -- 107-109
  if path.isEmpty then .error .illegalArgument else
  -- 111-113
  if path.head? = some '/' then .error .illegalArgument else
  -- 115-122
  if illegalChars.any (fun c => path.contains c) then .error .illegalArgument else
  -- 124-143
  if (splitOn '/' path).any (fun comp =>
      illegalComponents.contains comp || deviceNames.contains (lowercase comp))
  then .error .illegalArgument
  else .ok ()

/-- src/metadata.rs:903-907 `MetadataPath::new`. -/
def MetadataPath.new (path : Str) : Except Err MetadataPath :=
  match safePath path with
  | .error e => .error e
  | .ok () => .ok path

/-- src/metadata.rs:1387-1390 `VirtualTargetPath::new`. -/
def VirtualTargetPath.new (path : Str) : Except Err VirtualTargetPath :=
  match safePath path with
  | .error e => .error e
  | .ok () => .ok path

/-- src/metadata.rs:1491-1494 `TargetPath::new`. -/
def TargetPath.new (path : Str) : Except Err TargetPath :=
  match safePath path with
  | .error e => .error e
  | .ok () => .ok path

/-- src/metadata.rs:179-188 `Role::fuzzy_matches_path`. -/
def Role.fuzzyMatchesPath (r : Role) (p : MetadataPath) : Bool :=
  match r with
  | .root => decide (p = "root".toList)
  | .snapshot => decide (p = "snapshot".toList)
  | .timestamp => decide (p = "timestamp".toList)
  | .targets =>
    decide (p = "targets".toList) ||
    !(["root".toList, "snapshot".toList, "targets".toList].contains p)

/-- src/metadata.rs:207-214 `MetadataVersion`. -/
inductive MetadataVersion where
  | none | number (n : Nat)
deriving DecidableEq, Repr

/-- src/metadata.rs:218-223 `MetadataVersion::prefix`. -/
def MetadataVersion.prefixStr : MetadataVersion → Str
  | .none => []
  | .number n => decimal n ++ ['.']

/-- src/metadata.rs:940-948 `MetadataPath::components`. The code overwrites the last element of
`buf`; the list returned by `split` is never empty. The extension of both formats is "json". -/
def MetadataPath.components (p : MetadataPath) (v : MetadataVersion) : List Str :=
  let buf := splitOn '/' p
  buf.dropLast ++ [v.prefixStr ++ buf.getLastD [] ++ ".json".toList]

/-- src/metadata.rs:1400-1402 `VirtualTargetPath::components` and 1504-1506
`TargetPath::components`. -/
def TargetPath.components (p : TargetPath) : List Str := splitOn '/' p

/-- `HashValue`'s `Display` (src/crypto.rs:887-891): lower-case hex. -/
def hexDigit (n : Nat) : Char := if n < 10 then Char.ofNat (48 + n) else Char.ofNat (87 + n)

/-- `data_encoding::HEXLOWER.encode`. -/
def hexLower (bs : Bytes) : Str :=
  bs.flatMap fun b => [hexDigit (b.toNat / 16), hexDigit (b.toNat % 16)]

/-- src/metadata.rs:1514-1523 `TargetPath::with_hash_prefix`. `components` is never empty, so the
`unwrap` in line 1518 cannot fail. -/
def TargetPath.withHashPrefix (p : TargetPath) (h : HashValue) : Except Err TargetPath :=
  let comps := TargetPath.components p
  let fileName := comps.getLastD []
  TargetPath.new (joinWith '/' (comps.dropLast ++ [hexLower h ++ '.' :: fileName]))

/-- src/metadata.rs:1422-1428 `VirtualTargetPath::is_child`. -/
def isChild (self parent : VirtualTargetPath) : Bool :=
  if parent.getLast? ≠ some '/' then false
  else parent.isPrefixOf self

/-- src/metadata.rs:1449: a pattern of a later group is kept if it is below, or equal to, a pattern
of the first group. -/
def keepUnder (first group : List VirtualTargetPath) : List VirtualTargetPath :=
  group.filter fun parent => first.any fun p => isChild parent p || decide (parent = p)

/-- src/metadata.rs:1435-1458 `VirtualTargetPath::matches_chain`; recursion on the number of groups,
which drops by one in each call. -/
def matchesChainN (self : VirtualTargetPath) : Nat → List (List VirtualTargetPath) → Bool
  | 0, _ => false
  | _ + 1, [] => false
  | _ + 1, [g] => g.any fun p => decide (p = self) || isChild self p
  | n + 1, g :: gs => matchesChainN self n (gs.map (keepUnder g))

/-- src/metadata.rs:1435-1458 `VirtualTargetPath::matches_chain`. -/
def matchesChain (self : VirtualTargetPath) (parents : List (List VirtualTargetPath)) : Bool :=
  matchesChainN self parents.length parents

end RustTuf
