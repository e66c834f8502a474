import Verif.Model.FilePath

/-!
# What a path string means to the operating system
Resolution of a path relative to a current directory, as a stack of names. Symbolic links are not
considered.
-/

namespace RustTuf.Spec

/-- Walk along the pieces of a path. -/
def walk : List Str → List Str → List Str
  | dir, [] => dir
  | dir, c :: cs =>
    if c = [] ∨ c = ['.'] then walk dir cs
    else if c = ['.', '.'] then walk dir.dropLast cs
    else walk (dir ++ [c]) cs

/-- Split at slashes, written with list operations. -/
def pieces (s : Str) : List Str := s.splitOn '/'

/-- A number in decimal. -/
def numberText (n : Nat) : Str := Nat.toDigits 10 n

/-- Bytes in hexadecimal with small letters. -/
def hexText (bs : Bytes) : Str :=
  bs.flatMap fun b => [Nat.digitChar (b.toNat / 16), Nat.digitChar (b.toNat % 16)]

/-- The file a path names, as a list of directory entries from the root of the file system. -/
def resolve (cwd : List Str) (path : Str) : List Str :=
  if path.head? = some '/' then walk [] (pieces path) else walk cwd (pieces path)

/-- A harmless name: not special, no separators, drive letters, wildcard or control characters. -/
structure Harmless (c : Str) : Prop where
  notDot : c ≠ ['.']
  notDotDot : c ≠ ['.', '.']
  noSlash : '/' ∉ c
  noBackslash : '\\' ∉ c
  noColon : ':' ∉ c
  noControl : ∀ x ∈ c, 0x20 ≤ x.toNat ∧ x.toNat ≠ 0x7f

/-- The names of DOS devices. -/
def dosDevices : List Str :=
  ["con", "prn", "aux", "nul", "com1", "com2", "com3", "com4", "com5", "com6", "com7", "com8", "com9",
   "lpt1", "lpt2", "lpt3", "lpt4", "lpt5", "lpt6", "lpt7", "lpt8", "lpt9",
   "keybd$", "clock$", "screen$", "$idle$", "config$"].map String.toList

/-- The name of a device in any mixture of upper and lower case. -/
def IsDevice (s : Str) : Prop := s.map Char.toLower ∈ dosDevices

end RustTuf.Spec
