import Verif.Model.Paths

/-!
# File names used by the file system repository
-/

namespace RustTuf

/-- `PathBuf::push` on Unix: an absolute argument replaces the path, otherwise a separator is added
if needed. (On Windows a drive prefix or a backslash would matter as well; `safe_path` rejects ':'
and '\\' everywhere.) -/
def pathPush (base comp : Str) : Str :=
  if comp.head? = some '/' then comp
  else
    match base.getLast? with
    | none => comp
    | some c => if c = '/' then base ++ comp else base ++ '/' :: comp

/-- `PathBuf::extend` with a list of components. -/
def pathExtend (base : Str) (comps : List Str) : Str := comps.foldl pathPush base

/-- src/repository/file_system.rs:120-121, 161-162: file of a metadata path. -/
def metadataFile (metadataPath : Str) (p : MetadataPath) (v : MetadataVersion) : Str :=
  pathExtend metadataPath (MetadataPath.components p v)

/-- src/repository/file_system.rs:136-137, 184-185: file of a target path. -/
def targetFile (targetsPath : Str) (p : TargetPath) : Str :=
  pathExtend targetsPath (TargetPath.components p)

/-- src/repository/file_system.rs:61-82 `build`: the metadata and targets directories. -/
def buildDirs (localPath : Str) (metadataPrefix targetsPrefix : Option Str) : Str × Str :=
  (match metadataPrefix with | some p => pathPush localPath p | none => localPath,
   match targetsPrefix with | some p => pathPush localPath p | none => localPath)

/-- src/repository/file_system.rs:100-105 `new`. -/
def defaultDirs (localPath : Str) : Str × Str :=
  buildDirs localPath (some "metadata".toList) (some "targets".toList)

end RustTuf
