import Verif.Model.HttpRepository
import Verif.Spec.Bitrate
import Verif.Spec.Http
import Verif.Spec.Storage

/-!
# Specification of mirrors
A web server that hands out the files of a directory, and an HTTP repository that points at a
repository directory below it.
-/

namespace RustTuf.Spec

/-- A web server at this scheme and authority hands out the files below the directory `docs` of the
tree, fast enough for the given rate, and says 404 where there is nothing. It decodes and normalises
request paths. -/
structure FileServer {O : Type} (net : Network O) (scheme authority : Option Str) (docs : FileName)
    (t : Tree) (min : Nat) : Prop where
  found : ∀ uri agent o p q names bs, uri.scheme = scheme → uri.authority = authority →
    uri.pathAndQuery = some (p, q) → serverFile p = names.map utf8 →
    t (docs ++ names) = some (.file bs) →
    ∃ body, (net.request uri agent o).1 = some (200, body) ∧
      delivered (body.polls.map Prod.fst) = (bs, .eof) ∧ Brisk min body.polls
  missing : ∀ uri agent o p q names, uri.scheme = scheme → uri.authority = authority →
    uri.pathAndQuery = some (p, q) → serverFile p = names.map utf8 → t (docs ++ names) = none →
    ∃ body, (net.request uri agent o).1 = some (404, body)

/-- The HTTP repository points at the directories of the file system repository: the path of its
address followed by the prefix leads from `docs` to the directory. -/
structure PointsAt (h : HttpRepository) (cwd : List Str) (f : FileSystem) (docs : FileName) : Prop where
  address : ValidBase h.uri
  prefixes : ∀ c, c ∈ h.metadataPrefix.getD [] ∨ c ∈ h.targetsPrefix.getD [] → UrlSafe c
  directories : ∃ base : List Str, serverFile (basePath h.uri) = base.map utf8 ∧
    resolve cwd f.metadataPath = docs ++ base ++ (h.metadataPrefix.getD []).filter (· ≠ []) ∧
    resolve cwd f.targetsPath = docs ++ base ++ (h.targetsPrefix.getD []).filter (· ≠ [])

/-- A path that is accepted and has no percent sign. -/
def WebKey : MemKey → Prop
  | .metadata p _ => MetadataPath.new p = .ok p ∧ '%' ∉ p
  | .target p => TargetPath.new p = .ok p ∧ '%' ∉ p

/-- A path that is accepted. -/
def AcceptedKey : MemKey → Prop
  | .metadata p _ => MetadataPath.new p = .ok p
  | .target p => TargetPath.new p = .ok p

/-- What an HTTP repository answers, given what it is told about the file. -/
def webAnswer {O : Type} (h : HttpRepository) (net : Network O) (limit : Option Nat) (digest : HashData)
    (d : TargetDescription) (o : O) : MemKey → Except Err (List Ev)
  | .metadata p v => ((h.provider net).fetchMetadata p v limit digest o).1
  | .target p => ((h.provider net).fetchTarget p d o).1

/-- The components of a key, and the prefix that goes before them. -/
def webParts (h : HttpRepository) : MemKey → Option (List Str) × List Str
  | .metadata p v => (h.metadataPrefix, MetadataPath.components p v)
  | .target p => (h.targetsPrefix, TargetPath.components p)

/-- The last call for a setting. -/
def lastSetting {α : Type} (get : HttpRepositoryBuilder.Call → Option α) (default : α)
    (cs : List HttpRepositoryBuilder.Call) : α := ((cs.filterMap get).getLast?).getD default

/-- The content of a response body that arrives as a whole. -/
def wholeBody : Body → Option Bytes
  | [] => some []
  | (.pending, _) :: rest => wholeBody rest
  | (.failed, _) :: _ => none
  | (.bytes bs, _) :: rest => if bs = [] then some [] else (wholeBody rest).map (bs ++ ·)

end RustTuf.Spec
