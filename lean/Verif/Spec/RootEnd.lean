import Verif.Spec.Client
import Verif.Spec.Readers
import Verif.Model.Http
import Verif.Model.Paths

/-!
# When a repository says that a root file does not exist
-/

namespace RustTuf.Spec

/-- The answer means that the file does not exist: the repository says so, or the stream it returns
does. -/
def Missing (answer : Except Err (List Ev)) : Prop :=
  answer = .error .notFound ∨ ∃ evs bs, answer = .ok evs ∧ delivered evs = (bs, .error .notFound)

/-- The answer to a request for a version of the root file, without digest. -/
def rootAnswer {W : Type} (R : World W) (src : Source) (limit : Option Nat) (version : Nat) (w : W) :
    Except Err (List Ev) :=
  match src with
  | .remote => (R.remote.fetchMetadata "root".toList (.number version) limit none w).1
  | .cache => (R.cache.fetchMetadata "root".toList (.number version) limit none w).1

/-- The remote repository is an HTTP repository. Bodies and transport fail with errors of other kinds
than `NotFound` (src/repository/http.rs:221-225, 257-261). -/
structure OverHttp {W : Type} (R : World W) (request : W → Uri → Except Err (Nat × List Ev)) (base : Uri)
    (pre : Option (List Str)) : Prop where
  answer : ∀ p v m h w, (R.remote.fetchMetadata p v m h w).1 =
    httpFetch (request w) base pre (MetadataPath.components p v)
  transport : ∀ w uri, request w uri ≠ .error .notFound
  body : ∀ w uri code evs, request w uri = .ok (code, evs) → (delivered evs).2 ≠ .error .notFound

end RustTuf.Spec
