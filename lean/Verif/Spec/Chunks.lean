import Verif.Spec.Published
import Verif.Spec.Storage

/-! What the world does, up to how streams are cut into chunks. -/

namespace RustTuf.Spec
open Client

/-- Both streams deliver everything, and the same, or both fail, with errors of the same kind. -/
def EndAlike (evs evs' : List Ev) : Prop :=
  (∃ bs, delivered evs = (bs, .eof) ∧ delivered evs' = (bs, .eof)) ∨
  ∃ bs bs' k, delivered evs = (bs, .error k) ∧ delivered evs' = (bs', .error k)

/-- The same error, or streams that deliver the same. -/
def SameAnswer : Except Err (List Ev) → Except Err (List Ev) → Prop
  | .error e, .error e' => e = e'
  | .ok evs, .ok evs' => delivered evs = delivered evs'
  | _, _ => False

/-- These providers give the same answers, but may cut what they deliver into different chunks, and
may let their readers wait at different places. -/
structure SameProvider {W : Type} (P P' : Provider W) : Prop where
  metadata : ∀ p v m h w, SameAnswer (P.fetchMetadata p v m h w).1 (P'.fetchMetadata p v m h w).1 ∧
    (P.fetchMetadata p v m h w).2 = (P'.fetchMetadata p v m h w).2
  target : ∀ p d w, SameAnswer (P.fetchTarget p d w).1 (P'.fetchTarget p d w).1 ∧
    (P.fetchTarget p d w).2 = (P'.fetchTarget p d w).2

/-- Worlds that differ in the chunks only. What the local repository does with a target does not
depend on the chunks either. -/
structure SameButChunks {W : Type} (R R' : World W) : Prop where
  remote : SameProvider R.remote R'.remote
  cache : SameProvider R.cache R'.cache
  storeMetadata : R.storeMetadata = R'.storeMetadata
  storeTarget : ∀ evs evs' p w, EndAlike evs evs' → R.storeTarget evs p w = R'.storeTarget evs' p w
  write : R.write = R'.write
  flush : R.flush = R'.flush
  clock : R.clock = R'.clock

/-- Everything outside the client and its local repository, up to chunks. -/
structure SameOutside {O : Type} (X X' : Outside O) : Prop where
  remote : SameProvider X.remote X'.remote
  write : X.write = X'.write
  flush : X.flush = X'.flush
  clock : X.clock = X'.clock
  fault : X.fault = X'.fault
  targetFault : X.targetFault = X'.targetFault

/-- No download to the caller's writer. -/
def ToStore : Call → Prop
  | .fetchTargetToWriter _ => False
  | _ => True

/-- It does not matter to the caller's writer whether bytes come in one piece or in two. -/
def Seamless {W : Type} (R : World W) : Prop :=
  ∀ a b w, a ≠ [] → b ≠ [] → (R.write a w).1 = .ok () → R.write (a ++ b) w = R.write b (R.write a w).2

/-- Every byte comes alone, and the reader has to wait for it. -/
def drip : List Ev → List Ev
  | [] => []
  | .data bs :: evs =>
    if bs = [] then .data [] :: drip evs else bs.flatMap (fun b => [.pending, .data [b]]) ++ drip evs
  | ev :: evs => ev :: drip evs

/-- A provider behind a slow network. -/
def dripping {W : Type} (P : Provider W) : Provider W where
  fetchMetadata p v m h w := match P.fetchMetadata p v m h w with | (r, w') => (r.map drip, w')
  fetchTarget p d w := match P.fetchTarget p d w with | (r, w') => (r.map drip, w')

/-- The world with its providers behind a slow network. -/
def slow {W : Type} (R : World W) : World W :=
  { R with remote := dripping R.remote, cache := dripping R.cache }

end RustTuf.Spec
