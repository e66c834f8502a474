import Verif.Spec.Published

/-!
# Specification of unreliable connections and of calls that are given up
-/

namespace RustTuf.Spec

/-- The remote repository is honest but the connection to it is not reliable. Requests for top-level
metadata may fail in any way and at any point. But what is delivered completely is the published
file, and a root file is reported missing only if it is not published. -/
structure Patchy {W : Type} (R : World W) (file : Files) : Prop where
  complete : ∀ p v m h w evs bs, TopName p → (R.remote.fetchMetadata p v m h w).1 = .ok evs →
    delivered evs = (bs, .eof) → file p v = some bs
  missing : ∀ v m h w, (R.remote.fetchMetadata "root".toList v m h w).1 = .error .notFound →
    file "root".toList v = none
  cut : ∀ v m h w evs bs, (R.remote.fetchMetadata "root".toList v m h w).1 = .ok evs →
    delivered evs = (bs, .error .notFound) → file "root".toList v = none

/-- The world `R` for a call whose future is dropped: the second component counts how many requests
to repositories are still awaited. The next one is not: the code after it does not run any more,
which is what a panic of the request amounts to. -/
def dropAfter {W : Type} (R : World W) : World (W × Nat) where
  remote :=
    { fetchMetadata := fun p v m h w =>
        match w.2 with
        | 0 => (.error .panic, w)
        | k + 1 => match R.remote.fetchMetadata p v m h w.1 with | (r, w') => (r, (w', k))
      fetchTarget := fun p d w =>
        match w.2 with
        | 0 => (.error .panic, w)
        | k + 1 => match R.remote.fetchTarget p d w.1 with | (r, w') => (r, (w', k)) }
  cache :=
    { fetchMetadata := fun p v m h w =>
        match w.2 with
        | 0 => (.error .panic, w)
        | k + 1 => match R.cache.fetchMetadata p v m h w.1 with | (r, w') => (r, (w', k))
      fetchTarget := fun p d w =>
        match w.2 with
        | 0 => (.error .panic, w)
        | k + 1 => match R.cache.fetchTarget p d w.1 with | (r, w') => (r, (w', k)) }
  storeMetadata := fun p v raw w =>
    match w.2 with
    | 0 => (.error .panic, w)
    | k + 1 => match R.storeMetadata p v raw w.1 with | (r, w') => (r, (w', k))
  storeTarget := fun evs p w =>
    match w.2 with
    | 0 => (.error .panic, w)
    | k + 1 => match R.storeTarget evs p w.1 with | (r, w') => (r, (w', k))
  write := fun b w => match R.write b w.1 with | (r, w') => (r, (w', w.2))
  flush := fun w => match R.flush w.1 with | (r, w') => (r, (w', w.2))
  clock := fun w => match R.clock w.1 with | (r, w') => (r, (w', w.2))

/-- A client after a call that was dropped: the counter of `dropAfter` is not part of the world. -/
def uncounted {W : Type} (s : St (W × Nat)) : St W := ⟨s.tuf, ⟨s.io.w.1, s.io.log⟩⟩

/-- A call that a caller makes over some connection, and after how many requests it gives the call up
(if it does). -/
structure Attempt (W : Type) where
  world : World W
  call : Client.Call
  dropped : Option Nat

/-- The client after an attempt. -/
def Attempt.run {W : Type} (E : Env) (D : Digest) (cfg : Config) (s : St W) (a : Attempt W) : St W :=
  match a.dropped with
  | none => (Client.exec E D a.world cfg a.call s).2
  | some n =>
    uncounted (Client.exec E D (dropAfter a.world) cfg a.call ⟨s.tuf, ⟨(s.io.w, n), s.io.log⟩⟩).2

/-- The client after several attempts. -/
def attempts {W : Type} (E : Env) (D : Digest) (cfg : Config) (s : St W) (l : List (Attempt W)) : St W :=
  l.foldl (Attempt.run E D cfg) s

end RustTuf.Spec
