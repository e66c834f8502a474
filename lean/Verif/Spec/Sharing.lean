import Verif.Spec.History
import Verif.Spec.Restart
import Verif.Spec.Published

/-!
# Specification of a local repository that several clients use at the same time
-/

namespace RustTuf.Spec

/-- `raw` is a document with root `c` that a client with root `b` accepts. -/
structure Succeeds (E : Env) (b : RootMetadata) (raw : Bytes) (c : RootMetadata) : Prop where
  byOld : Authentic E E.rootFromSlice raw b.root.threshold (rootSigners b) c
  bySelf : Authentic E E.rootFromSlice raw c.root.threshold (rootSigners c) c
  next : c.version = b.version + 1
  bound : c.version ≤ 4294967295

/-- No two different roots have been signed as successors of the same root, from root `a` on. -/
def NoForks (E : Env) (a : RootMetadata) : Prop :=
  ∀ b c c' raw raw', RootChain E a b → Succeeds E b raw c → Succeeds E b raw' c' → c = c'

/-- What clients that started from root `a` may do to the files, one write after the other: they
write any file that is not that of a numbered root, and they write a root after its predecessor has
been written. -/
inductive Others (E : Env) (cfg : Config) (a : RootMetadata) (F : Files) : Files → Prop
  | none : Others E cfg a F F
  | file (F' F'' : Files) : Others E cfg a F F' →
      (∀ n, F'' "root".toList (.number n) = F' "root".toList (.number n)) → Others E cfg a F F''
  | root (F' : Files) (b c : RootMetadata) (raw : Bytes) : Others E cfg a F F' → RootChain E a b →
      (b = a ∨ F' "root".toList (.number b.version) ≠ none) → Succeeds E b raw c →
      NotLonger cfg.maxRootLength raw →
      Others E cfg a F (F'.put "root".toList (.number c.version) raw)

/-- A local repository that others use as well: before and after each action of the client, they may
have changed the files. A read finds the files as they are at one moment, and a write succeeds, or it
fails and changes nothing. -/
structure Shared {W : Type} (R : World W) (file : W → Files) (others : Files → Files → Prop) : Prop where
  cached : ∀ p v m h w, ∃ F, others (file w) F ∧ others F (file (R.cache.fetchMetadata p v m h w).2) ∧
    match F p v with
    | some b => ∃ evs, (R.cache.fetchMetadata p v m h w).1 = .ok evs ∧ delivered evs = (b, .eof)
    | none => (R.cache.fetchMetadata p v m h w).1 = .error .notFound
  remoteFetch : ∀ p v m h w, others (file w) (file (R.remote.fetchMetadata p v m h w).2)
  targetFetch : ∀ p d w, others (file w) (file (R.remote.fetchTarget p d w).2)
  targetStore : ∀ evs p w, others (file w) (file (R.storeTarget evs p w).2)
  write : ∀ b w, others (file w) (file (R.write b w).2)
  flush : ∀ w, others (file w) (file (R.flush w).2)
  clock : ∀ w, others (file w) (file (R.clock w).2)
  store : ∀ p v raw w, ∃ F, others (file w) F ∧
    (((R.storeMetadata p v raw w).1 = .ok () ∧
        others (F.put p v raw) (file (R.storeMetadata p v raw w).2)) ∨
      ((∃ e, (R.storeMetadata p v raw w).1 = .error e) ∧
        others F (file (R.storeMetadata p v raw w).2)))

/-- The state of a client that uses a local repository together with others. All of them start from
the root document `raw`, which holds root `a`, and at first there were no later roots in the
repository. The writes of this client succeed. -/
inductive Among {W : Type} (E : Env) (D : Digest) (cfg : Config) (file : W → Files) (raw : Bytes)
    (a : RootMetadata) : Tuf → Io W → Prop
  | start (R : World W) (F : Files) (t : Tuf) (io io' : Io W) :
      Tuf.fromTrustedRoot E raw = .ok (Tuf.ofRoot a) →
      (∀ n, a.version < n → F "root".toList (.number n) = none) →
      Others E cfg a F (file io.w) → Shared R file (Others E cfg a) →
      Client.construct E D R cfg (.trustedRoot raw) io = (.ok t, io') →
      Among E D cfg file raw a t io'
  | call (R : World W) (t t' : Tuf) (io io' : Io W) (c : Client.Call) (r : Except Err Client.Reply) :
      Among E D cfg file raw a t io → Shared R file (Others E cfg a) → Writable R →
      Client.exec E D R cfg c ⟨t, io⟩ = (r, ⟨t', io'⟩) → Among E D cfg file raw a t' io'
  | others (t : Tuf) (io io' : Io W) : Among E D cfg file raw a t io →
      Others E cfg a (file io.w) (file io'.w) → Among E D cfg file raw a t io'

end RustTuf.Spec
