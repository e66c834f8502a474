import Verif.Model.FileSystem
import Verif.Spec.FilePath
import Verif.Spec.Restart

/-!
# Specification of local repositories
A local repository is to behave like a map from keys to contents. Definition of this map, of a client
whose local repository is a given one, and of the names for which files behave like a map.
-/

namespace RustTuf.Spec
open Client

/-- A local repository with state `L`. The first argument of the stores is what goes wrong outside, if
anything. -/
structure Storage (L : Type) where
  fetchMetadata : MetadataPath → MetadataVersion → L → Except Err (List Ev)
  fetchTarget : TargetPath → L → Except Err (List Ev)
  storeMetadata : Option Nat → MetadataPath → MetadataVersion → List Ev → L → Except Err Unit × L
  storeTarget : Option Nat → List Ev → TargetPath → L → Except Err Unit × L

/-- The content of a local repository. -/
abbrev Contents := MemKey → Option Bytes

/-- The content after one more store. -/
def Contents.put (m : Contents) (k : MemKey) (bs : Bytes) : Contents :=
  fun k' => if k' = k then some bs else m k'

/-- Looking something up. -/
def Contents.get (m : Contents) (k : MemKey) : Except Err (List Ev) :=
  match m k with
  | some bs => .ok (cursorEvents bs)
  | none => .error .notFound

/-- Storing what a source delivers, all or nothing. -/
def Contents.store (m : Contents) (fault : Option Nat) (k : MemKey) (src : List Ev) :
    Except Err Unit × Contents :=
  match fault, delivered src with
  | some _, _ => (.error .opaqueErr, m)
  | none, (_, .error e) => (.error e.toErr, m)
  | none, (bs, .eof) => (.ok (), m.put k bs)

/-- The map as a repository. -/
def mapStorage : Storage Contents where
  fetchMetadata p v m := m.get (.metadata p v)
  fetchTarget p m := m.get (.target p)
  storeMetadata fault p v src m := m.store fault (.metadata p v) src
  storeTarget fault src p m := m.store fault (.target p) src

/-- The file system repository. -/
def _root_.RustTuf.FileSystem.storage (f : FileSystem) : Storage Tree where
  fetchMetadata p v t := f.fetchMetadata t p v
  fetchTarget p t := f.fetchTarget t p
  storeMetadata fault p v src t := f.storeMetadata t fault p v src
  storeTarget fault src p t := f.storeTarget t fault src p

/-- The in-memory repository. Nothing outside can go wrong. -/
def _root_.RustTuf.Ephemeral.storage : Storage Ephemeral where
  fetchMetadata p v r := r.fetchMetadata p v
  fetchTarget p r := r.fetchTarget p
  storeMetadata _ p v src r := r.storeMetadata p v src
  storeTarget _ src p r := r.storeTarget src p

/-- Calls of a local repository. -/
inductive StorageCall where
  | fetch (k : MemKey)
  | store (fault : Option Nat) (k : MemKey) (src : List Ev)

/-- What a call is about. -/
def StorageCall.key : StorageCall → MemKey
  | .fetch k => k
  | .store _ k _ => k

/-- One call: a stream, or whether the store has worked. -/
def Storage.call {L : Type} (S : Storage L) (l : L) :
    StorageCall → (Except Err (List Ev) ⊕ Except Err Unit) × L
  | .fetch (.metadata p v) => (.inl (S.fetchMetadata p v l), l)
  | .fetch (.target p) => (.inl (S.fetchTarget p l), l)
  | .store fault (.metadata p v) src =>
    match S.storeMetadata fault p v src l with | (r, l') => (.inr r, l')
  | .store fault (.target p) src =>
    match S.storeTarget fault src p l with | (r, l') => (.inr r, l')

/-- A sequence of calls: the results and the final state. -/
def Storage.calls {L : Type} (S : Storage L) :
    L → List StorageCall → List (Except Err (List Ev) ⊕ Except Err Unit) × L
  | l, [] => ([], l)
  | l, c :: cs =>
    match S.call l c with
    | (r, l') => match S.calls l' cs with | (rs, l'') => (r :: rs, l'')

/-- Everything around a client except its local repository: arbitrary code with state `O`. -/
structure Outside (O : Type) where
  remote : Provider O
  write : Bytes → O → Except IoKind Unit × O
  flush : O → Except IoKind Unit × O
  clock : O → Clock × O
  /-- what goes wrong in the next store of metadata, and of a target -/
  fault : O → Option Nat × O
  targetFault : O → Option Nat × O

/-- The world of a client with this local repository. -/
def Outside.world {O L : Type} (X : Outside O) (S : Storage L) : World (O × L) where
  remote :=
    { fetchMetadata := fun p v m h w => match X.remote.fetchMetadata p v m h w.1 with | (r, o) => (r, (o, w.2))
      fetchTarget := fun p d w => match X.remote.fetchTarget p d w.1 with | (r, o) => (r, (o, w.2)) }
  cache :=
    { fetchMetadata := fun p v _ _ w => (S.fetchMetadata p v w.2, w)
      fetchTarget := fun p _ w => (S.fetchTarget p w.2, w) }
  storeMetadata := fun p v b w =>
    match X.fault w.1 with
    | (fault, o) => match S.storeMetadata fault p v (cursorEvents b) w.2 with | (r, l) => (r, (o, l))
  storeTarget := fun evs p w =>
    match X.targetFault w.1 with
    | (fault, o) => match S.storeTarget fault evs p w.2 with | (r, l) => (r, (o, l))
  write := fun b w => match X.write b w.1 with | (r, o) => (r, (o, w.2))
  flush := fun w => match X.flush w.1 with | (r, o) => (r, (o, w.2))
  clock := fun w => match X.clock w.1 with | (r, o) => (r, (o, w.2))

/-- Nothing goes wrong when metadata is stored. -/
def Outside.Reliable {O : Type} (X : Outside O) : Prop := ∀ o, (X.fault o).1 = none

/-- Different keys have different files, and no file is a directory of another one. -/
structure Apart (name : MemKey → FileName) (ok : MemKey → Prop) : Prop where
  proper : ∀ k, ok k → name k ≠ []
  distinct : ∀ k k', ok k → ok k' → name k <+: name k' → k = k'

/-- The tree holds exactly these contents under the names of the given keys. -/
structure Holds (name : MemKey → FileName) (ok : MemKey → Prop) (t : Tree) (m : Contents) : Prop where
  file : ∀ k, ok k → t (name k) = (m k).map .file
  dirs : ∀ k, ok k → ¬ t.Blocked (name k)

/-- A metadata path that is accepted, without dots and without empty directory names. -/
def PlainName (p : MetadataPath) : Prop :=
  MetadataPath.new p = .ok p ∧ '.' ∉ p ∧ [] ∉ (pieces p).dropLast

/-- Target paths that are accepted, without empty names, none of which is a directory of another. -/
structure PlainTargets (ps : TargetPath → Prop) : Prop where
  accepted : ∀ p, ps p → TargetPath.new p = .ok p ∧ [] ∉ pieces p
  flat : ∀ p q, ps p → ps q → pieces p <+: pieces q → p = q

/-- Keys with such paths. -/
def PlainKey (ps : TargetPath → Prop) : MemKey → Prop
  | .metadata p _ => PlainName p
  | .target p => ps p

/-- Neither directory lies in the other. -/
def Separate (a b : FileName) : Prop := ¬ a <+: b ∧ ¬ b <+: a

/-- All local files and targets in the record have plain names. -/
def PlainLog (ps : TargetPath → Prop) (log : List LogEntry) : Prop :=
  (∀ p v m h, .fetch .cache p v m h ∈ log → PlainName p) ∧
  (∀ p v raw, .store p v raw ∈ log → PlainName p) ∧ ∀ p, .storeTarget p ∈ log → ps p

section sessions
variable {W : Type}

/-- Calls of a client, with what each of them returns. -/
def replies (E : Env) (D : Digest) (R : World W) (cfg : Config) :
    St W → List Call → List (Except Err Reply) × St W
  | s, [] => ([], s)
  | s, c :: cs =>
    match exec E D R cfg c s with
    | (r, s') => match replies E D R cfg s' cs with | (rs, s'') => (r :: rs, s'')

/-- Construction of a client and calls: what each call returns, and the metadata trusted at the end. -/
def session (E : Env) (D : Digest) (R : World W) (cfg : Config) (start : Start) (cs : List Call)
    (io : Io W) : Except Err (List (Except Err Reply) × Tuf) × Io W :=
  match construct E D R cfg start io with
  | (.error e, io') => (.error e, io')
  | (.ok t, io') => match replies E D R cfg ⟨t, io'⟩ cs with | (rs, s) => (.ok (rs, s.tuf), s.io)

end sessions

/-- The lives (see `Lives`) of a client with this local repository, whose state is `l0` at first. -/
inductive LivesWith {O L : Type} (E : Env) (D : Digest) (cfg : Config) (S : Storage L) (raw : Bytes)
    (l0 : L) : Tuf → Io (O × L) → Prop
  | start (X : Outside O) (o : O) (log : List LogEntry) (t0 t : Tuf) (io' : Io (O × L)) : X.Reliable →
      Tuf.fromTrustedRoot E raw = .ok t0 →
      (∀ n, t0.root.version < n → S.fetchMetadata "root".toList (.number n) l0 = .error .notFound) →
      construct E D (X.world S) cfg (.trustedRoot raw) ⟨(o, l0), log⟩ = (.ok t, io') →
      LivesWith E D cfg S raw l0 t io'
  | call (X : Outside O) (t t' : Tuf) (io io' : Io (O × L)) (c : Call) (r : Except Err Reply) :
      LivesWith E D cfg S raw l0 t io → X.Reliable →
      exec E D (X.world S) cfg c ⟨t, io⟩ = (r, ⟨t', io'⟩) → LivesWith E D cfg S raw l0 t' io'
  | restart (X : Outside O) (t t' : Tuf) (io io' : Io (O × L)) :
      LivesWith E D cfg S raw l0 t io → X.Reliable →
      construct E D (X.world S) cfg (.trustedRoot raw) io = (.ok t', io') →
      LivesWith E D cfg S raw l0 t' io'
  | crash (Xc X : Outside O) (t t' : Tuf) (io io' : Io (O × L)) (c : Call) (r : Except Err Reply)
      (s : St (O × L)) : LivesWith E D cfg S raw l0 t io →
      exec E D (Xc.world S) cfg c ⟨t, io⟩ = (r, s) → X.Reliable →
      construct E D (X.world S) cfg (.trustedRoot raw) s.io = (.ok t', io') →
      LivesWith E D cfg S raw l0 t' io'

/-- The metadata in a map. -/
def mapFiles {O : Type} (w : O × Contents) : Files := fun p v => w.2 (.metadata p v)

end RustTuf.Spec
