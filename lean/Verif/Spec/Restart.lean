import Verif.Spec.Client
import Verif.Spec.Readers

/-!
# Specification of restarts
When a local repository is faithful, what the lifetime of a client with crashes and restarts looks
like, and when a publisher sticks to what it has announced.
-/

namespace RustTuf.Spec

/-- The metadata files of a local repository. -/
abbrev Files := MetadataPath → MetadataVersion → Option Bytes

/-- The files after writing one. -/
def Files.put (f : Files) (p : MetadataPath) (v : MetadataVersion) (raw : Bytes) : Files :=
  fun p' v' => if p' = p ∧ v' = v then some raw else f p' v'

/-- The local repository delivers the files `file w`, and nothing but `store_metadata` changes them. -/
structure Reads {W : Type} (R : World W) (file : W → Files) : Prop where
  present : ∀ p v m h w b, file w p v = some b →
    ∃ evs, (R.cache.fetchMetadata p v m h w).1 = .ok evs ∧ delivered evs = (b, .eof)
  absent : ∀ p v m h w, file w p v = none →
    (R.cache.fetchMetadata p v m h w).1 = .error .notFound
  cacheFetch : ∀ p v m h w, file (R.cache.fetchMetadata p v m h w).2 = file w
  remoteFetch : ∀ p v m h w, file (R.remote.fetchMetadata p v m h w).2 = file w
  targetFetch : ∀ p d w, file (R.remote.fetchTarget p d w).2 = file w
  targetStore : ∀ evs p w, file (R.storeTarget evs p w).2 = file w
  write : ∀ b w, file (R.write b w).2 = file w
  flush : ∀ w, file (R.flush w).2 = file w
  clock : ∀ w, file (R.clock w).2 = file w

/-- Every write succeeds. -/
structure Faithful {W : Type} (R : World W) (file : W → Files) : Prop extends Reads R file where
  store : ∀ p v raw w, (R.storeMetadata p v raw w).1 = .ok () ∧
    file (R.storeMetadata p v raw w).2 = (file w).put p v raw

/-- A write succeeds, or it fails and changes nothing. If the process stops after some of its writes,
what is on disk is what it would be if all later writes failed. -/
structure Lossy {W : Type} (R : World W) (file : W → Files) : Prop extends Reads R file where
  store : ∀ p v raw w,
    ((R.storeMetadata p v raw w).1 = .ok () ∧
      file (R.storeMetadata p v raw w).2 = (file w).put p v raw) ∨
    ((∃ e, (R.storeMetadata p v raw w).1 = .error e) ∧
      file (R.storeMetadata p v raw w).2 = file w)

theorem Faithful.lossy {W : Type} {R : World W} {file : W → Files} (h : Faithful R file) :
    Lossy R file := { toReads := h.toReads, store := fun p v raw w => .inl (h.store p v raw w) }

/-- The world `R` for a process that is stopped after some writes of metadata: the second component
counts how many are still done. -/
def stopAfter {W : Type} (R : World W) : World (W × Nat) where
  remote :=
    { fetchMetadata := fun p v m h w =>
        match R.remote.fetchMetadata p v m h w.1 with | (r, w') => (r, (w', w.2))
      fetchTarget := fun p d w => match R.remote.fetchTarget p d w.1 with | (r, w') => (r, (w', w.2)) }
  cache :=
    { fetchMetadata := fun p v m h w =>
        match R.cache.fetchMetadata p v m h w.1 with | (r, w') => (r, (w', w.2))
      fetchTarget := fun p d w => match R.cache.fetchTarget p d w.1 with | (r, w') => (r, (w', w.2)) }
  storeMetadata := fun p v raw w =>
    match w.2 with
    | 0 => (.error .opaqueErr, w)
    | k + 1 => match R.storeMetadata p v raw w.1 with | (r, w') => (r, (w', k))
  storeTarget := fun evs p w => match R.storeTarget evs p w.1 with | (r, w') => (r, (w', w.2))
  write := fun b w => match R.write b w.1 with | (r, w') => (r, (w', w.2))
  flush := fun w => match R.flush w.1 with | (r, w') => (r, (w', w.2))
  clock := fun w => match R.clock w.1 with | (r, w') => (r, (w', w.2))

/-- The same without the limit. -/
def goOn {W : Type} (R : World W) : World (W × Nat) :=
  { stopAfter R with
    storeMetadata := fun p v raw w => match R.storeMetadata p v raw w.1 with | (r, w') => (r, (w', w.2)) }

/-- The lives of a client that always starts from the same root document and the same local
repository, with any remote repositories, clocks and callers: it is constructed when the repository
has no roots after the initial one yet, it executes calls, it is restarted, or it is stopped during
a call and restarted. -/
inductive Lives {W : Type} (E : Env) (D : Digest) (cfg : Config) (file : W → Files) (raw : Bytes) :
    Tuf → Io W → Prop
  | start (R : World W) (t0 t : Tuf) (io io' : Io W) : Faithful R file →
      Tuf.fromTrustedRoot E raw = .ok t0 →
      (∀ n, t0.root.version < n → file io.w "root".toList (.number n) = none) →
      Client.construct E D R cfg (.trustedRoot raw) io = (.ok t, io') →
      Lives E D cfg file raw t io'
  | call (R : World W) (t t' : Tuf) (io io' : Io W) (c : Client.Call) (r : Except Err Client.Reply) :
      Lives E D cfg file raw t io → Faithful R file →
      Client.exec E D R cfg c ⟨t, io⟩ = (r, ⟨t', io'⟩) → Lives E D cfg file raw t' io'
  | restart (R : World W) (t t' : Tuf) (io io' : Io W) :
      Lives E D cfg file raw t io → Faithful R file →
      Client.construct E D R cfg (.trustedRoot raw) io = (.ok t', io') →
      Lives E D cfg file raw t' io'
  | crash (Rc R : World W) (t t' : Tuf) (io io' : Io W) (c : Client.Call)
      (r : Except Err Client.Reply) (s : St W) :
      Lives E D cfg file raw t io → Lossy Rc file →
      Client.exec E D Rc cfg c ⟨t, io⟩ = (r, s) → Faithful R file →
      Client.construct E D R cfg (.trustedRoot raw) s.io = (.ok t', io') →
      Lives E D cfg file raw t' io'

/-- `raw` is a document whose signed part decodes to `m`. -/
def Decodes (E : Env) {M : Type} (decode : Bytes → Except Err M) (raw : Bytes) (m : M) : Prop :=
  ∃ sigs signed msg, E.parseSigned raw = .ok (sigs, signed) ∧ E.canonicalize signed = .ok msg ∧
    decode msg = .ok m

/-- A timestamp accepted so far announced the snapshot as `d`. -/
def Announced (E : Env) (log : List LogEntry) (d : MetadataDescription) : Prop :=
  ∃ clk raw ts, .op (.timestamp clk raw) .changed ∈ log ∧ Decodes E E.timestampFromSlice raw ts ∧
    ts.snapshot = d

/-- A snapshot accepted so far lists the targets metadata as `d`. -/
def Listed (E : Env) (log : List LogEntry) (d : MetadataDescription) : Prop :=
  ∃ clk raw sn, .op (.snapshot clk raw) .changed ∈ log ∧ Decodes E E.snapshotFromSlice raw sn ∧
    sn.metas.get? targetsName = some d

/-- Among the documents accepted so far, no two describe the same version of the snapshot or of the
targets metadata differently. -/
structure Steady (E : Env) (log : List LogEntry) : Prop where
  snapshot : ∀ d d', Announced E log d → Announced E log d' → d.version = d'.version → d = d'
  targets : ∀ d d', Listed E log d → Listed E log d' → d.version = d'.version → d = d'

/-- No trusted top-level metadata has expired at any of the readings `clk`. -/
structure Current (t : Tuf) (clk : Clock) : Prop where
  root : ∀ i, clk i < t.root.expires
  timestamp : ∀ i ts, t.timestamp = some ts → clk i < ts.expires
  snapshot : ∀ i sn, t.snapshot = some sn → clk i < sn.expires
  targets : ∀ i ta, t.targets = some ta → clk i < ta.expires

/-- So far no delegated metadata was submitted for a role that is called like a top-level role whose
file is unversioned. -/
def ProperNames (log : List LogEntry) : Prop :=
  ∀ clk parent role raw out, .op (.delegation clk parent role raw) out ∈ log →
    role ≠ "timestamp".toList ∧ role ≠ "targets".toList

end RustTuf.Spec
