import Verif.Props.FileSystem
import Verif.Props.RolePaths

/-!
# C86: examples, and what happens to names that are not plain
-/

namespace RustTuf.Props
open Spec RustTuf Client

namespace OnDisk

/-- A remote repository with fixed files, a constant clock, and a disk on which the first `n` writes of
metadata work (all, if `none`). -/
def outside (files : Map (MetadataPath × MetadataVersion) Bytes) (targets : Map TargetPath Bytes)
    (now : Time) (limit : Bool) : Outside Nat where
  remote :=
    { fetchMetadata := fun p v _ _ o =>
        (match files.get? (p, v) with | some b => .ok (Toy.stream b) | none => .error .notFound, o)
      fetchTarget := fun p _ o =>
        (match targets.get? p with | some b => .ok (Toy.stream b) | none => .error .notFound, o) }
  write := fun _ o => (.ok (), o)
  flush := fun o => (.ok (), o)
  clock := fun o => (Toy.clk now, o)
  fault := fun o => if limit then (if o = 0 then some 1 else none, o - 1) else (none, o)
  targetFault := fun o => (none, o)

theorem outside_reliable (files targets now) : (outside files targets now false).Reliable := fun _ => rfl

/-- A disk with one directory. -/
def disk : Tree := fun n => if n = [] ∨ n = ["srv".toList] then some .dir else none

/-- The repository in `/srv/tuf`. -/
def fs : FileSystem := ⟨"/srv/tuf/metadata".toList, "/srv/tuf/targets".toList, resolve []⟩

/-- The disk after it was opened. -/
def opened : Tree :=
  match FileSystem.new (resolve []) "/srv/tuf".toList disk with
  | .ok (_, t) => t
  | .error _ => disk

theorem new_ok : FileSystem.new (resolve []) "/srv/tuf".toList disk = .ok (fs, opened) := by
  have h : (match FileSystem.new (resolve []) "/srv/tuf".toList disk with
    | .ok _ => true | .error _ => false) = true := by decide +kernel
  unfold opened
  cases hn : FileSystem.new (resolve []) "/srv/tuf".toList disk with
  | error e => rw [hn] at h; cases h
  | ok x =>
    obtain ⟨f, t⟩ := x
    have hf := (build_split hn).1
    have : (⟨(buildDirs "/srv/tuf".toList (some "metadata".toList) (some "targets".toList)).1,
      (buildDirs "/srv/tuf".toList (some "metadata".toList) (some "targets".toList)).2, resolve []⟩ :
        FileSystem) = fs := by
      unfold fs
      congr 1 <;> decide +kernel
    rw [hf, this]

/-- The targets that are stored: `x` and `y/z`. -/
def stored (p : TargetPath) : Prop := p = "x".toList ∨ p = "y/z".toList

theorem stored_plain : PlainTargets stored where
  accepted := by rintro p (rfl | rfl) <;> exact ⟨by decide +kernel, by decide +kernel⟩
  flat := by
    rintro p q (rfl | rfl) (rfl | rfl) h
    · rfl
    · exact absurd h (by decide +kernel)
    · exact absurd h (by decide +kernel)
    · rfl

theorem start : Apart fs.name (PlainKey stored) ∧ Holds fs.name (PlainKey stored) opened (fun _ => none) :=
  C86_new_is_empty [] "/srv/tuf".toList disk opened fs new_ok (by
    intro n hp hne
    unfold disk
    rw [if_neg]
    rintro (rfl | rfl)
    · exact absurd hp (by decide +kernel)
    · exact absurd hp (by decide +kernel)) stored stored_plain

instance (p : MetadataPath) : Decidable (PlainName p) := by unfold PlainName; infer_instance
instance (p : TargetPath) : Decidable (stored p) := by unfold stored; infer_instance

/-- Whether an entry of a record is about plain names. -/
def plainEntry : LogEntry → Bool
  | .fetch .cache p _ _ _ => decide (PlainName p)
  | .store p _ _ => decide (PlainName p)
  | .storeTarget p => decide (stored p)
  | _ => true

theorem plain_of_all {log : List LogEntry} (h : log.all plainEntry = true) : PlainLog stored log := by
  rw [List.all_eq_true] at h
  refine ⟨fun p v m hash he => ?_, fun p v raw he => ?_, fun p he => ?_⟩
  · exact of_decide_eq_true (h _ he)
  · exact of_decide_eq_true (h _ he)
  · exact of_decide_eq_true (h _ he)

/-- A session with a remote repository that has two roots and delegated roles. -/
def calls : List Call :=
  [.update, .fetchTarget "x".toList, .fetchTargetDescription "p/y".toList,
    .fetchTargetDescription "nothing".toList]

/-- What the client sees. -/
def out : Outside Nat := outside Toy.remoteFiles [("x".toList, [9])] 100 false

/-- The files after the session. -/
def after : Io (Nat × Tree) :=
  (session Toy.env Toy.digest (out.world fs.storage) Toy.config (.trustedRoot [1]) calls ⟨(0, opened), []⟩).2

/-- C86_clients_cannot_tell applies to this session, in which root 2, the top-level metadata, delegated
metadata and a target are stored. -/
example : PlainLog stored after.log ∧
    after.w.2 (fs.name (.metadata "root".toList (.number 2))) = some (.file [2]) ∧
    after.w.2 (fs.name (.metadata "a".toList .none)) = some (.file [40]) ∧
    after.w.2 (fs.name (.target "x".toList)) = some (.file [9]) ∧
    (session Toy.env Toy.digest (out.world mapStorage) Toy.config (.trustedRoot [1]) calls
      ⟨(0, fun _ => none), []⟩).2.w.2 (.target "x".toList) = some [9] :=
  ⟨plain_of_all (by decide +kernel), by decide +kernel, by decide +kernel, by decide +kernel,
    by decide +kernel⟩

/-- A directory in the place of a file, a file in the place of a directory: stores fail, and the names
that are not plain make the difference. -/
example : (fs.storage.calls opened
      [.store none (.target "y".toList) [.data [1]], .store none (.target "y/z".toList) [.data [2]],
        .fetch (.target "y/z".toList), .fetch (.target "y".toList)]).1 =
      [.inr (.ok ()), .inr (.error .opaqueErr), .inl (.error .notFound), .inl (.ok [.data [1]])] ∧
    (mapStorage.calls (fun _ => none)
      [.store none (.target "y".toList) [.data [1]], .store none (.target "y/z".toList) [.data [2]],
        .fetch (.target "y/z".toList), .fetch (.target "y".toList)]).1 =
      [.inr (.ok ()), .inr (.ok ()), .inl (.ok [.data [2]]), .inl (.ok [.data [1]])] := by
  decide +kernel

/-- C86_file_system_is_a_map on stores that fail and stores that work. -/
example : (∀ c ∈ ([.store (some 4) (.target "y/z".toList) [.data [1]], .fetch (.target "y/z".toList),
      .store none (.target "y/z".toList) [.data [1], .err .other], .store none (.target "y/z".toList) [.data [3]],
      .fetch (.target "y/z".toList)] : List StorageCall), PlainKey stored c.key) ∧
    (fs.storage.calls opened [.store (some 4) (.target "y/z".toList) [.data [1]],
      .fetch (.target "y/z".toList), .store none (.target "y/z".toList) [.data [1], .err .other],
      .store none (.target "y/z".toList) [.data [3]], .fetch (.target "y/z".toList)]).1 =
    [.inr (.error .opaqueErr), .inl (.error .notFound), .inr (.error .opaqueErr), .inr (.ok ()),
      .inl (.ok [.data [3]])] := by
  refine ⟨?_, by decide +kernel⟩
  intro c hc
  have : c.key = .target "y/z".toList := by
    simp only [List.mem_cons, List.not_mem_nil, or_false] at hc
    rcases hc with rfl | rfl | rfl | rfl | rfl <;> rfl
  rw [this]
  exact .inr rfl

/-- The client before and after its first update. -/
def fresh : Except Err Tuf × Io (Nat × Tree) :=
  construct Toy.env Toy.digest (out.world fs.storage) Toy.config (.trustedRoot [1]) ⟨(0, opened), []⟩

theorem fresh_lives : LivesWith Toy.env Toy.digest Toy.config fs.storage [1] opened Toy.boot fresh.2 :=
  .start out 0 [] Toy.boot Toy.boot fresh.2 (outside_reliable _ _ _) (by decide +kernel)
    (fun n _ => by
      have := (fileSystem_agree fs start.1).fetchMetadata "root".toList (.number n) opened (fun _ => none)
        ⟨by decide, by decide, by decide⟩ start.2
      rw [this]
      rfl)
    (Prod.ext (by decide +kernel) rfl)

/-- A disk that is full after two writes: root 2 has been written under both names, the timestamp has
not. -/
def full : Outside Nat := outside Toy.remoteFiles [("x".toList, [9])] 100 true

/-- The update that fails. -/
def stopped : Except Err Reply × St (Nat × Tree) :=
  exec Toy.env Toy.digest (full.world fs.storage) Toy.config .update
    ⟨Toy.boot, { fresh.2 with w := (2, fresh.2.w.2) }⟩

/-- The successful one. -/
def good : Except Err Bool × St (Nat × Tree) :=
  update Toy.env Toy.digest (out.world fs.storage) Toy.config ⟨Toy.boot, fresh.2⟩

/-- Hypotheses of C86_restart_with_files. -/
example : LivesWith Toy.env Toy.digest Toy.config fs.storage [1] opened Toy.boot fresh.2 ∧
    good.1 = .ok true ∧ good.2.tuf.root.version = 2 ∧ good.2.tuf.targets ≠ none ∧
    PlainLog stored good.2.io.log ∧
    (construct Toy.env Toy.digest (out.world fs.storage) Toy.config (.trustedRoot [1]) good.2.io).1 =
      .ok good.2.tuf :=
  ⟨fresh_lives, by decide +kernel, by decide +kernel, by decide +kernel, plain_of_all (by decide +kernel),
    by decide +kernel⟩

/-- Hypotheses of C86_crash_with_files: the failed update leaves root 2 on the disk. -/
example : stopped.1 = .error .opaqueErr ∧ stopped.2.tuf.root.version = 2 ∧
    stopped.2.tuf.timestamp ≠ none ∧ PlainLog stored stopped.2.io.log ∧
    ((construct Toy.env Toy.digest (out.world fs.storage) Toy.config (.trustedRoot [1])
      stopped.2.io).1.map fun t => (t.root.version, t.timestamp)) = .ok (2, none) :=
  ⟨by decide +kernel, by decide +kernel, by decide +kernel, plain_of_all (by decide +kernel),
    by decide +kernel⟩

/-- A repository that delegates to a role called `2.root`. -/
@[reducible] def dotted : Toy.World where
  roots := [(1, Toy.root 1 1000), (2, Toy.root 2 1000)]
  timestamps := [(10, { version := 1, expires := 500, snapshot := Clash.descr 20 })]
  snapshots := [(20, ⟨1, 500, [("targets".toList, Clash.descr 30), ("2.root".toList, Clash.descr 40)]⟩)]
  targets := [(30, Toy.targets 1 500 [("x", 1)]
      (some (Toy.delegations [Toy.delegation "2.root" false ["q/"]]))),
    (40, Toy.targets 1 500 [("q/z", 5)] none)]

/-- Its files. -/
def dottedOut : Outside Nat :=
  outside (Toy.files [("root", some 2, 2), ("timestamp", none, 10), ("snapshot", none, 20),
    ("targets", none, 30), ("2.root", none, 40)]) [] 100 false

/-- A session in which `q/z` is looked up. -/
def dottedSession {L : Type} (S : Storage L) (l : L) :
    Except Err (List (Except Err Reply) × Tuf) × Io (Nat × L) :=
  session dotted.env Clash.digest (dottedOut.world S) Toy.config (.trustedRoot [1])
    [.update, .fetchTargetDescription "q/z".toList] ⟨(0, l), []⟩

end OnDisk

/-- **C86 needs plain names.** In a file system repository, unlike in a map, looking up a target that is
delegated to a role called `2.root` overwrites the stored root of version 2. The client that trusted
root 2 then starts with root 1 again. -/
theorem C86_role_overwrites_root :
    ∃ (E : Env) (D : Digest) (cfg : Config) (X : Outside Nat) (f : FileSystem) (t0 : Tree) (raw : Bytes)
      (cs : List Call) (replies : List (Except Err Reply)) (t t' : Tuf), Decoders E ∧ X.Reliable ∧
      FileSystem.new (resolve []) "/srv/tuf".toList OnDisk.disk = .ok (f, t0) ∧
      let a := session E D (X.world f.storage) cfg (.trustedRoot raw) cs ⟨(0, t0), []⟩
      let b := session E D (X.world mapStorage) cfg (.trustedRoot raw) cs ⟨(0, fun _ => none), []⟩
      a.1 = .ok (replies, t) ∧ b.1 = .ok (replies, t) ∧ t.root.version = 2 ∧
      (construct E D (X.world mapStorage) cfg (.trustedRoot raw) b.2).1 =
        .ok { t with delegations := [] } ∧
      (construct E D (X.world f.storage) cfg (.trustedRoot raw) a.2).1 = .ok t' ∧
      t'.root.version = 1 ∧ t'.timestamp = none := by
  refine ⟨OnDisk.dotted.env, Clash.digest, Toy.config, OnDisk.dottedOut, OnDisk.fs, OnDisk.opened, [1],
    [.update, .fetchTargetDescription "q/z".toList],
    [.ok (.updated true), .error .notFound],
    ⟨Toy.root 2 1000, some ⟨1, 500, [("targets".toList, Clash.descr 30), ("2.root".toList, Clash.descr 40)]⟩,
      some (Toy.targets 1 500 [("x", 1)]
        (some (Toy.delegations [Toy.delegation "2.root" false ["q/"]]))),
      some { version := 1, expires := 500, snapshot := Clash.descr 20 }, [("2.root".toList, Toy.targets 1 500 [("q/z", 5)] none)]⟩,
    ⟨Toy.root 1 1000, none, none, none, []⟩,
    OnDisk.dotted.decoders (by decide) (by decide) (by decide) (by decide),
    OnDisk.outside_reliable _ _ _, OnDisk.new_ok, ?_⟩
  exact ⟨by decide +kernel, by decide +kernel, by decide +kernel, by decide +kernel, by decide +kernel,
    by decide +kernel, by decide +kernel⟩

end RustTuf.Props
