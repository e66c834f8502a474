import Verif.Props.Client

/-!
# C58: documents stay under the name of their own role
-/

namespace RustTuf.Props
open Client Spec RustTuf

variable {W : Type}

/-- **C58 (partial).** Fetching or storing metadata of a top-level role under the path of another
top-level role is refused without contacting the repository; and so is any other path for root,
snapshot and timestamp. *Missing*: targets metadata under the path of the timestamp role, see
`C58_timestamp_overwritten`. -/
theorem C58_other_roles_refused_partial (D : Digest) (R : World W) (src : Source) (role : Role)
    (path : MetadataPath) (ver : MetadataVersion) (max : Option Nat) (hash : HashData) (raw : Bytes)
    (hother : path ≠ role.name) (hpath : role = .targets → ∃ r : Role, path = r.name)
    (hexcept : ¬ (role = .targets ∧ path = Role.timestamp.name)) (io : Io W) :
    fetchMetadata D R src role path ver max hash io = (.error .illegalArgument, io) ∧
    storeMetadata R role path ver raw io = (.error .illegalArgument, io) := by
  have hc : checkRole role path = .error .illegalArgument := by
    unfold checkRole
    have : role.fuzzyMatchesPath path = false := by
      cases role with
      | root => exact decide_eq_false hother
      | snapshot => exact decide_eq_false hother
      | timestamp => exact decide_eq_false hother
      | targets =>
        obtain ⟨r, rfl⟩ := hpath rfl
        cases r with
        | root => decide
        | snapshot => decide
        | targets => exact absurd rfl hother
        | timestamp => exact absurd ⟨rfl, rfl⟩ hexcept
    simp [this]
  constructor
  · simp only [fetchMetadata, hc]; rfl
  · simp only [storeMetadata, hc]; rfl

/-- **C58**, the other direction: the path of the role itself is not refused, nor is any path that
names no top-level role refused for targets metadata: the document reaches the repository. -/
theorem C58_own_path_reaches_repository (R : World W) (role : Role) (path : MetadataPath)
    (ver : MetadataVersion) (raw : Bytes)
    (h : path = role.name ∨ role = .targets ∧ ∀ r : Role, path ≠ r.name) (io : Io W) :
    storeMetadata R role path ver raw io =
      ((R.storeMetadata path ver raw io.w).1,
        ⟨(R.storeMetadata path ver raw io.w).2, io.log ++ [.store path ver raw]⟩) := by
  have hc : checkRole role path = .ok () := by
    unfold checkRole
    have : role.fuzzyMatchesPath path = true := by
      rcases h with rfl | ⟨rfl, h⟩
      · cases role <;> decide
      · have h1 := h .root
        have h2 := h .snapshot
        have h3 := h .targets
        have hm : path ∉ ["root".toList, "snapshot".toList, "targets".toList] := by
          simp only [List.mem_cons, List.not_mem_nil, or_false, not_or]
          exact ⟨h1, h2, h3⟩
        simp only [Role.fuzzyMatchesPath, Bool.or_eq_true, Bool.not_eq_true', List.contains_eq_mem,
          decide_eq_false_iff_not]
        exact Or.inr hm
    simp [this]
  simp only [storeMetadata, hc]
  rfl

namespace Clash

/-- A description of the document `i`. -/
def descr (i : UInt8) : MetadataDescription := { version := 1, length := 1, hashes := [(.sha256, [i])] }

/-- Its root. -/
def root : RootMetadata := { Toy.root 1 1000 with consistentSnapshot := true }

/-- A repository with consistent snapshots whose targets delegate to a role called `timestamp`. -/
@[reducible] def world : Toy.World where
  roots := [(1, root)]
  timestamps := [(10, { version := 1, expires := 500, snapshot := descr 20 })]
  snapshots := [(20, ⟨1, 500, [("targets".toList, descr 30), ("timestamp".toList, descr 40)]⟩)]
  targets := [(30, Toy.targets 1 500 [("x", 1)]
      (some (Toy.delegations [Toy.delegation "timestamp" false ["q/"]]))),
    (40, Toy.targets 1 500 [("q/z", 5)] none)]

/-- Every document is its own digest. -/
def digest : Digest := fun _ b => b

/-- The files of the repository. -/
def repo : RustTuf.World Toy.Disk :=
  Toy.repos (Toy.files [("timestamp", none, 10), ("snapshot", some 1, 20), ("targets", some 1, 30),
    ("timestamp", some 1, 40)]) [] 100

theorem decoders : Decoders world.env :=
  world.decoders (by decide) (by decide) (by decide) (by decide)

/-- The client after `update` and after then asking for `q/z`. -/
def updated : St Toy.Disk :=
  execAll world.env digest repo Toy.config
    ⟨⟨Clash.root, none, none, none, []⟩, ⟨Toy.Disk.empty, []⟩⟩
    [.update]

end Clash

/-- **C58 is false for the code.** A delegated role may be called `timestamp`. Looking up a target
delegated to it replaces the cached timestamp by the metadata of the delegated role, although the
trusted timestamp does not change. A client started from that cache then cannot load timestamp,
snapshot and targets any more, although it could before. -/
theorem C58_timestamp_overwritten :
    ∃ (E : Env) (D : Digest) (R : World Toy.Disk) (s : St Toy.Disk) (path : TargetPath)
      (rootRaw tsRaw delegRaw : Bytes) (ts : TimestampMetadata) (t : Tuf), Decoders E ∧
      let key := (MetadataPath.fromRole .timestamp, MetadataVersion.none)
      let s' := (exec E D R Toy.config (.fetchTargetDescription path) s).2
      -- before
      s.tuf.timestamp = some ts ∧ s.io.w.metas.get? key = some tsRaw ∧
      (withTrustedRoot E D R Toy.config rootRaw s.io).1 = .ok s.tuf ∧
      -- after
      s'.tuf.timestamp = some ts ∧ s'.io.w.metas.get? key = some delegRaw ∧
      E.timestampFromSlice delegRaw = .error .encoding ∧
      (withTrustedRoot E D R Toy.config rootRaw s'.io).1 = .ok t ∧
      t.timestamp = none ∧ t.snapshot = none ∧ t.targets = none :=
  ⟨Clash.world.env, Clash.digest, Clash.repo, Clash.updated, "q/z".toList, [1], [10], [40],
    { version := 1, expires := 500, snapshot := Clash.descr 20 },
    ⟨Clash.root, none, none, none, []⟩, Clash.decoders,
    by decide +kernel⟩

/-- Paths as the hypotheses of the theorems want them. -/
example : (∃ r : Role, "root".toList = r.name) ∧ "root".toList ≠ Role.targets.name ∧
    (∀ r : Role, "x".toList ≠ r.name) :=
  ⟨⟨.root, rfl⟩, by decide, by intro r; cases r <;> decide⟩

end RustTuf.Props
