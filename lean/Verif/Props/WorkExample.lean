import Verif.Props.Work
import Verif.Props.TufRules
import Verif.Spec.TufWorld
import Verif.Props.ClientUpdate

/-!
# C95: roles that delegate to each other
-/

namespace RustTuf.Props
open Client Spec RustTuf Tuf

namespace Mutual

/-- Names of roles: `r`, `rr`, `rrr`, … -/
def name (i : Nat) : MetadataPath := List.replicate (i + 1) 'r'

/-- The one piece of targets metadata that all roles share: it delegates the directory `p/` to all of
the `n` roles. -/
def shared (n : Nat) : TargetsMetadata where
  version := 1
  expires := 900
  targets := []
  delegations := some { keys := [("d".toList, Toy.key "d".toList 8)]
                        roles := (List.range n).map fun i =>
                          ⟨name i, false, 1, ["d".toList], ["p/".toList]⟩ }

/-- The snapshot lists all of them. -/
def snap (n : Nat) : SnapshotMetadata where
  version := 1
  expires := 900
  metas := ("targets".toList, Toy.descr 1) :: (List.range n).map fun i => (name i, Toy.descr 1)

/-- The documents. -/
def world (n : Nat) : Toy.World where
  roots := [(1, Toy.root 1 1000)]
  timestamps := [(10, Toy.timestamp 1 900 1)]
  snapshots := [(20, snap n)]
  targets := [(30, shared n)]

/-- The remote repository has a file for each role. -/
def files (n : Nat) : Map (MetadataPath × MetadataVersion) Bytes :=
  (List.range n).map fun i => ((name i, .none), [30])

/-- The repositories. -/
def repos (n : Nat) : RustTuf.World Toy.Disk := Toy.repos (files n) [] 100

/-- Up to date, but no delegated metadata is loaded. -/
def state (n : Nat) : Tuf :=
  ⟨Toy.root 1 1000, some (snap n), some (shared n), some (Toy.timestamp 1 900 1), []⟩

theorem verify_targets (n : Nat) : verifySignatures (world n).env (world n).env.targetsFromSlice [30] 1
    [Toy.key "d".toList 8] = .ok (shared n) := by
  rfl

theorem verify_root (n : Nat) : verifySignatures (world n).env (world n).env.timestampFromSlice [10] 1
    [Toy.key "k".toList 7] = .ok (Toy.timestamp 1 900 1) := rfl
theorem verify_snapshot (n : Nat) : verifySignatures (world n).env (world n).env.snapshotFromSlice [20] 1
    [Toy.key "k".toList 7] = .ok (snap n) := rfl
theorem verify_top (n : Nat) : verifySignatures (world n).env (world n).env.targetsFromSlice [30] 1
    [Toy.key "k".toList 7] = .ok (shared n) := rfl
theorem boot (n : Nat) : Tuf.fromTrustedRoot (world n).env [1] = .ok Toy.boot := by
  with_unfolding_all rfl

theorem reachable (n : Nat) : Reachable (world n).env (state n) := by
  have h1 : step (world n).env Toy.boot (.timestamp (Toy.clk 100) [10]) =
      (.changed, { Toy.boot with timestamp := some (Toy.timestamp 1 900 1) }) := by
    have : updateTimestamp (world n).env (Toy.clk 100) Toy.boot [10] =
        (.ok (some (Toy.timestamp 1 900 1)), { Toy.boot with timestamp := some (Toy.timestamp 1 900 1) }) := by
      rw [updateTimestamp]
      rfl
    simp only [step, this]
  have h2 : step (world n).env { Toy.boot with timestamp := some (Toy.timestamp 1 900 1) }
      (.snapshot (Toy.clk 100) [20]) = (.changed, { Toy.boot with
        timestamp := some (Toy.timestamp 1 900 1), snapshot := some (snap n) }) := by
    have : updateSnapshot (world n).env (Toy.clk 100)
        { Toy.boot with timestamp := some (Toy.timestamp 1 900 1) } [20] = (.ok true, { Toy.boot with
        timestamp := some (Toy.timestamp 1 900 1), snapshot := some (snap n) }) := by
      have purge : ({ Toy.boot with timestamp := some (Toy.timestamp 1 900 1), snapshot := some (snap n) } :
          Tuf).purgeDelegations = { Toy.boot with
            timestamp := some (Toy.timestamp 1 900 1), snapshot := some (snap n) } := by
        simp [purgeDelegations, Toy.boot]
      rw [← purge, updateSnapshot]
      rfl
    simp only [step, this]
  have h3 : step (world n).env { Toy.boot with
        timestamp := some (Toy.timestamp 1 900 1), snapshot := some (snap n) }
      (.targets (Toy.clk 100) [30]) = (.changed, state n) := by
    have : updateTargets (world n).env (Toy.clk 100) { Toy.boot with
        timestamp := some (Toy.timestamp 1 900 1), snapshot := some (snap n) } [30] = (.ok true, state n) := by
      rw [updateTargets]
      rfl
    simp only [step, this]
  have h0 : Reachable (world n).env Toy.boot := ⟨_, [], .inr ⟨[1], boot n⟩, rfl⟩
  exact ((h0.step' h1).step' h2).step' h3

theorem name_inj {i j : Nat} (h : name i = name j) : i = j := by
  have := congrArg List.length h
  simpa [name] using this

theorem name_ne (i : Nat) (s : Str) (c : Char) (hc : c ∈ s) (hr : c ≠ 'r') : name i ≠ s := by
  rintro rfl
  exact hr (List.eq_of_mem_replicate hc)

theorem checkRole_name (i : Nat) : checkRole .targets (name i) = .ok () := by
  have h1 := name_ne i "root".toList 'o' (by decide) (by decide)
  have h2 := name_ne i "snapshot".toList 's' (by decide) (by decide)
  have h3 := name_ne i "targets".toList 't' (by decide) (by decide)
  have : Role.targets.fuzzyMatchesPath (name i) = true := by
    unfold Role.fuzzyMatchesPath
    rw [Bool.or_eq_true]
    right
    rw [Bool.not_eq_true', ← Bool.not_eq_true, List.contains_iff_mem]
    intro hm
    simp only [List.mem_cons, List.not_mem_nil, or_false] at hm
    rcases hm with h | h | h
    · exact h1 h
    · exact h2 h
    · exact h3 h
  simp only [checkRole, this]
  rfl

theorem get?_map_same {K V : Type} [DecidableEq K] (v : V) (l : List K) (k : K) (h : k ∈ l) :
    Map.get? (l.map fun k => (k, v)) k = some v := by
  induction l with
  | nil => cases h
  | cons a l ih =>
    by_cases e : a = k
    · simp [Map.get?, e]
    · have : k ∈ l := by simpa [Ne.symm e] using h
      simpa [Map.get?, e] using ih this

theorem snap_get (n i : Nat) (h : i < n) : (snap n).metas.get? (name i) = some (Toy.descr 1) := by
  have h3 := name_ne i "targets".toList 't' (by decide) (by decide)
  have := get?_map_same (Toy.descr 1) ((List.range n).map name) (name i)
    (List.mem_map.2 ⟨i, List.mem_range.2 h, rfl⟩)
  rw [List.map_map] at this
  unfold snap
  show (if "targets".toList = name i then some (Toy.descr 1) else _) = _
  rw [if_neg (Ne.symm h3)]
  exact this

theorem files_get (n i : Nat) (h : i < n) : (files n).get? (name i, .none) = some [30] := by
  have := get?_map_same ([30] : Bytes) ((List.range n).map fun i => (name i, MetadataVersion.none))
    (name i, .none) (List.mem_map.2 ⟨i, List.mem_range.2 h, rfl⟩)
  rw [List.map_map] at this
  exact this

/-- What stays true during the search. -/
structure Inv (n : Nat) (s : St Toy.Disk) : Prop where
  root : s.tuf.root = Toy.root 1 1000
  snapshot : s.tuf.snapshot = some (snap n)
  targets : s.tuf.targets = some (shared n)
  loaded : ∀ i < n, s.tuf.delegations.get? (name i) = none ∨ s.tuf.delegations.get? (name i) = some (shared n)
  stored : ∀ i < n, s.io.w.metas.get? (name i, .none) = none ∨ s.io.w.metas.get? (name i, .none) = some [30]

/-- The role is the top-level role or a loaded one. -/
def Here (n : Nat) (r : MetadataPath) (s : St Toy.Disk) : Prop :=
  r = "targets".toList ∨ r ≠ "targets".toList ∧ s.tuf.delegations.get? r = some (shared n)

theorem find (n i : Nat) (hi : i < n) (t : Tuf) (r : MetadataPath) (ht : t.targets = some (shared n))
    (hr : r = "targets".toList ∨ r ≠ "targets".toList ∧ t.delegations.get? r = some (shared n)) :
    t.findDelegation r (name i) = some (1, [Toy.key "d".toList 8]) := by
  have h1 : (if r = MetadataPath.fromRole .targets then t.targets else t.delegations.get? r) =
      some (shared n) := by
    rcases hr with rfl | ⟨h, hr⟩
    · exact ht
    · rw [if_neg (show ¬ r = MetadataPath.fromRole .targets from h), hr]
  have h2 : ∃ d ∈ (List.range n).map fun i => (⟨name i, false, 1, ["d".toList], ["p/".toList]⟩ : Delegation),
      d.role = name i := ⟨_, List.mem_map.2 ⟨i, List.mem_range.2 hi, rfl⟩, rfl⟩
  unfold findDelegation
  dsimp only
  rw [h1]
  dsimp only [shared]
  cases hf : ((List.range n).map fun i =>
      (⟨name i, false, 1, ["d".toList], ["p/".toList]⟩ : Delegation)).find? (fun d => decide (d.role = name i)) with
  | none =>
    obtain ⟨d, hd, e⟩ := h2
    have := List.find?_eq_none.1 hf d hd
    exact absurd e (by simpa using this)
  | some d =>
    obtain ⟨j, _, rfl⟩ := List.mem_map.1 (List.mem_of_find?_eq_some hf)
    rfl

/-- Loading a role succeeds. -/
theorem load (n i : Nat) (hi : i < n) (s : St Toy.Disk) (r : MetadataPath) (h : Inv n s) (hr : Here n r s) :
    ∃ o t', updateTuf (world n).env (.delegation (Toy.clk 100) r (name i) [30]) s =
      (.ok o, ⟨t', { s.io with log := s.io.log ++ [.op (.delegation (Toy.clk 100) r (name i) [30]) o] }⟩) ∧
      t'.root = s.tuf.root ∧ t'.snapshot = s.tuf.snapshot ∧ t'.targets = s.tuf.targets ∧
      t'.delegations.get? (name i) = some (shared n) ∧
      ∀ p, s.tuf.delegations.get? p = some (shared n) ∨ p ≠ name i →
        t'.delegations.get? p = s.tuf.delegations.get? p := by
  have e1 : s.tuf.rootUnexpired (Toy.clk 100) = .ok s.tuf.root := by
    unfold rootUnexpired; rw [h.root]; rfl
  have e2 : s.tuf.snapshotUnexpired (Toy.clk 100) = .ok (snap n) := by
    unfold snapshotUnexpired; rw [h.snapshot]; rfl
  have e3 : s.tuf.targetsUnexpired (Toy.clk 100) = .ok (shared n) := by
    unfold targetsUnexpired; rw [h.targets]; rfl
  have e4 := find n i hi s.tuf r h.targets hr
  have e5 := snap_get n i hi
  have e6 := verify_targets n
  rcases h.loaded i hi with hl | hl
  · have : updateDelegation (world n).env (Toy.clk 100) s.tuf r (name i) [30] =
        (.ok true, { s.tuf with delegations := s.tuf.delegations.insert (name i) (shared n) }) := by
      have e7 : s.tuf.delegationVersion (name i) = 0 := by unfold delegationVersion; rw [hl]; rfl
      unfold updateDelegation
      simp only [e1, e2, e3, e4, e5, e6, e7]
      rfl
    refine ⟨.changed, { s.tuf with delegations := s.tuf.delegations.insert (name i) (shared n) }, by simp only [updateTuf, step, this], rfl, rfl, rfl, by simp [Map.get?_insert], ?_⟩
    rintro p (hp | hp)
    · have : p ≠ name i := by rintro rfl; rw [hl] at hp; cases hp
      simp [Map.get?_insert, this]
    · simp [Map.get?_insert, hp]
  · have : updateDelegation (world n).env (Toy.clk 100) s.tuf r (name i) [30] = (.ok false, s.tuf) := by
      have e7 : s.tuf.delegationVersion (name i) = 1 := by unfold delegationVersion; rw [hl]; rfl
      unfold updateDelegation
      simp only [e1, e2, e3, e4, e5, e6, e7]
      rfl
    exact ⟨.unchanged, s.tuf, by simp only [updateTuf, step, this], rfl, rfl, rfl, hl, fun _ _ => rfl⟩

/-- The request for a role that a repository answers. -/
theorem fetch_ok (n i : Nat) (src : Source) (io : Io Toy.Disk)
    (h : ((repos n).provider src).fetchMetadata (name i) .none (some 10) (some (.sha256, [1, 2, 3])) io.w =
      (.ok [.data [30]], io.w)) :
    fetchMetadata Toy.digest (repos n) src .targets (name i) .none (some 10) (some (.sha256, [1, 2, 3])) io =
      (.ok [30], { io with log := io.log ++ [.fetch src (name i) .none (some 10) (some (.sha256, [1, 2, 3]))] ++
        [.got src (name i) [30]] }) := by
  have hr : readChecked Toy.digest 10 (some (.sha256, [1, 2, 3])) [.data [30]] = .ok [30] := by decide
  simp only [fetchMetadata, bind, M.bind, M.ofExcept, checkRole_name, Io.note, Io.call, h,
    Option.getD_some, hr, pure, M.pure]

/-- The request for a role that a repository does not have. -/
theorem fetch_missing (n i : Nat) (src : Source) (io : Io Toy.Disk)
    (h : ((repos n).provider src).fetchMetadata (name i) .none (some 10) (some (.sha256, [1, 2, 3])) io.w =
      (.error .notFound, io.w)) :
    fetchMetadata Toy.digest (repos n) src .targets (name i) .none (some 10) (some (.sha256, [1, 2, 3])) io =
      (.error .notFound, { io with log := io.log ++
        [.fetch src (name i) .none (some 10) (some (.sha256, [1, 2, 3]))] }) := by
  simp only [fetchMetadata, bind, M.bind, M.ofExcept, checkRole_name, Io.note, Io.call, h]

theorem store_ok (n i : Nat) (io : Io Toy.Disk) :
    storeMetadata (repos n) .targets (name i) .none [30] io =
      (.ok (), { io with w := { io.w with metas := io.w.metas.insert (name i, .none) [30] }
                         log := io.log ++ [.store (name i) .none [30]] }) := by
  simp only [storeMetadata, bind, M.bind, M.ofExcept, checkRole_name, Io.note, Io.call]
  rfl

/-- During the search, after at least `c` requests, with these roles loaded. -/
def At (n : Nat) (rs : List MetadataPath) (c : Nat) (s : St Toy.Disk) : Prop :=
  Inv n s ∧ (∀ r ∈ rs, Here n r s) ∧ c ≤ requestCount s.io.log

theorem At.log {n : Nat} {rs : List MetadataPath} {c : Nat} {s : St Toy.Disk} (h : At n rs c s)
    (es : List LogEntry) : At n rs (c + requestCount es) { s with io := { s.io with log := s.io.log ++ es } } := by
  obtain ⟨h1, h2, h3⟩ := h
  refine ⟨⟨h1.root, h1.snapshot, h1.targets, h1.loaded, h1.stored⟩, h2, ?_⟩
  show _ ≤ requestCount (s.io.log ++ es)
  rw [requestCount_append]
  omega

/-- The request to the local repository succeeds or fails. -/
theorem fetch_cache (n i : Nat) (hi : i < n) (rs : List MetadataPath) (c : Nat) :
    Tri (At n rs c) (M.attempt (lift (fetchMetadata Toy.digest (repos n) .cache .targets (name i) .none
        (some 10) (some (.sha256, [1, 2, 3])))))
      (fun r s => (r = .ok [30] ∨ r = .error .notFound) ∧ At n rs (c + 1) s) (fun _ _ => False) := by
  intro s hs
  rcases hs.1.stored i hi with h | h
  · have h1 : ((repos n).provider .cache).fetchMetadata (name i) .none (some 10)
        (some (.sha256, [1, 2, 3])) s.io.w = (.error .notFound, s.io.w) := by
      simp only [repos, World.provider, Toy.repos, h]
    simp only [M.attempt, lift, fetch_missing n i .cache s.io h1]
    exact ⟨.inr trivial, hs.log [.fetch .cache (name i) .none (some 10) (some (.sha256, [1, 2, 3]))]⟩
  · have h1 : ((repos n).provider .cache).fetchMetadata (name i) .none (some 10)
        (some (.sha256, [1, 2, 3])) s.io.w = (.ok [.data [30]], s.io.w) := by
      simp only [repos, World.provider, Toy.repos, h]
      rfl
    simp only [M.attempt, lift, fetch_ok n i .cache _ h1]
    refine ⟨.inl trivial, ?_⟩
    have := hs.log [.fetch .cache (name i) .none (some 10) (some (.sha256, [1, 2, 3])), .got .cache (name i) [30]]
    simp only [List.append_assoc, List.cons_append, List.nil_append]
    exact this

/-- The request to the remote repository succeeds. -/
theorem fetch_remote (n i : Nat) (hi : i < n) (rs : List MetadataPath) (c : Nat) :
    Tri (At n rs c) (M.attempt (lift (fetchMetadata Toy.digest (repos n) .remote .targets (name i) .none
        (some 10) (some (.sha256, [1, 2, 3])))))
      (fun r s => r = .ok [30] ∧ At n rs c s) (fun _ _ => False) := by
  intro s hs
  have h1 : ((repos n).provider .remote).fetchMetadata (name i) .none (some 10)
      (some (.sha256, [1, 2, 3])) s.io.w = (.ok [.data [30]], s.io.w) := by
    simp only [repos, World.provider, Toy.repos, files_get n i hi]
    rfl
  simp only [M.attempt, lift, fetch_ok n i .remote _ h1]
  refine ⟨trivial, ?_⟩
  have := hs.log [.fetch .remote (name i) .none (some 10) (some (.sha256, [1, 2, 3])), .got .remote (name i) [30]]
  simp only [List.append_assoc, List.cons_append, List.nil_append]
  exact ⟨this.1, this.2.1, Nat.le_trans (Nat.le_add_right _ _) this.2.2⟩

theorem load_role (n i : Nat) (hi : i < n) (rs : List MetadataPath) (r : MetadataPath) (hr : r ∈ rs) (c : Nat) :
    Tri (At n rs c) (updateTuf (world n).env (.delegation (Toy.clk 100) r (name i) [30]))
      (fun _ => At n (name i :: rs) c) (fun _ _ => False) := by
  intro s hs
  obtain ⟨o, t', e, h1, h2, h3, h4, h5⟩ := load n i hi s r hs.1 (hs.2.1 r hr)
  rw [e]
  obtain ⟨k1, k2, k3⟩ := hs
  refine ⟨⟨by rw [← k1.root]; exact h1, by rw [← k1.snapshot]; exact h2, by rw [← k1.targets]; exact h3,
    ?_, k1.stored⟩, ?_, ?_⟩
  · intro j hj
    by_cases e : name j = name i
    · right; rw [e]; exact h4
    · show t'.delegations.get? _ = _ ∨ t'.delegations.get? _ = _
      rw [h5 _ (.inr e)]
      exact k1.loaded j hj
  · intro p hp
    rcases List.mem_cons.1 hp with rfl | hp
    · exact .inr ⟨name_ne i _ 't' (by decide) (by decide), h4⟩
    · rcases k2 p hp with h | ⟨h, h'⟩
      · exact .inl h
      · exact .inr ⟨h, by show t'.delegations.get? p = _; rw [h5 p (.inl h'), h']⟩
  · show c ≤ requestCount (s.io.log ++ _)
    rw [requestCount_append]
    omega

theorem store_role (n i : Nat) (rs : List MetadataPath) (c : Nat) :
    Tri (At n rs c) (lift (storeMetadata (repos n) .targets (name i) .none [30]))
      (fun _ => At n rs c) (fun _ _ => False) := by
  intro s hs
  simp only [lift, store_ok]
  obtain ⟨k1, k2, k3⟩ := hs
  refine ⟨⟨k1.root, k1.snapshot, k1.targets, k1.loaded, ?_⟩, k2, ?_⟩
  · intro j hj
    show Map.get? (Map.insert _ _ _) _ = _ ∨ Map.get? (Map.insert _ _ _) _ = _
    rw [Map.get?_insert]
    split
    · exact .inr rfl
    · exact k1.stored j hj
  · show c ≤ requestCount (s.io.log ++ _)
    rw [requestCount_append]
    omega

/-- The loop over delegations visits all of them. -/
theorem loop (n k : Nat) (rec : Bool → TargetsMetadata → MetadataPath → M (St Toy.Disk) Found)
    (hrec : ∀ i rs c, i < n → name i ∈ rs → Tri (At n rs c) (rec false (shared n) (name i))
      (fun x s => x = (false, .error .notFound) ∧ At n rs (c + k) s) (fun _ _ => False))
    (rs : List MetadataPath) (r : MetadataPath) (hr : r ∈ rs) (l : List Nat) (hl : ∀ i ∈ l, i < n) : ∀ c,
    Tri (At n rs c) (Client.lookupLoop (world n).env Toy.digest (repos n) rec false "p/x".toList (snap n) r
        (l.map fun i => (⟨name i, false, 1, ["d".toList], ["p/".toList]⟩ : Delegation)))
      (fun x s => x = (false, .error .notFound) ∧ At n rs (c + l.length * (1 + k)) s) (fun _ _ => False) := by
  induction l with
  | nil => intro c; exact Tri.ret fun s hs => ⟨rfl, by simpa using hs⟩
  | cons i l ih =>
    intro c
    have hi := hl i (by simp)
    replace ih := ih fun j hj => hl j (by simp [hj])
    have len : (i :: l).length * (1 + k) = (1 + k) + l.length * (1 + k) := by
      simp only [List.length_cons]; ring
    rw [len, List.map_cons]
    unfold Client.lookupLoop
    rw [if_neg (by show ¬ (!(List.any ["p/".toList] fun p => isChild "p/x".toList p)) = true; decide)]
    simp only [snap_get n i hi]
    have hp : hashPreference (Toy.descr 1).hashes = .ok (.sha256, [1, 2, 3]) := by decide
    simp only [hp]
    refine Tri.bind (Q := fun (t : Tuf) (s : St Toy.Disk) => t.root = Toy.root 1 1000 ∧ At n rs c s)
      (fun s hs => ⟨hs.1.root, hs⟩) fun t => Tri.assume fun ht => ?_
    have hv : versionFor t.root.consistentSnapshot (Toy.descr 1).version = .none := by rw [ht]; rfl
    rw [hv]
    refine Tri.bind (fetch_cache n i hi rs c) fun r1 => Tri.assume fun hr1 => ?_
    refine Tri.bind (Q := fun f s => f = .ok [30] ∧ At n rs (c + 1) s) ?_ fun f => Tri.assume fun hf => ?_
    · rcases hr1 with rfl | rfl
      · exact Tri.ret fun s hs => ⟨rfl, hs⟩
      · exact fetch_remote n i hi rs (c + 1)
    subst hf
    dsimp only
    refine Tri.bind (Q := fun clk s => clk = Toy.clk 100 ∧ At n rs (c + 1) s) (fun s hs => ⟨rfl, hs⟩)
      fun clk => Tri.assume fun hclk => ?_
    subst hclk
    refine Tri.bind (Q := fun o s => (∃ x, o = .ok x) ∧ At n (name i :: rs) (c + 1) s)
      ((Tri.attempt (load_role n i hi rs r hr (c + 1))).post fun o s h => ?_)
      fun o => Tri.assume fun ho => ?_
    · cases o with
      | ok x => exact ⟨⟨x, rfl⟩, h⟩
      | error e => exact h.elim
    obtain ⟨x, rfl⟩ := ho
    dsimp only
    refine Tri.bind (Q := fun _ => At n (name i :: rs) (c + 1))
      ((Tri.attempt (store_role n i _ (c + 1))).post fun o s h => by
        cases o with
        | ok x => exact h
        | error e => exact h.elim) fun _ => ?_
    refine Tri.bind (Q := fun (t : Tuf) (s : St Toy.Disk) => t.delegations.get? (name i) = some (shared n) ∧
      At n (name i :: rs) (c + 1) s) (fun s hs => ⟨?_, hs⟩) fun t => Tri.assume fun ht => ?_
    · rcases hs.2.1 (name i) (by simp) with h | h
      · exact absurd h (name_ne i _ 't' (by decide) (by decide))
      · exact h.2
    simp only [ht]
    refine Tri.bind (hrec i (name i :: rs) (c + 1) hi (by simp)) fun x => Tri.assume fun hx => ?_
    subst hx
    dsimp only
    refine (ih (c + 1 + k)).conseq
      (fun s hs => ⟨hs.1, fun p hp => hs.2.1 p (by simp [hp]), hs.2.2⟩) ?_ (fun _ _ h => h)
    rintro x s ⟨h1, h2⟩
    exact ⟨h1, by rw [show c + (1 + k + l.length * (1 + k)) = c + 1 + k + l.length * (1 + k) by ring]; exact h2⟩

/-- The search for the target. -/
theorem search (n rem : Nat) : ∀ rs r c, r ∈ rs → Tri (At n rs c)
    (Client.lookupIn (world n).env Toy.digest (repos n) "p/x".toList (snap n) rem false (shared n) r)
    (fun x s => x = (false, .error .notFound) ∧ At n rs (c + chains n rem) s) (fun _ _ => False) := by
  induction rem with
  | zero => intro rs r c _; exact Tri.ret fun s hs => ⟨rfl, hs⟩
  | succ rem ih =>
    intro rs r c hr
    have := loop n (chains n rem) (Client.lookupIn (world n).env Toy.digest (repos n) "p/x".toList (snap n) rem)
      (fun i rs c _ h => ih rs (name i) c h) rs r hr (List.range n) (fun i h => List.mem_range.1 h) c
    rw [List.length_range, ← chains_succ] at this
    exact this

end Mutual

/-- **C95: the bound is exponential, and reached.** For every number `n` of roles and every maximal depth,
a call that looks for a target can make `n + n ^ 2 + … + n ^ (depth + 1)` requests, although
there is one single document of targets metadata, and it delegates to `n` roles: roles that were visited
are visited again. The repositories are maps and the client's state is reached by updates. -/
theorem C95_search_is_exponential (n depth : Nat) :
    ∃ (E : Env) (D : Digest) (R : World Toy.Disk) (cfg : Config) (s : St Toy.Disk) (path : TargetPath)
      (ta : TargetsMetadata) (ds : Delegations) (l : List LogEntry),
      Decoders E ∧ Reachable E s.tuf ∧ cfg.maxDelegationDepth = depth ∧
      s.tuf.targets = some ta ∧ ta.delegations = some ds ∧ ds.roles.length = n ∧
      (ds.roles.map Delegation.role).Nodup ∧
      (∀ b m, E.targetsFromSlice b = .ok m → m = ta) ∧
      (exec E D R cfg (.fetchTargetDescription path) s).2.io.log = s.io.log ++ l ∧
      chains n (depth + 1) ≤ requestCount l := by
  have h0 : Mutual.At n ["targets".toList] 0 ⟨Mutual.state n, ⟨Toy.Disk.empty, []⟩⟩ :=
    ⟨⟨rfl, rfl, rfl, fun _ _ => .inl rfl, fun _ _ => .inl rfl⟩, fun r hr => .inl (List.mem_singleton.1 hr), by simp⟩
  let cfg : Config := { Toy.config with maxDelegationDepth := depth }
  have hs := Mutual.search n (depth + 1) ["targets".toList] "targets".toList 0 (by simp)
  have run : Tri (fun s => s = (⟨Mutual.state n, ⟨Toy.Disk.empty, []⟩⟩ : St Toy.Disk))
      (exec (Mutual.world n).env Toy.digest (Mutual.repos n) cfg (.fetchTargetDescription "p/x".toList))
      (fun _ s => chains n (depth + 1) ≤ requestCount s.io.log)
      (fun _ s => chains n (depth + 1) ≤ requestCount s.io.log) := by
    refine Tri.bind (Q := fun _ s => chains n (depth + 1) ≤ requestCount s.io.log) ?_ fun _ => Tri.ret fun s h => h
    unfold fetchTargetDescription
    refine Tri.bind (Q := fun v s => v = "p/x".toList ∧ s = _)
      (Tri.ofExcept (fun a s e h => ⟨?_, h⟩) (fun e s he h => ?_)) fun v => Tri.assume fun hv => ?_
    · have : cfg.realToVirtual "p/x".toList = .ok "p/x".toList := by
        show Toy.config.realToVirtual "p/x".toList = _
        decide +kernel
      rw [this] at e; cases e; rfl
    · have : cfg.realToVirtual "p/x".toList = .ok "p/x".toList := by
        show Toy.config.realToVirtual "p/x".toList = _
        decide +kernel
      rw [this] at he; cases he
    subst hv
    refine Tri.bind (Q := fun (t : Tuf) (s : St Toy.Disk) => t = Mutual.state n ∧
      s = (⟨Mutual.state n, ⟨Toy.Disk.empty, []⟩⟩ : St Toy.Disk)) (by rintro s rfl; exact ⟨rfl, rfl⟩)
      fun t => Tri.assume fun ht => ?_
    subst ht
    dsimp only [Mutual.state]
    refine Tri.bind (hs.conseq (by rintro s rfl; exact h0) (fun _ _ h => h) (fun _ _ h => h.elim)) fun x => ?_
    refine Tri.ofExcept (fun a s _ h => ?_) (fun e s _ h => ?_)
    · simpa using h.2.2.2
    · simpa using h.2.2.2
  refine ⟨(Mutual.world n).env, Toy.digest, Mutual.repos n, cfg, ⟨Mutual.state n, ⟨Toy.Disk.empty, []⟩⟩,
    "p/x".toList, Mutual.shared n, _, _, ?_, Mutual.reachable n, rfl, rfl, rfl, ?_, ?_, ?_, (List.nil_append _).symm, ?_⟩
  · refine (Mutual.world n).decoders ?_ ?_ ?_ ?_
    · simp [Mutual.world, Toy.root]
    · simp [Mutual.world, Toy.timestamp, Toy.descr]
    · simp only [Mutual.world, List.mem_singleton, forall_eq]
      refine ⟨by simp [Mutual.snap], by simp [Mutual.snap], fun q hq => ?_⟩
      simp only [Mutual.snap, List.mem_cons, List.mem_map] at hq
      rcases hq with rfl | ⟨_, _, rfl⟩ <;> simp [Toy.descr]
    · simp [Mutual.world, Mutual.shared]
  · simp
  · rw [List.map_map]
    exact List.Nodup.map (fun i j h => Mutual.name_inj h) List.nodup_range
  · exact Toy.tab_map_ok (P := fun m : TargetsMetadata => m = Mutual.shared n) (by simp [Mutual.world])
  · have := run _ rfl
    revert this
    cases exec (Mutual.world n).env Toy.digest (Mutual.repos n) cfg (.fetchTargetDescription "p/x".toList)
      ⟨Mutual.state n, ⟨Toy.Disk.empty, []⟩⟩ with
    | mk r s => intro this; cases r <;> exact this

/-- What can be said of every document of targets metadata can be said of the trusted ones. -/
theorem trusted_decoded (E : Env) (hE : Decoders E) (P : TargetsMetadata → Prop)
    (hP : ∀ b m, E.targetsFromSlice b = .ok m → P m) {t : Tuf} (h : Reachable E t) :
    (∀ ta, t.targets = some ta → P ta) ∧ ∀ role m, t.delegations.get? role = some m → P m := by
  obtain ⟨t0, ops, h0, rfl⟩ := h
  obtain ⟨r, rfl, raw, ha⟩ := Fresh.eq E hE t0 h0
  refine run_invariant E (fun t => (∀ ta, t.targets = some ta → P ta) ∧
    ∀ role m, t.delegations.get? role = some m → P m) ?_ _ ?_ ops
  · rintro t op ⟨h1, h2⟩
    have hc := step_case E t op
    generalize (Tuf.step E t op).1 = o at hc
    generalize (Tuf.step E t op).2 = t' at hc
    cases hc with
    | failed | same | timestamp | timestampExpired => exact ⟨h1, h2⟩
    | root raw new hr => exact ⟨by simp [ofRoot], by simp [ofRoot]⟩
    | snapshot clk raw new t' hr hp =>
      refine ⟨fun ta hta => ?_, fun role m hm => h2 role m ((hp.delegations role m).1 hm).1⟩
      by_cases hl : verOf (·.version) t.targets = listed new targetsName
      · rw [hp.targetsKept hl] at hta; exact h1 ta hta
      · rw [hp.targetsDropped hl] at hta; cases hta
    | targets clk raw new hr =>
      refine ⟨fun ta hta => ?_, h2⟩
      cases hta
      exact decoders_of_authentic hP hr.signed
    | delegation clk parent role raw new hr =>
      refine ⟨h1, fun role' m hm => ?_⟩
      simp only [Map.get?_insert] at hm
      split at hm
      · cases hm
        obtain ⟨_, _, _, ha⟩ := hr.signed
        exact decoders_of_authentic hP ha
      · exact h2 role' m hm
  · exact ⟨by simp, by simp⟩

/-- **C95, for documents.** If no document of targets metadata delegates to more than `b` roles, no target
call of a client makes more than `2 * (b + b ^ 2 + … + b ^ (depth + 1))` requests. -/
theorem C95_requests_bounded_by_documents {W : Type} (E : Env) (hE : Decoders E) (D : Digest) (R : RustTuf.World W)
    (cfg : Config) (c : Call) (hc : c ≠ .update) (s : St W) (hs : Reachable E s.tuf) (b : Nat)
    (hb : ∀ raw m, E.targetsFromSlice raw = .ok m → DelegatesAtMost b m) :
    ∃ l, (exec E D R cfg c s).2.io.log = s.io.log ++ l ∧
      requestCount l ≤ 2 * chains b (cfg.maxDelegationDepth + 1) := by
  obtain ⟨l, h1, h2⟩ := C95_requests_bounded E D R cfg c hc s b
  have key := fun pre => trusted_decoded E hE _ hb (t := after E s.tuf pre) (by
    obtain ⟨t0, ops, h0, h⟩ := hs
    exact ⟨t0, ops ++ opsOf pre, h0, by rw [after, h, run_append]⟩)
  exact ⟨l, h1, h2 (fun ta h => (trusted_decoded E hE _ hb hs).1 ta h) fun pre _ role m _ h =>
    (key pre).2 role m h⟩

/-- Ten roles, and the default depth: between 1111111110 and 2222222220 requests. -/
example : ∃ (E : Env) (D : Digest) (R : RustTuf.World Toy.Disk) (cfg : Config) (s : St Toy.Disk)
    (path : TargetPath) (l : List LogEntry), Decoders E ∧ Reachable E s.tuf ∧ cfg.maxDelegationDepth = 8 ∧
      (∀ raw m, E.targetsFromSlice raw = .ok m → DelegatesAtMost 10 m) ∧
      (exec E D R cfg (.fetchTargetDescription path) s).2.io.log = s.io.log ++ l ∧
      1111111110 ≤ requestCount l ∧ requestCount l ≤ 2222222220 := by
  obtain ⟨E, D, R, cfg, s, path, ta, ds, l, h1, h2, h3, h4, h5, h6, h7, h8, h9, h10⟩ :=
    C95_search_is_exponential 10 8
  have hb : ∀ raw m, E.targetsFromSlice raw = .ok m → DelegatesAtMost 10 m := by
    intro raw m h
    rw [h8 raw m h]
    intro x hx
    rw [h5] at hx
    cases hx
    exact Nat.le_of_eq h6
  obtain ⟨l', h11, h12⟩ := C95_requests_bounded_by_documents E h1 D R cfg (.fetchTargetDescription path)
    (by simp) s h2 10 hb
  rw [h9] at h11
  cases List.append_cancel_left h11
  rw [h3] at h12
  exact ⟨E, D, R, cfg, s, path, l, h1, h2, h3, hb, h9, Nat.le_trans (by decide) h10, Nat.le_trans h12 (by decide)⟩

end RustTuf.Props
