import Verif.Model.Depth
import Verif.Props.WorkExample

/-! C118: the depth counter of the search for a target. -/

namespace RustTuf.Props
open Client Spec

variable {W : Type}

theorem lookupAt_eq (E : Env) (D : Digest) (R : World W) (chk : Bool) (max : Nat) (hmax : max < 2 ^ 32 - 1)
    (target : VirtualTargetPath) (sn : SnapshotMetadata) : ∀ (rem depth fuel : Nat),
      rem + depth = max + 1 → rem < fuel →
      lookupAt E D R chk max target sn fuel depth = lookupIn E D R target sn rem := by
  intro rem
  induction rem with
  | zero =>
    intro depth fuel hd hf
    obtain ⟨fuel, rfl⟩ := Nat.exists_eq_succ_of_ne_zero (Nat.ne_of_gt hf)
    funext dflt targets role
    simp only [lookupAt, lookupIn]
    rw [if_pos (by omega)]
  | succ rem ih =>
    intro depth fuel hd hf
    obtain ⟨fuel, rfl⟩ := Nat.exists_eq_succ_of_ne_zero (Nat.ne_of_gt (Nat.lt_of_le_of_lt (Nat.zero_le _) hf))
    have hn : nextDepth chk depth = some (depth + 1) := by
      unfold nextDepth
      rw [if_pos (by omega)]
    funext dflt targets role
    simp only [lookupAt, lookupIn, hn]
    rw [if_neg (by omega), ih (depth + 1) fuel (by omega) (by omega)]
    rfl

/-- For every configured depth below 2^32 - 1, in particular for the default of 8: the counter of the code
does not overflow, at most one nested call more than the depth plus one is made, and the call is the one
that the other theorems speak of. -/
theorem C118_counter (E : Env) (D : Digest) (R : World W) (cfg : Config)
    (hmax : cfg.maxDelegationDepth < 2 ^ 32 - 1) (fuel : Nat) (hf : cfg.maxDelegationDepth + 2 ≤ fuel)
    (target : TargetPath) :
    fetchTargetDescriptionCounting E D R fuel cfg target =
      fetchTargetDescription E D R cfg target := by
  unfold fetchTargetDescriptionCounting fetchTargetDescription
  simp only [lookupAt_eq E D R cfg.overflowChecks _ hmax _ _ (cfg.maxDelegationDepth + 1) 0 fuel (by omega) (by omega)]
  rfl

namespace Mutual

/-- The loop over delegations ends with the error of the first nested call. -/
theorem loop_fails (n k : Nat) (rec : Bool → TargetsMetadata → MetadataPath → M (St Toy.Disk) Found) (e : Err)
    (hrec : ∀ i rs c, i < n → name i ∈ rs → Tri (At n rs c) (rec false (shared n) (name i))
      (fun _ _ => False) (fun e' s => e' = e ∧ k + c ≤ requestCount s.io.log))
    (rs : List MetadataPath) (r : MetadataPath) (hr : r ∈ rs) (i : Nat) (hi : i < n) (l : List Delegation)
    (c : Nat) :
    Tri (At n rs c) (Client.lookupLoop (world n).env Toy.digest (repos n) rec false "p/x".toList (snap n) r
        (⟨name i, false, 1, ["d".toList], ["p/".toList]⟩ :: l))
      (fun _ _ => False) (fun e' s => e' = e ∧ k + 1 + c ≤ requestCount s.io.log) := by
  unfold Client.lookupLoop
  rw [if_neg (by show ¬ (!(List.any ["p/".toList] fun p => isChild "p/x".toList p)) = true; decide)]
  simp only [snap_get n i hi]
  have hp : hashPreference (Toy.descr 1).hashes = .ok (.sha256, [1, 2, 3]) := by decide
  simp only [hp]
  refine Tri.bind (Q := fun (t : Tuf) (s : St Toy.Disk) => t.root = Toy.root 1 1000 ∧ At n rs c s)
    (fun s hs => ⟨hs.1.root, hs⟩) fun t => Tri.assume fun ht => ?_
  have hv : versionFor t.root.consistentSnapshot (Toy.descr 1).version = .none := by rw [ht]; rfl
  rw [hv]
  refine Tri.bind ((fetch_cache n i hi rs c).conseq (fun _ h => h) (fun _ _ h => h) (fun _ _ h => h.elim))
    fun r1 => Tri.assume fun hr1 => ?_
  refine Tri.bind (Q := fun f s => f = .ok [30] ∧ At n rs (c + 1) s) ?_ fun f => Tri.assume fun hf => ?_
  · rcases hr1 with rfl | rfl
    · exact Tri.ret fun s hs => ⟨rfl, hs⟩
    · exact (fetch_remote n i hi rs (c + 1)).conseq (fun _ h => h) (fun _ _ h => h) (fun _ _ h => h.elim)
  subst hf
  dsimp only
  refine Tri.bind (Q := fun clk s => clk = Toy.clk 100 ∧ At n rs (c + 1) s) (fun s hs => ⟨rfl, hs⟩)
    fun clk => Tri.assume fun hclk => ?_
  subst hclk
  refine Tri.bind (Q := fun o s => (∃ x, o = .ok x) ∧ At n (name i :: rs) (c + 1) s)
    ((Tri.attempt (load_role n i hi rs r hr (c + 1))).post fun o s h => ?_)
    fun o => Tri.assume fun ho => ?_
  · cases o with
    | ok x => exact ⟨⟨x, rfl⟩, h⟩
    | error e => exact h.elim
  obtain ⟨x, rfl⟩ := ho
  dsimp only
  refine Tri.bind (Q := fun _ => At n (name i :: rs) (c + 1))
    ((Tri.attempt (store_role n i _ (c + 1))).post fun o s h => by
      cases o with
      | ok x => exact h
      | error e => exact h.elim) fun _ => ?_
  refine Tri.bind (Q := fun (t : Tuf) (s : St Toy.Disk) => t.delegations.get? (name i) = some (shared n) ∧
    At n (name i :: rs) (c + 1) s) (fun s hs => ⟨?_, hs⟩) fun t => Tri.assume fun ht => ?_
  · rcases hs.2.1 (name i) (by simp) with h | h
    · exact absurd h (name_ne i _ 't' (by decide) (by decide))
    · exact h.2
  simp only [ht]
  refine Tri.bind (Q := fun _ _ => False) ((hrec i (name i :: rs) (c + 1) hi (by simp)).conseq (fun _ h => h)
    (fun _ _ h => h) fun e' s h => ⟨h.1, by omega⟩) fun x s h => h.elim

/-- With the largest setting and without overflow checks, nested calls never end. -/
theorem endless (n : Nat) (hn : 0 < n) : ∀ (fuel depth : Nat) (rs : List MetadataPath) (r : MetadataPath)
    (c : Nat), depth < 2 ^ 32 → r ∈ rs → Tri (At n rs c)
      (lookupAt (world n).env Toy.digest (repos n) false (2 ^ 32 - 1) "p/x".toList (snap n) fuel depth false
        (shared n) r) (fun _ _ => False) (fun e s => e = .diverged ∧ fuel - 1 + c ≤ requestCount s.io.log) := by
  intro fuel
  induction fuel with
  | zero =>
    intro depth rs r c _ _
    exact Tri.fail fun s hs => ⟨rfl, by have := hs.2.2; omega⟩
  | succ fuel ih =>
    intro depth rs r c hd hr
    obtain ⟨d', h1, h2⟩ : ∃ d', nextDepth false depth = some d' ∧ d' < 2 ^ 32 := by
      unfold nextDepth
      split
      · exact ⟨_, rfl, by assumption⟩
      · exact ⟨0, rfl, by decide⟩
    unfold lookupAt
    rw [if_neg (by omega)]
    simp only [h1]
    obtain ⟨n, rfl⟩ := Nat.exists_eq_succ_of_ne_zero (Nat.ne_of_gt hn)
    have hl : (List.range (n + 1)).map (fun i =>
        (⟨name i, false, 1, ["d".toList], ["p/".toList]⟩ : Delegation)) =
        ⟨name 0, false, 1, ["d".toList], ["p/".toList]⟩ :: (List.range n).map (fun i =>
          (⟨name (i + 1), false, 1, ["d".toList], ["p/".toList]⟩ : Delegation)) := by
      rw [List.range_succ_eq_map, List.map_cons, List.map_map]; rfl
    show Tri _ (Client.lookupLoop _ _ _ _ _ _ _ _ ((List.range (n + 1)).map _)) _ _
    rw [hl]
    cases fuel with
    | zero =>
      refine (loop_fails (n + 1) 0 _ .diverged (fun i rs c _ h => ?_) rs r hr 0 (by omega) _ c).conseq
        (fun _ h => h) (fun _ _ h => h) (fun e s h => ⟨h.1, by have := h.2; omega⟩)
      exact (ih d' rs (name i) c h2 h).conseq (fun _ h => h) (fun _ _ h => h) fun e s h => ⟨h.1, by omega⟩
    | succ fuel =>
      refine (loop_fails (n + 1) fuel _ .diverged (fun i rs c _ h => ?_) rs r hr 0 (by omega) _ c).conseq
        (fun _ h => h) (fun _ _ h => h) (fun e s h => ⟨h.1, by have := h.2; omega⟩)
      exact (ih d' rs (name i) c h2 h).conseq (fun _ h => h) (fun _ _ h => h) fun e s h => ⟨h.1, by omega⟩

/-- With the largest setting and with overflow checks, they end in a panic. -/
theorem panics (n : Nat) (hn : 0 < n) : ∀ (k depth fuel : Nat) (rs : List MetadataPath) (r : MetadataPath)
    (c : Nat), depth + k = 2 ^ 32 - 1 → k < fuel → r ∈ rs → Tri (At n rs c)
      (lookupAt (world n).env Toy.digest (repos n) true (2 ^ 32 - 1) "p/x".toList (snap n) fuel depth false
        (shared n) r) (fun _ _ => False) (fun e s => e = .panic ∧ k + 1 + c ≤ requestCount s.io.log) := by
  obtain ⟨n, rfl⟩ := Nat.exists_eq_succ_of_ne_zero (Nat.ne_of_gt hn)
  have hl : (List.range (n + 1)).map (fun i =>
      (⟨name i, false, 1, ["d".toList], ["p/".toList]⟩ : Delegation)) =
      ⟨name 0, false, 1, ["d".toList], ["p/".toList]⟩ :: (List.range n).map (fun i =>
        (⟨name (i + 1), false, 1, ["d".toList], ["p/".toList]⟩ : Delegation)) := by
    rw [List.range_succ_eq_map, List.map_cons, List.map_map]; rfl
  intro k
  induction k with
  | zero =>
    intro depth fuel rs r c hd hf hr
    obtain ⟨fuel, rfl⟩ := Nat.exists_eq_succ_of_ne_zero (Nat.ne_of_gt hf)
    have h1 : nextDepth true depth = none := by
      unfold nextDepth
      rw [if_neg (by omega), if_pos rfl]
    unfold lookupAt
    rw [if_neg (by omega)]
    simp only [h1]
    show Tri _ (Client.lookupLoop _ _ _ _ _ _ _ _ ((List.range (n + 1)).map _)) _ _
    rw [hl]
    exact loop_fails (n + 1) 0 _ .panic (fun i rs c _ h => Tri.fail fun s hs => ⟨rfl, by have := hs.2.2; omega⟩)
      rs r hr 0 (by omega) _ c
  | succ k ih =>
    intro depth fuel rs r c hd hf hr
    obtain ⟨fuel, rfl⟩ := Nat.exists_eq_succ_of_ne_zero (Nat.ne_of_gt (Nat.lt_of_le_of_lt (Nat.zero_le _) hf))
    have h1 : nextDepth true depth = some (depth + 1) := by
      unfold nextDepth
      rw [if_pos (by omega)]
    unfold lookupAt
    rw [if_neg (by omega)]
    simp only [h1]
    show Tri _ (Client.lookupLoop _ _ _ _ _ _ _ _ ((List.range (n + 1)).map _)) _ _
    rw [hl]
    exact loop_fails (n + 1) (k + 1) _ .panic (fun i rs c _ h => ih (depth + 1) fuel rs (name i) c (by omega) (by omega) h)
      rs r hr 0 (by omega) _ c

/-- A client with the largest setting that looks for a target. -/
theorem call (chk : Bool) (fuel : Nat) (e : Err) (k : Nat) (cfg : Config)
    (hcfg : cfg = { Toy.config with maxDelegationDepth := 2 ^ 32 - 1, overflowChecks := chk })
    (h : Tri (At 1 ["targets".toList] 0)
      (lookupAt (world 1).env Toy.digest (repos 1) chk (2 ^ 32 - 1) "p/x".toList (snap 1) fuel 0 false
        (shared 1) "targets".toList) (fun _ _ => False) (fun e' s => e' = e ∧ k ≤ requestCount s.io.log)) :
    (fetchTargetDescriptionCounting (world 1).env Toy.digest (repos 1) fuel cfg "p/x".toList
      ⟨state 1, ⟨Toy.Disk.empty, []⟩⟩).1 = .error e ∧
    k ≤ requestCount (fetchTargetDescriptionCounting (world 1).env Toy.digest (repos 1) fuel cfg
      "p/x".toList ⟨state 1, ⟨Toy.Disk.empty, []⟩⟩).2.io.log := by
  have h0 : At 1 ["targets".toList] 0 ⟨state 1, ⟨Toy.Disk.empty, []⟩⟩ :=
    ⟨⟨rfl, rfl, rfl, fun _ _ => .inl rfl, fun _ _ => .inl rfl⟩, fun r hr => .inl (List.mem_singleton.1 hr), by simp⟩
  have hp : cfg.realToVirtual "p/x".toList = .ok "p/x".toList := by
    rw [hcfg]
    show Toy.config.realToVirtual "p/x".toList = _
    decide +kernel
  have run : Tri (fun s => s = (⟨state 1, ⟨Toy.Disk.empty, []⟩⟩ : St Toy.Disk))
      (fetchTargetDescriptionCounting (world 1).env Toy.digest (repos 1) fuel cfg "p/x".toList)
      (fun _ _ => False) (fun e' s => e' = e ∧ k ≤ requestCount s.io.log) := by
    unfold fetchTargetDescriptionCounting
    refine Tri.bind (Q := fun v s => v = "p/x".toList ∧ s = _)
      (Tri.ofExcept (fun a s e h => ⟨?_, h⟩) (fun e s he h => ?_)) fun v => Tri.assume fun hv => ?_
    · rw [hp] at e; cases e; rfl
    · rw [hp] at he; cases he
    subst hv
    refine Tri.bind (Q := fun (t : Tuf) (s : St Toy.Disk) => t = state 1 ∧
      s = (⟨state 1, ⟨Toy.Disk.empty, []⟩⟩ : St Toy.Disk)) (by rintro s rfl; exact ⟨rfl, rfl⟩)
      fun t => Tri.assume fun ht => ?_
    subst ht
    dsimp only [state]
    rw [show cfg.maxDelegationDepth = 2 ^ 32 - 1 by rw [hcfg], show cfg.overflowChecks = chk by rw [hcfg]]
    exact Tri.bind (Q := fun _ _ => False) (h.conseq (by rintro s rfl; exact h0) (fun _ _ h => h) (fun _ _ h => h))
      fun x s h => h.elim
  have := run _ rfl
  rcases hx : fetchTargetDescriptionCounting (world 1).env Toy.digest (repos 1) fuel cfg "p/x".toList
      ⟨state 1, ⟨Toy.Disk.empty, []⟩⟩ with ⟨a | a, s⟩
  · rw [hx] at this
    exact ⟨by rw [this.1], this.2⟩
  · rw [hx] at this
    exact this.elim

end Mutual

/-- The largest setting is no limit: there are a repository with a single role that delegates to itself
and a client with verified metadata such that, in a build without overflow checks, the call makes more
requests than any given number and does not end; in a build with overflow checks it ends in a
panic, after 2^32 requests. (The memory for the nested calls runs out earlier.) -/
theorem C118_largest_setting_is_no_limit :
    ∃ (E : Env) (D : Digest) (R : World Toy.Disk) (cfg : Bool → Config) (s : St Toy.Disk) (path : TargetPath),
      Decoders E ∧ Reachable E s.tuf ∧ requestCount s.io.log = 0 ∧
      (∀ chk, (cfg chk).maxDelegationDepth = 2 ^ 32 - 1 ∧ (cfg chk).overflowChecks = chk) ∧
      (∀ fuel, (fetchTargetDescriptionCounting E D R fuel (cfg false) path s).1 = .error .diverged ∧
        fuel ≤ requestCount (fetchTargetDescriptionCounting E D R fuel (cfg false) path s).2.io.log + 1) ∧
      (∀ fuel, 2 ^ 32 ≤ fuel →
        (fetchTargetDescriptionCounting E D R fuel (cfg true) path s).1 = .error .panic ∧
        2 ^ 32 ≤ requestCount (fetchTargetDescriptionCounting E D R fuel (cfg true) path s).2.io.log) := by
  refine ⟨(Mutual.world 1).env, Toy.digest, Mutual.repos 1,
    fun chk => { Toy.config with maxDelegationDepth := 2 ^ 32 - 1, overflowChecks := chk },
    ⟨Mutual.state 1, ⟨Toy.Disk.empty, []⟩⟩, "p/x".toList, ?_, Mutual.reachable 1, rfl, fun _ => ⟨rfl, rfl⟩,
    fun fuel => ?_, fun fuel hf => ?_⟩
  · refine (Mutual.world 1).decoders ?_ ?_ ?_ ?_
    · simp [Mutual.world, Toy.root]
    · simp [Mutual.world, Toy.timestamp, Toy.descr]
    · simp only [Mutual.world, List.mem_singleton, forall_eq]
      refine ⟨by simp [Mutual.snap], by simp [Mutual.snap], fun q hq => ?_⟩
      simp only [Mutual.snap, List.mem_cons, List.mem_map] at hq
      rcases hq with rfl | ⟨_, _, rfl⟩ <;> simp [Toy.descr]
    · simp [Mutual.world, Mutual.shared]
  · have := Mutual.call false fuel .diverged (fuel - 1) _ rfl
      (Mutual.endless 1 (by decide) fuel 0 ["targets".toList] "targets".toList 0 (by decide) (by simp))
    exact ⟨this.1, Nat.sub_le_iff_le_add.1 this.2⟩
  · have := Mutual.call true fuel .panic (2 ^ 32 - 1 + 1) _ rfl
      (Mutual.panics 1 (by decide) (2 ^ 32 - 1) 0 fuel ["targets".toList] "targets".toList 0 (by omega) (by omega)
        (by simp))
    exact ⟨this.1, this.2⟩

-- The default setting.
example (E : Env) (D : Digest) (R : World W) (chk : Bool) (target : TargetPath) :
    fetchTargetDescriptionCounting E D R 10 (Config.default chk) target =
      fetchTargetDescription E D R (Config.default chk) target :=
  C118_counter E D R (Config.default chk) (by simp [Config.default]) 10
    (by simp [Config.default]) target

end RustTuf.Props
