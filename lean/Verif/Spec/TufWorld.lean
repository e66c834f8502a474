import Verif.Spec.Toy
import Verif.Spec.WF
import Verif.Lemmas.Map

/-! A world with two roots, timestamps, snapshots, targets and delegated metadata, used to show that
the hypotheses of the state machine theorems can be met. -/

namespace RustTuf.Toy

/-- Top-level targets: delegates `a` (terminating) and `b`. -/
def topTargets : TargetsMetadata :=
  targets 1 500 [("x", 1)] (some (delegations
    [delegation "b" false ["q/"], delegation "a" true ["p/"]]))

/-- Delegation of `a` to another key. -/
def rekeyed : Delegations :=
  { keys := [("e".toList, key "e".toList 9)]
    roles := [{ delegation "a" true ["p/"] with keyIds := ["e".toList] }] }

/-- The world. Documents 1-9 roots, 10-19 timestamps, 20-29 snapshots, 30-39 targets, 40- delegated.
-/
@[reducible] def world : World where
  roots := [(1, root 1 1000), (2, root 2 1000), (3, root 3 1000)]
  timestamps := [(10, timestamp 1 500 1), (11, timestamp 2 500 2), (12, timestamp 3 0 3),
    (13, timestamp 3 500 1), (14, timestamp 4 500 3), (15, timestamp 5 500 4)]
  snapshots := [(20, snapshot 1 500 [("targets", 1), ("a", 1), ("b", 1)]),
    (21, snapshot 2 500 [("targets", 2), ("a", 2)]), (22, snapshot 3 0 [("targets", 1), ("a", 1)]),
    (23, snapshot 4 500 [("targets", 1), ("a", 1)]), (24, snapshot 4 500 [("targets", 2), ("a", 1)])]
  targets := [(30, topTargets), (31, targets 2 500 [("x", 2)] topTargets.delegations),
    (32, targets 2 500 [("x", 2)] (some rekeyed)),
    (40, targets 1 500 [("p/y", 3)] none), (41, targets 2 500 [("p/y", 4)] none),
    (42, targets 1 500 [("q/z", 5)] none)]

/-- Its environment. -/
abbrev env : Env := world.env

/-- The store freshly bootstrapped from root 1. -/
def boot : Tuf := ⟨root 1 1000, none, none, none, []⟩

open Tuf in
/-- A history that brings everything up to date. -/
def ops1 : List Op :=
  [.timestamp (clk 100) [10], .snapshot (clk 100) [20], .targets (clk 100) [30],
   .delegation (clk 100) "targets".toList "a".toList [40],
   .delegation (clk 100) "targets".toList "b".toList [42]]

/-- The state after it. -/
def full : Tuf :=
  ⟨root 1 1000, some (snapshot 1 500 [("targets", 1), ("a", 1), ("b", 1)]), some topTargets,
   some (timestamp 1 500 1),
   [("b".toList, targets 1 500 [("q/z", 5)] none), ("a".toList, targets 1 500 [("p/y", 3)] none)]⟩

theorem tab_ok {V : Type} {P : V → Prop} {m : Map Bytes V} (h : ∀ p ∈ m, P p.2) (b : Bytes) (v : V)
    (e : tab m b = .ok v) : P v := by
  unfold tab at e
  split at e
  · rename_i v' hv
    cases e
    exact h _ (Map.mem_of_get? hv)
  · cases e

theorem tab_map_ok {V : Type} {P : V → Prop} {l : List (UInt8 × V)} (h : ∀ p ∈ l, P p.2) (b : Bytes)
    (v : V) (e : tab (l.map fun p => ([p.1], p.2)) b = .ok v) : P v := by
  refine tab_ok (P := P) ?_ b v e
  intro p hp
  obtain ⟨q, hq, rfl⟩ := List.mem_map.1 hp
  exact h q hq

theorem tab_error {V : Type} {m : Map Bytes V} {b : Bytes} {e : Err} (h : tab m b = .error e) :
    e = .encoding := by
  unfold tab at h
  split at h <;> cases h
  rfl

/-- The decoders of a world meet the assumptions if its entries do. -/
theorem World.decoders (w : World)
    (h1 : ∀ p ∈ w.roots, 1 ≤ p.2.version ∧ p.2.version ≤ 4294967295)
    (h2 : ∀ p ∈ w.timestamps, 1 ≤ p.2.version ∧ p.2.version ≤ 4294967295 ∧
      1 ≤ p.2.snapshot.version ∧ p.2.snapshot.version ≤ 4294967295)
    (h3 : ∀ p ∈ w.snapshots, 1 ≤ p.2.version ∧ p.2.version ≤ 4294967295 ∧
      ∀ q ∈ p.2.metas, 1 ≤ q.2.version ∧ q.2.version ≤ 4294967295)
    (h4 : ∀ p ∈ w.targets, 1 ≤ p.2.version ∧ p.2.version ≤ 4294967295) : Spec.Decoders w.env where
  root := tab_map_ok (P := fun m : RootMetadata => 1 ≤ m.version ∧ m.version ≤ 4294967295) h1
  timestamp := tab_map_ok (P := fun m : TimestampMetadata => 1 ≤ m.version ∧ m.version ≤ 4294967295 ∧
    1 ≤ m.snapshot.version ∧ m.snapshot.version ≤ 4294967295) h2
  snapshot := tab_map_ok (P := fun m : SnapshotMetadata => 1 ≤ m.version ∧ m.version ≤ 4294967295 ∧
    ∀ p ∈ m.metas, 1 ≤ p.2.version ∧ p.2.version ≤ 4294967295) h3
  targets := tab_map_ok (P := fun m : TargetsMetadata => 1 ≤ m.version ∧ m.version ≤ 4294967295) h4
  coherent := by
    intro signed msg r r' h1 h2 h3
    cases h1
    have h2' : tab w.table.roots signed = .ok r := h2
    have h3' : tab w.table.roots signed = .ok r' := h3
    rw [h2'] at h3'; cases h3'; rfl

theorem env_decoders : Spec.Decoders env :=
  world.decoders (by decide) (by decide) (by decide) (by decide)

end RustTuf.Toy
