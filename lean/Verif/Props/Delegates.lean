import Verif.Spec.Delegates
import Verif.Props.Adversary
import Verif.Props.Authors
import Verif.Props.Lookup
import Verif.Props.TufHistory

/-!
# C122: delegated metadata is the author's, too
-/

namespace RustTuf.Props
open Client Spec RustTuf Tuf

section
variable (E : Env) (honest : Scheme → Bytes → Prop) (author : Bytes → Prop)

/-- A store with guarded keys in which all targets metadata are the author's. -/
structure TrustsAuthor (t : Tuf) : Prop where
  root : RootGuarded honest t.root ∧ TargetsGuarded honest t.root
  targets : ∀ m, t.targets = some m → Approved author E.targetsFromSlice m
  delegations : ∀ role m, t.delegations.get? role = some m → Approved author E.targetsFromSlice m

variable {E honest author} (hsig : Unforgeable E honest author)
include hsig

theorem trustsAuthor_step {v : Nat} (hroots : ∀ r, Approved author E.rootFromSlice r → v < r.version →
      RootGuarded honest r ∧ TargetsGuarded honest r)
    (hdel : ∀ m, Approved author E.targetsFromSlice m → DelegationsGuarded honest m)
    {t t' : Tuf} {op : Op} {o : Outcome} (hc : StepCase E t op o t') (h : TrustsAuthor E honest author t)
    (hv : v ≤ t.root.version) : TrustsAuthor E honest author t' ∧ v ≤ t'.root.version := by
  cases hc with
  | failed => exact ⟨h, hv⟩
  | same => exact ⟨h, hv⟩
  | root raw new hr =>
    have ha := C88_authentic_is_approved hsig _ raw _ _ new h.root.1 hr.signedByOld
    have hn : new.version = t.root.version + 1 := hr.nextVersion
    exact ⟨⟨hroots new ha (by omega), (fun _ e => nomatch e), (fun _ _ e => nomatch e)⟩,
      by show v ≤ new.version; omega⟩
  | timestamp clk raw new hr => exact ⟨⟨h.root, h.targets, h.delegations⟩, hv⟩
  | timestampExpired clk raw new => exact ⟨⟨h.root, h.targets, h.delegations⟩, hv⟩
  | snapshot clk raw new t' hr hp =>
    refine ⟨⟨by rw [hp.root]; exact h.root, fun m hm => ?_, fun role m hm => ?_⟩, by rw [hp.root]; exact hv⟩
    · by_cases e : verOf (·.version) t.targets = listed new targetsName
      · rw [hp.targetsKept e] at hm; exact h.targets m hm
      · rw [hp.targetsDropped e] at hm; cases hm
    · exact h.delegations role m ((hp.delegations role m).1 hm).1
  | targets clk raw new hr =>
    refine ⟨⟨h.root, fun m hm => ?_, h.delegations⟩, hv⟩
    cases hm
    exact C88_authentic_is_approved hsig _ raw _ _ new h.root.2 hr.signed
  | delegation clk parent role raw new hr =>
    refine ⟨⟨h.root, h.targets, fun role' m hm => ?_⟩, hv⟩
    simp only [Map.get?_insert] at hm
    split at hm
    · cases hm
      obtain ⟨ds, d, ⟨p, hp, hds, pre, post, hroles, -, -⟩, ha⟩ := hr.signed
      have hap : Approved author E.targetsFromSlice p := by
        rcases hp with ⟨-, hp⟩ | ⟨-, hp⟩
        · exact h.targets p hp
        · exact h.delegations parent p hp
      exact C88_authentic_is_approved hsig _ raw _ _ new
        (hdel p hap ds hds d (by rw [hroles]; simp)) ha
    · exact h.delegations role' m hm

theorem trustsAuthor_run {v : Nat} (hroots : ∀ r, Approved author E.rootFromSlice r → v < r.version →
      RootGuarded honest r ∧ TargetsGuarded honest r)
    (hdel : ∀ m, Approved author E.targetsFromSlice m → DelegationsGuarded honest m) (ops : List Op) :
    ∀ t, TrustsAuthor E honest author t → v ≤ t.root.version →
      TrustsAuthor E honest author (run E t ops) := by
  induction ops with
  | nil => exact fun t h _ => h
  | cons op ops ih =>
    intro t h hv
    obtain ⟨h1, h2⟩ := trustsAuthor_step hsig hroots hdel (step_case E t op) h hv
    exact ih _ h1 h2

omit hsig in
/-- A description comes from one of the trusted targets metadata. -/
theorem description_is_trusted {t : Tuf} (h : TrustsAuthor E honest author t) {clk : Clock}
    {path : VirtualTargetPath} {d : TargetDescription} (hd : targetDescription clk t path = .ok d) :
    ∃ m, Approved author E.targetsFromSlice m ∧ m.targets.get? path = some d := by
  obtain ⟨-, -, ta, h1, -, h2⟩ := C24_description_source clk t path d hd
  rcases h2 with h2 | ⟨-, ds, chain, td, -, hc, h2⟩
  · exact ⟨ta, h.targets ta h1, h2⟩
  · refine ⟨td, ?_, h2⟩
    clear h2
    induction hc with
    | one ds d td _ e _ => exact h.delegations _ _ e
    | cons _ _ _ _ _ _ _ _ _ _ _ ih => exact ih

/-- **C122.** Whatever is submitted to a store: all metadata of delegated roles that it trusts, and all
descriptions of targets that it gives, are the author's. The attacker must have less than a threshold of
the root keys and of the targets keys of the first root and of each later root of the author, and less
than a threshold of the keys of each role to which the author has delegated. -/
theorem C122_store (hE : Decoders E) (t : Tuf) (hf : Fresh E t)
    (hnow : RootGuarded honest t.root ∧ TargetsGuarded honest t.root)
    (hroots : ∀ r, Approved author E.rootFromSlice r → t.root.version < r.version →
      RootGuarded honest r ∧ TargetsGuarded honest r)
    (hdel : ∀ m, Approved author E.targetsFromSlice m → DelegationsGuarded honest m) (ops : List Op) :
    (∀ role m, (run E t ops).delegations.get? role = some m → Approved author E.targetsFromSlice m) ∧
    ∀ clk path d, targetDescription clk (run E t ops) path = .ok d →
      ∃ m, Approved author E.targetsFromSlice m ∧ m.targets.get? path = some d := by
  obtain ⟨r, rfl, -⟩ := Fresh.eq E hE t hf
  have h := trustsAuthor_run hsig hroots hdel ops (ofRoot r)
    { root := hnow, targets := (fun _ e => nomatch e), delegations := (fun _ _ e => nomatch e) } (Nat.le_refl _)
  exact ⟨h.delegations, fun clk path d hd => description_is_trusted h hd⟩

/-- **C122.** The same for clients, whatever calls are made on them. -/
theorem C122_client {W : Type} (D : Digest) (R : World W) (cfg : Config) (hE : Decoders E)
    (start : Start)
    (hfirst : ∀ t0, StartsWith E start t0 → (RootGuarded honest t0.root ∧ TargetsGuarded honest t0.root) ∧
      ∀ r, Approved author E.rootFromSlice r → t0.root.version < r.version →
        RootGuarded honest r ∧ TargetsGuarded honest r)
    (hdel : ∀ m, Approved author E.targetsFromSlice m → DelegationsGuarded honest m)
    (io io' : Io W) (t : Tuf) (h : construct E D R cfg start io = (.ok t, io')) (calls : List Call) :
    let t' := (execAll E D R cfg ⟨t, io'⟩ calls).tuf
    (∀ role m, t'.delegations.get? role = some m → Approved author E.targetsFromSlice m) ∧
    ∀ clk path d, targetDescription clk t' path = .ok d →
      ∃ m, Approved author E.targetsFromSlice m ∧ m.targets.get? path = some d := by
  obtain ⟨t0, ops, h0, h1⟩ := C28_client_refines_tuf E D R cfg start io io' t h calls
  dsimp only
  rw [h1]
  exact C122_store hsig hE t0 (startsWith_fresh h0) (hfirst t0 h0).1 (hfirst t0 h0).2 hdel ops

end

/-- The guards of delegations do not depend on the order of keys and key IDs. -/
theorem delegations_guards_same {honest : Scheme → Bytes → Prop} {a b : TargetsMetadata} (h : SameTargets a b)
    (ha : GoodTargets a) (hb : GoodTargets b) (hg : DelegationsGuarded honest a) :
    DelegationsGuarded honest b := by
  intro ds hds d hd
  have hr := h.delegations
  rw [hds] at hr
  cases e : a.delegations with
  | none => rw [e] at hr; cases hr
  | some da =>
    rw [e] at hr
    cases hr with
    | some hr =>
      obtain ⟨l1, l2⟩ := List.forall₂_iff_get.1 hr.roles
      obtain ⟨i, hi, rfl⟩ := List.mem_iff_getElem.1 hd
      have hs := l2 i (by omega) hi
      simp only [List.get_eq_getElem] at hs
      have h1 := guarded_same hr.keys (ha.delegations da e).keys (hb.delegations ds hds).keys
        (hg da e (da.roles[i]'(by omega)) (List.getElem_mem _))
      rw [← hs.threshold]
      intro ids hn hall
      refine h1 ids hn fun id hid => ?_
      obtain ⟨k, hk, e⟩ := hall id hid
      refine ⟨k, ?_, e⟩
      rw [mem_keysFor (hb.delegations ds hds).keys] at hk ⊢
      obtain ⟨x, hx, hk⟩ := hk
      exact ⟨x, (hs.keyIds.2.2 x).2 hx, hk⟩

/-- **C122.** With JSON and the crate's own writers: whatever is submitted to a store, each description of
a target that it gives is, but for the order of maps, one in targets metadata that the author has made. -/
theorem C122_described_is_made (X : ShimLib) (ring : Scheme → Bytes → Bytes → Bytes → Bool)
    (order : Map KeyId Signature → List (KeyId × Signature)) (perm : ∀ m, (order m).Perm m)
    (L : Laws X) (honest : Scheme → Bytes → Prop) (w : Works) (hw : Works.Publishable X w)
    (hsig : Unforgeable (jsonEnv X ring order perm) honest (w.Signs X))
    (t : Tuf) (hf : Fresh (jsonEnv X ring order perm) t)
    (hnow : RootGuarded honest t.root ∧ TargetsGuarded honest t.root)
    (hlater : ∀ r, w.root r → t.root.version < r.version → RootGuarded honest r ∧ TargetsGuarded honest r)
    (hdel : ∀ m, w.targets m → DelegationsGuarded honest m) (ops : List Op) (clk : Clock)
    (path : VirtualTargetPath) (d : TargetDescription)
    (h : targetDescription clk (run (jsonEnv X ring order perm) t ops) path = .ok d) :
    ∃ m d', w.targets m ∧ m.targets.get? path = some d' ∧ SameTarget d' d := by
  obtain ⟨m', h1, h2⟩ := (C122_store hsig (C54_json_decoders X ring order perm) t hf hnow
    (guards_of_made X ring order perm L honest w hw hlater) (fun m hm => by
      obtain ⟨m0, k1, k2⟩ := C121_targets_is_read L hw m hm
      obtain ⟨msg, -, hd⟩ := hm
      exact delegations_guards_same k2 (hw.targets m0 k1).good (C54_targets X msg m hd) (hdel m0 k1)) ops).2
    clk path d h
  obtain ⟨m, k1, k2⟩ := C121_targets_is_read L hw m' h1
  cases e : m.targets.get? path with
  | none => rw [k2.targets.none path e] at h2; cases h2
  | some d' =>
    obtain ⟨d'', g1, g2⟩ := k2.targets.there path d' e
    rw [h2] at g1
    cases g1
    exact ⟨m, d', k1, e, g2⟩

namespace Delegated

/-- Keys `k` and `d` are honest; the attacker has key `e`. -/
def honest (_ : Scheme) (value : Bytes) : Prop := value = [7] ∨ value = [8]

/-- Delegation of `a` to the given key and of `b` to key `d`. -/
def split (id : String) (v : UInt8) : Delegations :=
  { keys := [("d".toList, Toy.key "d".toList 8), (id.toList, Toy.key id.toList v)]
    roles := [Toy.delegation "b" false ["q/"],
      { Toy.delegation "a" false ["p/"] with keyIds := [id.toList] }] }

/-- A delegation of `b` that the attacker makes. -/
def evil : Delegations :=
  { keys := [("e".toList, Toy.key "e".toList 9)]
    roles := [{ Toy.delegation "b" false ["q/"] with keyIds := ["e".toList] }] }

/-- Targets metadata 30, where `a` is delegated to key `d`, and 31, where it is delegated to key `e`; the
author's metadata 40 for `a` and 42 for `b`; metadata 43 and 44 that the attacker makes for them. -/
@[reducible] def world : Toy.World where
  roots := [(1, Toy.root 1 1000)]
  timestamps := [(10, Toy.timestamp 1 500 1)]
  snapshots := [(20, Toy.snapshot 1 500 [("targets", 1), ("a", 1), ("b", 1)])]
  targets := [(30, Toy.targets 1 500 [("x", 1)] (some (split "d" 8))),
    (31, Toy.targets 1 500 [("x", 1)] (some (split "e" 9))),
    (40, Toy.targets 1 500 [("p/y", 3)] none), (42, Toy.targets 1 500 [("q/z", 5)] none),
    (43, Toy.targets 1 500 [] (some evil)), (44, Toy.targets 1 500 [("q/z", 66)] none)]

/-- Documents 43 and 44 have a signature of key `e` only, and honest keys sign only what is in the list. -/
def env (author : List Bytes) : Env :=
  { world.env with
    parseSigned := fun b =>
      if b = [43] ∨ b = [44] then .ok ([Toy.sign "e".toList 9 b], b) else world.env.parseSigned b
    ringVerify := fun s value msg sig => world.env.ringVerify s value msg sig &&
      (decide (value ≠ [7] ∧ value ≠ [8]) || decide (msg ∈ author)) }

theorem unforgeable (author : List Bytes) : Unforgeable (env author) honest (· ∈ author) := by
  intro s value msg sig hh hv
  have := (Bool.and_eq_true_iff.1 hv).2
  rcases hh with rfl | rfl <;> simpa using this

theorem decoders (author : List Bytes) : Decoders (env author) :=
  have h := world.decoders (by decide) (by decide) (by decide) (by decide)
  ⟨h.root, h.timestamp, h.snapshot, h.targets, h.coherent⟩

theorem root_guarded (v e) : RootGuarded honest (Toy.root v e) ∧ TargetsGuarded honest (Toy.root v e) := by
  refine ⟨Attack.guarded_all (by show 1 ≤ 2; decide) ?_, Attack.guarded_all (Nat.le_refl 1) ?_⟩
  · show ∀ k ∈ [Toy.key "k".toList 7, Toy.key "d".toList 8], k.value = [7] ∨ k.value = [8]
    decide +kernel
  · show ∀ k ∈ [Toy.key "k".toList 7], k.value = [7] ∨ k.value = [8]
    decide +kernel

/-- No approved root is newer than root 1. -/
theorem no_later (author : List Bytes) (r : RootMetadata)
    (h : Approved (· ∈ author) (env author).rootFromSlice r) : ¬ 1 < r.version := by
  obtain ⟨msg, -, h2⟩ := h
  exact Toy.tab_map_ok (P := fun m : RootMetadata => ¬ 1 < m.version) (l := world.roots)
    (by decide) msg r h2

def good : List Bytes := [[1], [10], [20], [30], [40], [42]]

/-- What the author has approved of, if `a` is delegated to key `d`. -/
theorem good_targets (m : TargetsMetadata) (h : Approved (· ∈ good) (env good).targetsFromSlice m) :
    DelegationsGuarded honest m := by
  obtain ⟨msg, h1, h2⟩ := h
  simp only [good, List.mem_cons, List.not_mem_nil, or_false] at h1
  rcases h1 with rfl | rfl | rfl | rfl | rfl | rfl
  · cases h2
  · cases h2
  · cases h2
  · cases h2
    intro ds e d hd
    cases e
    have hd : d = Toy.delegation "b" false ["q/"] ∨
        d = { Toy.delegation "a" false ["p/"] with keyIds := ["d".toList] } := by simpa [split] using hd
    rcases hd with rfl | rfl
    all_goals
      refine Attack.guarded_all (Nat.le_refl 1) ?_
      show ∀ k ∈ [Toy.key "d".toList 8, Toy.key "d".toList 8], k.value = [7] ∨ k.value = [8]
      decide +kernel
  · cases h2; intro ds e; cases e
  · cases h2; intro ds e; cases e

/-- The attacker offers documents for both roles before the author's arrive. -/
def ops : List Op :=
  [.timestamp (Toy.clk 100) [10], .snapshot (Toy.clk 100) [20], .targets (Toy.clk 100) [30],
   .delegation (Toy.clk 100) "targets".toList "a".toList [43],
   .delegation (Toy.clk 100) "targets".toList "b".toList [44],
   .delegation (Toy.clk 100) "targets".toList "a".toList [40],
   .delegation (Toy.clk 100) "targets".toList "b".toList [42]]

/-- The attacker's documents are not taken, the author's are. -/
example : Unforgeable (env good) honest (· ∈ good) ∧ Decoders (env good) ∧ Fresh (env good) Toy.boot ∧
    (RootGuarded honest Toy.boot.root ∧ TargetsGuarded honest Toy.boot.root) ∧
    (∀ r, Approved (· ∈ good) (env good).rootFromSlice r → Toy.boot.root.version < r.version →
      RootGuarded honest r ∧ TargetsGuarded honest r) ∧
    (∀ m, Approved (· ∈ good) (env good).targetsFromSlice m → DelegationsGuarded honest m) ∧
    (run (env good) Toy.boot ops).delegations.get? "b".toList =
      some (Toy.targets 1 500 [("q/z", 5)] none) ∧
    targetDescription (Toy.clk 100) (run (env good) Toy.boot ops) "q/z".toList = .ok (Toy.target 5) :=
  ⟨unforgeable good, decoders good, .inr ⟨[1], by decide +kernel⟩, root_guarded 1 1000,
    fun r h hv => absurd hv (no_later good r h), good_targets, by decide +kernel, by decide +kernel⟩

def lost : List Bytes := [[1], [10], [20], [31], [42]]

/-- The attacker's metadata for `a` delegates `b` once more. -/
def attack : List Op :=
  [.timestamp (Toy.clk 100) [10], .snapshot (Toy.clk 100) [20], .targets (Toy.clk 100) [31],
   .delegation (Toy.clk 100) "targets".toList "a".toList [43],
   .delegation (Toy.clk 100) "a".toList "b".toList [44]]

end Delegated

/-- **C122.** It is not enough that the attacker has too few keys of the roles that the author has
entrusted with a path: who has the keys of any delegated role can replace the metadata of the others,
because trusted metadata are filed by the name of the role, whoever has delegated to it. Here the store
describes a target as nobody but the attacker does, although the author has delegated its path only to a
role whose keys the attacker does not have. -/
theorem C122_other_roles_matter : ∃ (E : Env) (honest : Scheme → Bytes → Prop) (author : Bytes → Prop)
    (t : Tuf) (ops : List Op) (clk : Clock) (path : VirtualTargetPath) (desc : TargetDescription),
    Unforgeable E honest author ∧ Decoders E ∧ Fresh E t ∧
    (RootGuarded honest t.root ∧ TargetsGuarded honest t.root) ∧
    (∀ r, Approved author E.rootFromSlice r → t.root.version < r.version →
      RootGuarded honest r ∧ TargetsGuarded honest r) ∧
    (∀ m, Approved author E.targetsFromSlice m → ∀ ds, m.delegations = some ds → ∀ d ∈ ds.roles,
      (∃ p ∈ d.paths, Under path p) → Guarded honest d.threshold (keysFor ds.keys d.keyIds)) ∧
    targetDescription clk (run E t ops) path = .ok desc ∧
    ∀ m, Approved author E.targetsFromSlice m → m.targets.get? path ≠ some desc := by
  refine ⟨Delegated.env Delegated.lost, Delegated.honest, (· ∈ Delegated.lost), Toy.boot, Delegated.attack,
    Toy.clk 100, "q/z".toList, Toy.target 66, Delegated.unforgeable _, Delegated.decoders _,
    .inr ⟨[1], by decide +kernel⟩, Delegated.root_guarded 1 1000,
    fun r h hv => absurd hv (Delegated.no_later _ r h), ?_, by decide +kernel, ?_⟩
  · rintro m ⟨msg, h1, h2⟩
    simp only [Delegated.lost, List.mem_cons, List.not_mem_nil, or_false] at h1
    rcases h1 with rfl | rfl | rfl | rfl | rfl
    · cases h2
    · cases h2
    · cases h2
    · cases h2
      rintro ds e d hd ⟨p, hp, hu⟩
      cases e
      have hd : d = Toy.delegation "b" false ["q/"] ∨
          d = { Toy.delegation "a" false ["p/"] with keyIds := ["e".toList] } := by simpa [Delegated.split] using hd
      rcases hd with rfl | rfl
      · refine Attack.guarded_all (Nat.le_refl 1) ?_
        show ∀ k ∈ [Toy.key "d".toList 8], k.value = [7] ∨ k.value = [8]
        decide +kernel
      · have hp : p = ['p', '/'] := by simpa [Toy.delegation] using hp
        subst hp
        rcases hu with hu | ⟨-, rest, hu⟩
        · exact absurd hu (by decide)
        · exact absurd (congrArg List.head? hu) (by simp)
    · cases h2; intro ds e; cases e
  · rintro m ⟨msg, h1, h2⟩
    simp only [Delegated.lost, List.mem_cons, List.not_mem_nil, or_false] at h1
    rcases h1 with rfl | rfl | rfl | rfl | rfl
    · cases h2
    · cases h2
    · cases h2
    · cases h2; decide +kernel
    · cases h2; decide +kernel

end RustTuf.Props
