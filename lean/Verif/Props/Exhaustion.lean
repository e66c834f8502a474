import Verif.Spec.Exhaustion
import Verif.Props.Withdrawn
import Verif.Props.UpdateWork

/-!
# C125: without keys nobody can make updates expensive
-/

namespace RustTuf.Props
open Client Spec RustTuf Tuf

namespace Exhaustion
variable {W : Type} {E : Env} {D : Digest} {R : World W} {cfg : Config}

theorem exec_run (c : Call) (s : St W) : ∃ ops, (exec E D R cfg c s).2.tuf = run E s.tuf ops := by
  obtain ⟨l, -, -, h⟩ := execAll_tr (E := E) (D := D) (cfg := cfg) (R := R) (t0 := s.tuf) (L0 := s.io.log)
    [c] s ⟨[], by simp, Good.nil, rfl⟩
  exact ⟨_, h⟩

theorem exec_reachable (c : Call) {s : St W} (h : Reachable E s.tuf) :
    Reachable E (exec E D R cfg c s).2.tuf := by
  obtain ⟨t0, ops, h0, h1⟩ := h
  obtain ⟨ops', h2⟩ := exec_run (E := E) (D := D) (R := R) (cfg := cfg) c s
  exact ⟨t0, ops ++ ops', h0, by rw [h2, h1, run_append]⟩

/-- What is assumed of the keys from a state on. -/
structure Safe (E : Env) (honest : Scheme → Bytes → Prop) (author : Bytes → Prop) (M : Nat) (s : St W) : Prop where
  reachable : Reachable E s.tuf
  now : RootGuarded honest s.tuf.root ∧ TimeGuarded honest s.tuf.root
  later : ∀ r, Approved author E.rootFromSlice r → s.tuf.root.version < r.version →
    RootGuarded honest r ∧ TimeGuarded honest r
  last : s.tuf.root.version ≤ M
  version : s.tuf.root.version ≤ 4294967295

variable {honest : Scheme → Bytes → Prop} {author : Bytes → Prop} {N S T M : Nat}

theorem Safe.call (hsig : Unforgeable E honest author) (hm : Modest E author N S T) (hN : N ≤ M) {s : St W}
    (h : Safe E honest author M s) (c : Call) :
    Safe E honest author M (exec E D R cfg c s).2 ∧
      s.tuf.root.version ≤ (exec E D R cfg c s).2.tuf.root.version := by
  have hr := C88_roots_are_the_authors E D R cfg honest author hsig s [c] h.now.1
    fun r h1 h2 => (h.later r h1 h2).1
  have hr : (exec E D R cfg c s).2.tuf.root = s.tuf.root ∨
      (Approved author E.rootFromSlice (exec E D R cfg c s).2.tuf.root ∧
        s.tuf.root.version < (exec E D R cfg c s).2.tuf.root.version) := hr
  have hreach := exec_reachable (E := E) (D := D) (R := R) (cfg := cfg) c h.reachable
  have hver : (exec E D R cfg c s).2.tuf.root.version ≤ 4294967295 := by
    obtain ⟨ops, e⟩ := exec_run (E := E) (D := D) (R := R) (cfg := cfg) c s
    rw [e]
    exact C08_root_version_bounded E _ _ h.version
  rcases hr with e | ⟨e1, e2⟩
  · exact ⟨⟨hreach, e ▸ h.now, e ▸ h.later, e ▸ h.last, hver⟩, e ▸ Nat.le_refl _⟩
  · exact ⟨⟨hreach, h.later _ e1 e2, fun r h1 h2 => h.later r h1 (Nat.lt_trans e2 h2),
      Nat.le_trans (hm.roots _ e1) hN, hver⟩, Nat.le_of_lt e2⟩

theorem announced_modest (hsig : Unforgeable E honest author) (hE : Decoders E) (hm : Modest E author N S T)
    {s : St W} (h : Safe E honest author M s) : announcedSnapshot s.tuf ≤ S ∧ announcedTargets s.tuf ≤ T := by
  obtain ⟨t0, ops, h0, h1⟩ := h.reachable
  obtain ⟨a1, a2, -⟩ := C19_signed_under_current_root E hE t0 h0 ops
  rw [← h1] at a1 a2
  constructor
  · unfold announcedSnapshot
    cases hts : s.tuf.timestamp with
    | none => exact Nat.zero_le _
    | some ts =>
      obtain ⟨raw, ha⟩ := a1 ts hts
      exact hm.timestamps ts (C88_authentic_is_approved hsig _ raw _ _ ts h.now.2.1 ha)
  · unfold announcedTargets
    cases hsn : s.tuf.snapshot with
    | none => exact Nat.zero_le _
    | some sn =>
      obtain ⟨raw, ha⟩ := a2 sn hsn
      show verOf MetadataDescription.length (sn.metas.get? targetsName) ≤ T
      cases hg : sn.metas.get? targetsName with
      | none => exact Nat.zero_le _
      | some m => exact hm.snapshots sn m (C88_authentic_is_approved hsig _ raw _ _ sn h.now.2.2 ha) hg

/-- One update. -/
theorem one_update (hsig : Unforgeable E honest author) (hE : Decoders E) (hm : Modest E author N S T)
    (hN : N ≤ M) {s : St W} (h : Safe E honest author M s) :
    ∃ j, (exec E D R cfg .update s).2.tuf.root.version = s.tuf.root.version + j ∧
      (asked (recordedSince s (exec E D R cfg .update s).2)).length ≤ j + 4 ∧
      ∀ a b, cfg.maxRootLength = some a → cfg.maxTimestampLength = some b →
        receivedBytes (recordedSince s (exec E D R cfg .update s).2) ≤ (j + 1) * a + b + S + T := by
  have h' := (h.call (D := D) (R := R) (cfg := cfg) hsig hm hN .update).1
  obtain ⟨q1, q2⟩ := announced_modest hsig hE hm h'
  rcases hu : update E D R cfg s with ⟨r, s'⟩
  have e : (exec E D R cfg .update s).2 = s' := by
    show (RustTuf.M.bind _ _ s).2 = s'
    unfold RustTuf.M.bind
    rw [hu]
    cases r <;> rfl
  rw [e] at q1 q2 ⊢
  obtain ⟨l, j, k, rest, h1, h2, h3, h4, -, h5, -, h6⟩ := C99_work_bounded E D R cfg s s' r h.version hu
  have hl : recordedSince s s' = l := by
    unfold recordedSince
    rw [h1, List.drop_left]
  rw [hl]
  refine ⟨j, h2, ?_, fun a b ha hb => ?_⟩
  · rw [h3, List.length_append]
    have h7 := h5.length_le
    rw [List.length_map] at h7
    have h8 : laterRoles.length = 3 := rfl
    have h9 : (rootAsks s.tuf.root.version k).length = k := by simp [rootAsks]
    omega
  · have := h6 a b ha hb
    omega

/-- All updates of a session. -/
theorem all_updates (hsig : Unforgeable E honest author) (hE : Decoders E) (hm : Modest E author N S T)
    (hN : N ≤ M) (calls : List Call) : ∀ {s : St W}, Safe E honest author M s →
    overUpdates E D R cfg (fun l => (asked l).length) s calls ≤
      (M - s.tuf.root.version) + 4 * updatesIn calls ∧
    ∀ a b, cfg.maxRootLength = some a → cfg.maxTimestampLength = some b →
      overUpdates E D R cfg receivedBytes s calls ≤
        (M - s.tuf.root.version) * a + updatesIn calls * (a + b + S + T) := by
  induction calls with
  | nil => exact fun {s} _ => ⟨Nat.zero_le _, fun _ _ _ _ => Nat.zero_le _⟩
  | cons c cs ih =>
    intro s h
    obtain ⟨h', hle⟩ := h.call (D := D) (R := R) (cfg := cfg) hsig hm hN c
    obtain ⟨i1, i2⟩ := ih h'
    have hlast := h'.last
    unfold overUpdates
    by_cases hc : c = .update
    · rw [if_pos hc, if_pos hc]
      have hcount : updatesIn (c :: cs) = updatesIn cs + 1 := by rw [hc]; exact List.count_cons_self
      obtain ⟨j, u1, u2, u3⟩ := one_update (D := D) (R := R) (cfg := cfg) hsig hE hm hN h
      rw [← hc] at u1 u2 u3
      rw [hcount]
      obtain ⟨d, hd⟩ : ∃ d, M - s.tuf.root.version = d + j ∧
          M - (exec E D R cfg c s).2.tuf.root.version = d :=
        ⟨M - (exec E D R cfg c s).2.tuf.root.version, by omega, rfl⟩
      rw [hd.2] at i1 i2
      rw [hd.1]
      refine ⟨by omega, fun a b ha hb => ?_⟩
      have v1 := u3 a b ha hb
      have v2 := i2 a b ha hb
      have e1 : (d + j) * a = d * a + j * a := Nat.add_mul ..
      have e2 : (j + 1) * a = j * a + a := Nat.succ_mul ..
      have e3 : (updatesIn cs + 1) * (a + b + S + T) = updatesIn cs * (a + b + S + T) + (a + b + S + T) :=
        Nat.succ_mul ..
      omega
    · rw [if_neg hc, if_neg hc, Nat.zero_add, Nat.zero_add]
      have hcount : updatesIn (c :: cs) = updatesIn cs :=
        List.count_cons_of_ne hc
      rw [hcount]
      refine ⟨by omega, fun a b ha hb => Nat.le_trans (i2 a b ha hb) ?_⟩
      exact Nat.add_le_add_right (Nat.mul_le_mul_right a (by omega)) _

end Exhaustion
open Exhaustion

/-- **C125.** From any point of a session on, whatever the attacker does: all further updates together ask for
at most four files each, and once more for each root of the author that the client does not have yet. The
metadata they receive are within the limits for a root and a timestamp and the lengths that the author
announces, once for each update, and within the limit for one more root for each root of the author that the
client does not have yet. -/
theorem C125_updates_are_cheap {W : Type} (E : Env) (D : Digest) (R : World W) (cfg : Config)
    (honest : Scheme → Bytes → Prop) (author : Bytes → Prop) (hsig : Unforgeable E honest author)
    (hE : Decoders E) (lastRoot snapshotLength targetsLength : Nat)
    (hm : Modest E author lastRoot snapshotLength targetsLength) (start : Start) (io io' : Io W) (t : Tuf)
    (h : construct E D R cfg start io = (.ok t, io'))
    (before after : List Call) (s : St W)
    (hs : s = execAll E D R cfg ⟨t, io'⟩ before)
    (hnow : RootGuarded honest s.tuf.root ∧ TimeGuarded honest s.tuf.root)
    (hlater : ∀ r, Approved author E.rootFromSlice r → s.tuf.root.version < r.version →
      RootGuarded honest r ∧ TimeGuarded honest r) :
    overUpdates E D R cfg (fun l => (asked l).length) s after ≤
      (lastRoot - s.tuf.root.version) + 4 * updatesIn after ∧
    ∀ a b, cfg.maxRootLength = some a → cfg.maxTimestampLength = some b →
      overUpdates E D R cfg receivedBytes s after ≤
        (lastRoot - s.tuf.root.version) * a + updatesIn after * (a + b + snapshotLength + targetsLength) := by
  obtain ⟨t0, ops, h0, h1⟩ := C28_client_refines_tuf E D R cfg start io io' t h before
  rw [← hs] at h1
  have hver : s.tuf.root.version ≤ 4294967295 := by
    obtain ⟨r, e, raw, hr⟩ := Fresh.eq E hE t0 (startsWith_fresh h0)
    rw [h1]
    refine C08_root_version_bounded E _ _ ?_
    obtain ⟨msg, _, hd⟩ := hr
    rw [e]
    exact (hE.root msg r hd).2
  have safe : Safe E honest author (max lastRoot s.tuf.root.version) s :=
    ⟨⟨t0, ops, startsWith_fresh h0, h1⟩, hnow, hlater, Nat.le_max_right _ _, hver⟩
  obtain ⟨r1, r2⟩ := all_updates (D := D) (R := R) (cfg := cfg) hsig hE hm (Nat.le_max_left _ _) after safe
  have e : max lastRoot s.tuf.root.version - s.tuf.root.version = lastRoot - s.tuf.root.version := by omega
  rw [e] at r1 r2
  exact ⟨r1, r2⟩

/-! ### Examples -/

namespace Exhaustion

theorem modest : Modest Withdrawn.env Withdrawn.author 2 100 100 where
  roots r hr := by
    obtain ⟨msg, h1, h2⟩ := hr
    simp only [Withdrawn.author, List.mem_cons, List.not_mem_nil, or_false] at h1
    rcases h1 with rfl | rfl | rfl | rfl | rfl | rfl | rfl | rfl <;> cases h2 <;> decide
  timestamps ts hts := by
    rcases Withdrawn.approved_timestamp ts hts with rfl | rfl <;> decide
  snapshots sn m hsn hm := by
    rcases Withdrawn.approved_snapshot sn hsn with rfl | rfl <;>
      · have := List.mem_singleton.1 (Map.mem_of_get? hm)
        cases this
        decide

/-- A repository with root 2. -/
def repo : World Toy.Disk :=
  Toy.repos (Toy.files [("root", some 2, 2), ("timestamp", none, 11), ("snapshot", none, 21),
    ("targets", none, 31)]) [("x".toList, [9])] 100

def config : Config := { Toy.config with maxRootLength := some 1, maxTimestampLength := some 1 }

def start : Except Err Tuf × Io Toy.Disk :=
  construct Withdrawn.env Toy.digest repo config (.trustedRoot [1]) ⟨Toy.Disk.empty, []⟩

def s1 : St Toy.Disk := ⟨Toy.boot, start.2⟩

/-- The hypotheses of the theorem. The first update takes root 2 and asks for five files, the second one asks
for a further root and the timestamp: seven of at most nine requests. -/
example : Unforgeable Withdrawn.env Attack.honest Withdrawn.author ∧ Decoders Withdrawn.env ∧
    Modest Withdrawn.env Withdrawn.author 2 100 100 ∧
    start = (.ok Toy.boot, start.2) ∧ s1 = execAll Withdrawn.env Toy.digest repo config s1 [] ∧
    (RootGuarded Attack.honest s1.tuf.root ∧ TimeGuarded Attack.honest s1.tuf.root) ∧
    (∀ r, Approved Withdrawn.author Withdrawn.env.rootFromSlice r → s1.tuf.root.version < r.version →
      RootGuarded Attack.honest r ∧ TimeGuarded Attack.honest r) ∧
    updatesIn [.update, .fetchTarget "x".toList, .update] = 2 ∧
    overUpdates Withdrawn.env Toy.digest repo config (fun l => (asked l).length) s1
      [.update, .fetchTarget "x".toList, .update] = 7 ∧
    overUpdates Withdrawn.env Toy.digest repo config receivedBytes s1
      [.update, .fetchTarget "x".toList, .update] = 5 := by
  refine ⟨Withdrawn.unforgeable, Withdrawn.decoders, modest, Prod.ext (by decide +kernel) rfl, rfl,
    ⟨(Attack.root_guarded 1 1000).1, Withdrawn.guards 1 1000⟩, fun r hr _ => ?_, by decide, by decide +kernel,
    by decide +kernel⟩
  obtain ⟨msg, h1, h2⟩ := hr
  simp only [Withdrawn.author, List.mem_cons, List.not_mem_nil, or_false] at h1
  rcases h1 with rfl | rfl | rfl | rfl | rfl | rfl | rfl | rfl <;> cases h2
  · exact ⟨(Attack.root_guarded 1 1000).1, Withdrawn.guards 1 1000⟩
  · exact ⟨(Attack.root_guarded 2 1000).1, Withdrawn.guards 2 1000⟩

end Exhaustion

end RustTuf.Props
