import Verif.Spec.Withdrawn
import Verif.Props.Adversary
import Verif.Props.TufHistory
import Verif.Spec.ClientWorld

/-!
# C123: withdrawn targets stay withdrawn
-/

namespace RustTuf.Props
open Client Spec RustTuf Tuf

namespace Withdrawn

/-- What is trusted has been installed since the trusted root was. -/
theorem since_root (E : Env) (t : Tuf) (ht : t = ofRoot t.root) (ops : List Op) :
    ∃ later, run E t ops = run E (ofRoot (run E t ops).root) later := by
  induction ops using List.reverseRecOn with
  | nil => exact ⟨[], ht⟩
  | append_singleton ops op ih =>
    obtain ⟨later, ih⟩ := ih
    rw [run_snoc]
    have hc := step_case E (run E t ops) op
    have key : (step E (run E t ops) op).2.root = (run E t ops).root →
        ∃ later, (step E (run E t ops) op).2 = run E (ofRoot (step E (run E t ops) op).2.root) later := by
      intro e
      refine ⟨later ++ [op], ?_⟩
      rw [e, run_snoc, ← ih]
    generalize (step E (run E t ops) op).1 = o at hc
    generalize e : (step E (run E t ops) op).2 = t' at hc key ⊢
    cases hc with
    | root raw new hr => exact ⟨[], rfl⟩
    | snapshot clk raw new t' hr hp => exact key hp.root
    | _ => exact key rfl

section
variable {E : Env} {honest : Scheme → Bytes → Prop} {author : Bytes → Prop}

/-- The announced and the listed are the author's. -/
structure Anchor (E : Env) (author : Bytes → Prop) (r : RootMetadata) (t : Tuf) : Prop where
  root : t.root = r
  timestamp : ∀ ts, t.timestamp = some ts → Approved author E.timestampFromSlice ts
  snapshot : ∀ sn, t.snapshot = some sn → Approved author E.snapshotFromSlice sn ∧
    announced t = some sn.version

/-- Version `v` is listed for `role` in a snapshot of the author that is not newer than the announced. -/
def Listed (E : Env) (author : Bytes → Prop) (role : MetadataPath) (t : Tuf) (v : Nat) : Prop :=
  ∃ ts sn m, t.timestamp = some ts ∧ Approved author E.snapshotFromSlice sn ∧
    sn.metas.get? role = some m ∧ m.version = v ∧ sn.version ≤ ts.snapshot.version

theorem anchor_step (hsig : Unforgeable E honest author) {r : RootMetadata} (hg : TimeGuarded honest r)
    {t t' : Tuf} {op : Op} {o : Outcome} (hc : StepCase E t op o t') (h : Anchor E author r t) :
    r.version < t'.root.version ∨ Anchor E author r t' := by
  have hr := h.root
  cases hc with
  | failed | same => exact .inr h
  | root raw new hn => exact .inl (by have := hn.nextVersion; rw [hr] at this; show r.version < new.version; omega)
  | timestamp clk raw new hn =>
    refine .inr ⟨h.root, fun ts e => ?_, fun sn e => ?_⟩
    · cases e
      exact C88_authentic_is_approved hsig _ raw _ _ new hg.1 (hr ▸ hn.signed)
    · simp only at e
      split at e
      · rename_i hv
        refine ⟨(h.snapshot sn e).1, ?_⟩
        rw [e] at hv
        exact congrArg some hv.symm
      · cases e
  | timestampExpired => exact .inr ⟨h.root, h.timestamp, fun _ e => nomatch e⟩
  | snapshot clk raw new t' hn hp =>
    refine .inr ⟨hp.root.trans h.root, fun ts e => h.timestamp ts (hp.timestamp ▸ e), fun sn e => ?_⟩
    rw [hp.snapshot] at e
    cases e
    obtain ⟨ts, e1, -, -, e4⟩ := hn.announced
    refine ⟨C88_authentic_is_approved hsig _ raw _ _ new hg.2 (hr ▸ hn.signed), ?_⟩
    rw [announced, hp.timestamp, e1, e4]
    rfl
  | targets => exact .inr ⟨h.root, h.timestamp, h.snapshot⟩
  | delegation => exact .inr ⟨h.root, h.timestamp, h.snapshot⟩

/-- The trusted timestamp announces no older snapshot than before. -/
theorem announced_step (ho : NeverBack E author) {r : RootMetadata} {t t' : Tuf} {op : Op} {o : Outcome}
    (hc : StepCase E t op o t') (h : Anchor E author r t) (h' : Anchor E author r t') (ts : TimestampMetadata)
    (e : t.timestamp = some ts) :
    r.version < t'.root.version ∨
      ∃ ts', t'.timestamp = some ts' ∧ ts.snapshot.version ≤ ts'.snapshot.version := by
  have hr := h.root
  cases hc with
  | failed | same | timestampExpired | targets | delegation => exact .inr ⟨ts, e, Nat.le_refl _⟩
  | root raw new hn => exact .inl (by have := hn.nextVersion; rw [hr] at this; show r.version < new.version; omega)
  | timestamp clk raw new hn =>
    refine .inr ⟨new, rfl, ho.timestamps ts new (h.timestamp ts e) (h'.timestamp new rfl) ?_⟩
    have := hn.newer
    rw [e] at this
    exact this
  | snapshot clk raw new t' hn hp => exact .inr ⟨ts, by rw [hp.timestamp]; exact e, Nat.le_refl _⟩

/-- How the metadata of a role changes. -/
def Slot (E : Env) (role : MetadataPath) (f : Tuf → Option Nat) : Prop :=
  (∀ r, f (ofRoot r) = none) ∧
  ∀ t op, f (step E t op).2 = f t ∨ f (step E t op).2 = none ∨
    ∃ v, f (step E t op).2 = some v ∧ listedNow role (step E t op).2 = some v

theorem Listed.later {role : MetadataPath} {t t' : Tuf} {v : Nat} (h : Listed E author role t v)
    (hl : ∀ ts, t.timestamp = some ts → ∃ ts', t'.timestamp = some ts' ∧
      ts.snapshot.version ≤ ts'.snapshot.version) : Listed E author role t' v := by
  obtain ⟨ts, sn, m, h1, h2, h3, h4, h5⟩ := h
  obtain ⟨ts', h6, h7⟩ := hl ts h1
  exact ⟨ts', sn, m, h6, h2, h3, h4, Nat.le_trans h5 h7⟩

theorem listed_now {role : MetadataPath} {r : RootMetadata} {t : Tuf} {v : Nat} (h : Anchor E author r t)
    (hv : listedNow role t = some v) : ∃ ts sn m, t.timestamp = some ts ∧
      Approved author E.snapshotFromSlice sn ∧ sn.metas.get? role = some m ∧ m.version = v ∧
      sn.version = ts.snapshot.version := by
  unfold listedNow at hv
  cases hsn : t.snapshot with
  | none => rw [hsn] at hv; cases hv
  | some sn =>
    rw [hsn] at hv
    cases hm : sn.metas.get? role with
    | none => simp [hm] at hv
    | some m =>
      obtain ⟨ha, hann⟩ := h.snapshot sn hsn
      unfold announced at hann
      cases hts : t.timestamp with
      | none => rw [hts] at hann; cases hann
      | some ts =>
        rw [hts] at hann
        exact ⟨ts, sn, m, rfl, ha, hm, by simpa [hm] using hv, by simpa using hann.symm⟩

/-- The state since the root was installed. -/
theorem anchored (hsig : Unforgeable E honest author) (ho : NeverBack E author) {r : RootMetadata}
    (hg : TimeGuarded honest r) {role : MetadataPath} {f : Tuf → Option Nat} (hf : Slot E role f)
    (ops : List Op) :
    r.version < (run E (ofRoot r) ops).root.version ∨ Anchor E author r (run E (ofRoot r) ops) ∧
      ∀ v, f (run E (ofRoot r) ops) = some v → Listed E author role (run E (ofRoot r) ops) v := by
  induction ops using List.reverseRecOn with
  | nil =>
    refine .inr ⟨⟨rfl, fun _ e => (nomatch e), fun _ e => (nomatch e)⟩, fun v e => ?_⟩
    have := hf.1 r
    rw [show run E (ofRoot r) [] = ofRoot r from rfl, this] at e
    cases e
  | append_singleton ops op ih =>
    have hm := root_version_mono E (run E (ofRoot r) ops) [op]
    rw [← run_append] at hm
    rcases ih with ih | ⟨ih1, ih2⟩
    · exact .inl (by omega)
    · rw [run_snoc] at hm ⊢
      have hc := step_case E (run E (ofRoot r) ops) op
      have hs := hf.2 (run E (ofRoot r) ops) op
      rcases anchor_step hsig hg hc ih1 with h | h
      · exact .inl h
      refine .inr ⟨h, fun v e => ?_⟩
      rcases hs with hs | hs | ⟨v', hs, hl⟩
      · rw [hs] at e
        refine (ih2 v e).later fun ts hts => ?_
        exact (announced_step ho hc ih1 h ts hts).resolve_left (by rw [h.root]; omega)
      · rw [hs] at e; cases e
      · rw [hs] at e
        cases e
        obtain ⟨ts, sn, m, h1, h2, h3, h4, h5⟩ := listed_now h hl
        exact ⟨ts, sn, m, h1, h2, h3, h4, Nat.le_of_eq h5⟩

theorem slot_no_rollback (hsig : Unforgeable E honest author) (ho : NeverBack E author)
    {role : MetadataPath} {f : Tuf → Option Nat} (hf : Slot E role f) (t : Tuf) (ht : t = ofRoot t.root)
    (before after : List Op) (hg : TimeGuarded honest (run E t before).root)
    (hr : rootUpdates E (run E t before) after = 0) (v v' : Nat) (hv : f (run E t before) = some v)
    (hv' : f (run E t (before ++ after)) = some v') : v ≤ v' := by
  rw [run_append] at hv'
  have hroot := C08_root_version_counts E (run E t before) after
  rw [hr] at hroot
  obtain ⟨ops, hops⟩ := since_root E t ht before
  generalize run E t before = s at *
  generalize hsr : s.root = r at *
  have h0 : Anchor E author r s ∧ Listed E author role s v := by
    have := anchored hsig ho hg hf ops
    rw [← hops] at this
    rcases this with h | ⟨h1, h2⟩
    · rw [hsr] at h; omega
    · exact ⟨h1, h2 v hv⟩
  have main : ∀ after, r.version < (run E s after).root.version ∨ Anchor E author r (run E s after) ∧
      Listed E author role (run E s after) v ∧ ∀ v', f (run E s after) = some v' → v ≤ v' := by
    intro after
    induction after using List.reverseRecOn with
    | nil =>
      refine .inr ⟨h0.1, h0.2, fun v' e => ?_⟩
      rw [show run E s [] = s from rfl, hv] at e
      cases e
      exact Nat.le_refl _
    | append_singleton ops op ih =>
      have hm := root_version_mono E (run E s ops) [op]
      rw [← run_append] at hm
      rcases ih with ih | ⟨ih1, ih2, ih3⟩
      · exact .inl (by omega)
      · rw [run_snoc] at hm ⊢
        have hc := step_case E (run E s ops) op
        have hs := hf.2 (run E s ops) op
        rcases anchor_step hsig hg hc ih1 with h | h
        · exact .inl h
        have hl : Listed E author role (step E (run E s ops) op).2 v := ih2.later fun ts hts =>
          (announced_step ho hc ih1 h ts hts).resolve_left (by rw [h.root]; omega)
        refine .inr ⟨h, hl, fun v' e => ?_⟩
        rcases hs with hs | hs | ⟨w, hs, hw⟩
        · rw [hs] at e; exact ih3 v' e
        · rw [hs] at e; cases e
        · rw [hs] at e
          cases e
          obtain ⟨ts, sn, m, h1, h2, h3, h4, h5⟩ := listed_now h hw
          obtain ⟨ts0, sn0, m0, g1, g2, g3, g4, g5⟩ := hl
          rw [h1] at g1
          cases g1
          rw [← h4, ← g4]
          exact ho.snapshots sn0 sn g2 h2 (by omega) role m0 m g3 h3
  rcases main after with h | ⟨-, -, h⟩
  · omega
  · exact h v' hv'

theorem targetsSlot : Slot E targetsName fun t => t.targets.map (·.version) :=
  ⟨fun _ => rfl, targets_slot E⟩

theorem delegationSlot (role : MetadataPath) :
    Slot E role fun t => (t.delegations.get? role).map (·.version) :=
  ⟨fun _ => rfl, delegation_slot E role⟩

end

end Withdrawn
open Withdrawn

section
variable {E : Env} {honest : Scheme → Bytes → Prop} {author : Bytes → Prop}
  (hsig : Unforgeable E honest author) (ho : NeverBack E author) (hE : Decoders E)
include hsig ho hE

/-- **C123.** Whatever is submitted to a store, as long as its root is not replaced: trusted targets
metadata gives way only to metadata with the same or a higher version, also if there was none for a while,
and the same holds for each delegated role. The author must not go back, and the attacker must have less
than a threshold of the timestamp keys and of the snapshot keys of this root. -/
theorem C123_store (t : Tuf) (hf : Fresh E t) (before after : List Op)
    (hg : TimeGuarded honest (run E t before).root) (hr : rootUpdates E (run E t before) after = 0) :
    (∀ a b, (run E t before).targets = some a → (run E t (before ++ after)).targets = some b →
      a.version ≤ b.version) ∧
    ∀ role a b, (run E t before).delegations.get? role = some a →
      (run E t (before ++ after)).delegations.get? role = some b → a.version ≤ b.version := by
  obtain ⟨r, rfl, -⟩ := Fresh.eq E hE t hf
  refine ⟨fun a b ha hb => ?_, fun role a b ha hb => ?_⟩
  · exact slot_no_rollback hsig ho targetsSlot _ rfl before after hg hr a.version b.version
      (by simp only [ha]; rfl) (by simp only [hb]; rfl)
  · exact slot_no_rollback hsig ho (delegationSlot role) _ rfl before after hg hr a.version b.version
      (by simp only [ha]; rfl) (by simp only [hb]; rfl)

variable {W : Type} (D : Digest) (R : World W) (cfg : Config)

/-- **C123.** The same for the calls on a client. -/
theorem C123_client (start : Start) (io io' : Io W) (t : Tuf)
    (h : construct E D R cfg start io = (.ok t, io')) (before after : List Call)
    (s1 s2 : St W) (hs1 : s1 = execAll E D R cfg ⟨t, io'⟩ before) (hs2 : s2 = execAll E D R cfg s1 after)
    (hg : TimeGuarded honest s1.tuf.root) (hr : s2.tuf.root = s1.tuf.root) (a b : TargetsMetadata)
    (ha : s1.tuf.targets = some a) (hb : s2.tuf.targets = some b) : a.version ≤ b.version := by
  obtain ⟨t0, ops, h0, h1⟩ := C28_client_refines_tuf E D R cfg start io io' t h before
  rw [← hs1] at h1
  obtain ⟨l, -, -, h2⟩ := execAll_tr (E := E) (D := D) (cfg := cfg) (R := R) (t0 := s1.tuf) (L0 := s1.io.log)
    after s1 ⟨[], by simp, Good.nil, rfl⟩
  rw [← hs2] at h2
  have h2 : s2.tuf = run E s1.tuf (opsOf l) := h2
  have hc := C08_root_version_counts E s1.tuf (opsOf l)
  rw [← h2, hr] at hc
  rw [h1] at hg ha h2 hc
  rw [h2, ← run_append] at hb
  exact (C123_store hsig ho hE t0 (startsWith_fresh h0) ops (opsOf l) hg (by omega)).1 a b ha hb

omit hsig ho hE in
/-- A target that is asked for with success is listed. -/
theorem asked_is_listed {path : TargetPath} {call : Call} {s s' : St W} {reply : Reply}
    (hcall : call = .fetchTarget path ∨ call = .fetchTargetToWriter path ∨ call = .fetchTargetDescription path)
    (h : exec E D R cfg call s = (.ok reply, s')) : ∃ d, TopEntry cfg s.tuf path d := by
  rcases hcall with rfl | rfl | rfl
  · obtain ⟨_, s1, h1, -⟩ := bind_ok h
    obtain ⟨stream, s2, h3, -⟩ := bind_ok h1
    obtain ⟨d, -, -, g, -⟩ := fetchTargetReader_ok h3
    exact ⟨d, g⟩
  · obtain ⟨_, s1, h1, -⟩ := bind_ok h
    obtain ⟨stream, s2, h3, -⟩ := bind_ok h1
    obtain ⟨d, -, -, g, -⟩ := fetchTargetReader_ok h3
    exact ⟨d, g⟩
  · obtain ⟨d, s1, h1, -⟩ := bind_ok h
    exact ⟨d, fetchTargetDescription_ok h1⟩

/-- **C123.** Once a client trusts targets metadata of some version, no call delivers, stores or describes
a target that the author lists in no targets metadata of this or a higher version, whatever the attacker
does, until the root is replaced. -/
theorem C123_withdrawn (start : Start) (io io' : Io W) (t : Tuf)
    (h : construct E D R cfg start io = (.ok t, io')) (before after : List Call)
    (s1 s2 s3 : St W) (hs1 : s1 = execAll E D R cfg ⟨t, io'⟩ before) (hs2 : s2 = execAll E D R cfg s1 after)
    (hg : TimeGuarded honest s1.tuf.root) (htg : TargetsGuarded honest s1.tuf.root)
    (hr : s2.tuf.root = s1.tuf.root) (a : TargetsMetadata) (ha : s1.tuf.targets = some a)
    (path : TargetPath) (virt : VirtualTargetPath) (hvirt : cfg.realToVirtual path = .ok virt)
    (hgone : ∀ m, Approved author E.targetsFromSlice m → a.version ≤ m.version → m.targets.get? virt = none)
    (call : Call)
    (hcall : call = .fetchTarget path ∨ call = .fetchTargetToWriter path ∨ call = .fetchTargetDescription path)
    (reply : Reply) : exec E D R cfg call s2 ≠ (.ok reply, s3) := by
  intro hok
  obtain ⟨d, virt', b, h1, h2, h3⟩ := asked_is_listed D R cfg hcall hok
  rw [hvirt] at h1
  cases h1
  have hv := C123_client hsig ho hE D R cfg start io io' t h before after s1 s2 hs1 hs2 hg hr a b ha h2
  have hb : Approved author E.targetsFromSlice b := by
    have := (C88_trusted_is_the_authors E D R cfg honest author hsig hE start io io' t h
      (before ++ after)).2.2
    have e : execAll E D R cfg ⟨t, io'⟩ (before ++ after) = s2 := by
      rw [hs2, hs1]; exact List.foldl_append
    rw [e, hr] at this
    exact this htg b h2
  rw [hgone b hb hv] at h3
  cases h3

end

/-! ### Examples -/

namespace Withdrawn

/-- Version 1 lists `w`, version 2 does not. A timestamp and a snapshot of the attacker order version 1. -/
@[reducible] def world : Toy.World where
  roots := [(1, Toy.root 1 1000), (2, Toy.root 2 1000)]
  timestamps := [(10, Toy.timestamp 1 500 1), (11, Toy.timestamp 2 500 2), (12, Toy.timestamp 3 500 3)]
  snapshots := [(20, Toy.snapshot 1 500 [("targets", 1)]), (21, Toy.snapshot 2 500 [("targets", 2)]),
    (22, Toy.snapshot 3 500 [("targets", 1)])]
  targets := [(30, Toy.targets 1 500 [("x", 1), ("w", 1)] none), (31, Toy.targets 2 500 [("x", 1)] none)]

def author (msg : Bytes) : Prop := msg ∈ [[1], [2], [10], [11], [20], [21], [30], [31]]

instance (m) : Decidable (author m) := by unfold author; infer_instance

/-- The attacker has key `d`, and cannot make signatures of key `k`. -/
def env : Env :=
  { world.env with
    ringVerify := fun s value msg sig =>
      world.env.ringVerify s value msg sig && (decide (value ≠ [7]) || decide (author msg)) }

theorem unforgeable : Unforgeable env Attack.honest author := by
  intro s value msg sig hh hv
  unfold Attack.honest at hh
  subst hh
  simpa using (Bool.and_eq_true_iff.1 hv).2

theorem decoders : Decoders env :=
  have h := world.decoders (by decide) (by decide) (by decide) (by decide)
  ⟨h.root, h.timestamp, h.snapshot, h.targets, h.coherent⟩

theorem approved_timestamp (a) (h : Approved author env.timestampFromSlice a) :
    a = Toy.timestamp 1 500 1 ∨ a = Toy.timestamp 2 500 2 := by
  obtain ⟨msg, h1, h2⟩ := h
  simp only [author, List.mem_cons, List.not_mem_nil, or_false] at h1
  rcases h1 with rfl | rfl | rfl | rfl | rfl | rfl | rfl | rfl <;> cases h2
  · exact .inl rfl
  · exact .inr rfl

theorem approved_snapshot (a) (h : Approved author env.snapshotFromSlice a) :
    a = Toy.snapshot 1 500 [("targets", 1)] ∨ a = Toy.snapshot 2 500 [("targets", 2)] := by
  obtain ⟨msg, h1, h2⟩ := h
  simp only [author, List.mem_cons, List.not_mem_nil, or_false] at h1
  rcases h1 with rfl | rfl | rfl | rfl | rfl | rfl | rfl | rfl <;> cases h2
  · exact .inl rfl
  · exact .inr rfl

theorem approved_targets (a) (h : Approved author env.targetsFromSlice a) :
    a = Toy.targets 1 500 [("x", 1), ("w", 1)] none ∨ a = Toy.targets 2 500 [("x", 1)] none := by
  obtain ⟨msg, h1, h2⟩ := h
  simp only [author, List.mem_cons, List.not_mem_nil, or_false] at h1
  rcases h1 with rfl | rfl | rfl | rfl | rfl | rfl | rfl | rfl <;> cases h2
  · exact .inl rfl
  · exact .inr rfl

theorem neverBack : NeverBack env author where
  timestamps a b ha hb hv := by
    rcases approved_timestamp a ha with rfl | rfl <;> rcases approved_timestamp b hb with rfl | rfl <;>
      revert hv <;> decide
  snapshots a b ha hb hv role m n hm hn := by
    have get : ∀ x k, (Toy.snapshot x 500 [("targets", x)]).metas.get? role = some k → k.version = x := by
      intro x k hk
      have := Map.mem_of_get? hk
      have := List.mem_singleton.1 this
      cases this
      rfl
    rcases approved_snapshot a ha with rfl | rfl <;> rcases approved_snapshot b hb with rfl | rfl <;>
      rw [get _ m hm, get _ n hn] <;> revert hv <;> decide

theorem guards (v e) : TimeGuarded Attack.honest (Toy.root v e) := by
  refine ⟨Attack.guarded_all (Nat.le_refl 1) ?_, Attack.guarded_all (Nat.le_refl 1) ?_⟩
  all_goals
    show ∀ k ∈ [Toy.key "k".toList 7], k.value = [7]
    decide +kernel

/-- Version 2 is installed. -/
def install : List Op :=
  [.timestamp (Toy.clk 100) [11], .snapshot (Toy.clk 100) [21], .targets (Toy.clk 100) [31]]

/-- Version 1 is submitted. -/
def back : List Op :=
  [.timestamp (Toy.clk 100) [10], .snapshot (Toy.clk 100) [20], .targets (Toy.clk 100) [30]]

-- Hypotheses of `C123_store`; the attacker tries to go back, also with forged metadata.
example : Fresh env Toy.boot ∧ TimeGuarded Attack.honest (run env Toy.boot install).root ∧
    rootUpdates env (run env Toy.boot install)
      (back ++ [.timestamp (Toy.clk 100) [12], .snapshot (Toy.clk 100) [22], .targets (Toy.clk 100) [30]]) = 0 ∧
    (run env Toy.boot install).targets = some (Toy.targets 2 500 [("x", 1)] none) ∧
    (run env Toy.boot (install ++ (back ++ [.timestamp (Toy.clk 100) [12], .snapshot (Toy.clk 100) [22],
      .targets (Toy.clk 100) [30]]))).targets = some (Toy.targets 2 500 [("x", 1)] none) := by
  refine ⟨.inr ⟨[1], by decide +kernel⟩, ?_, by decide +kernel, by decide +kernel, by decide +kernel⟩
  have : (run env Toy.boot install).root = Toy.root 1 1000 := by decide +kernel
  rw [this]
  exact guards 1 1000

/-- A repository with version 2. -/
def repo : World Toy.Disk :=
  Toy.repos (Toy.files [("timestamp", none, 11), ("snapshot", none, 21), ("targets", none, 31)])
    [("x".toList, [9]), ("w".toList, [9])] 100

def start : Except Err Tuf × Io Toy.Disk :=
  construct env Toy.digest repo Toy.config (.trustedRoot [1]) ⟨Toy.Disk.empty, []⟩

def s1 : St Toy.Disk := execAll env Toy.digest repo Toy.config ⟨Toy.boot, start.2⟩ [.update]
def s2 : St Toy.Disk := execAll env Toy.digest repo Toy.config s1 [.fetchTarget "x".toList, .update]

-- Hypotheses of `C123_client` and `C123_withdrawn`: `w` is no longer listed, though still served.
example : start = (.ok Toy.boot, start.2) ∧ TimeGuarded Attack.honest s1.tuf.root ∧
    TargetsGuarded Attack.honest s1.tuf.root ∧ s2.tuf.root = s1.tuf.root ∧
    s1.tuf.targets = some (Toy.targets 2 500 [("x", 1)] none) ∧
    s2.tuf.targets = some (Toy.targets 2 500 [("x", 1)] none) ∧
    Toy.config.realToVirtual "w".toList = .ok "w".toList ∧
    (∀ m, Approved author env.targetsFromSlice m → 2 ≤ m.version → m.targets.get? "w".toList = none) ∧
    Approved author env.targetsFromSlice (Toy.targets 1 500 [("x", 1), ("w", 1)] none) := by
  have hr : s1.tuf.root = Toy.root 1 1000 := by decide +kernel
  refine ⟨Prod.ext (by decide +kernel) rfl, hr ▸ guards 1 1000, hr ▸ (Attack.root_guarded 1 1000).2,
    by decide +kernel, by decide +kernel, by decide +kernel, by decide +kernel, fun m hm hv => ?_,
    ⟨[30], by decide, by decide +kernel⟩⟩
  rcases approved_targets m hm with rfl | rfl
  · exact absurd hv (by decide)
  · decide +kernel

end Withdrawn

/-- **C123.** That the root stays is needed: after the author replaces the root, without removing any key,
old metadata of the author is accepted again. -/
theorem C123_new_root_forgets : ∃ (E : Env) (honest : Scheme → Bytes → Prop) (author : Bytes → Prop) (t : Tuf)
    (before after : List Op) (a b : TargetsMetadata),
    Unforgeable E honest author ∧ NeverBack E author ∧ Decoders E ∧ Fresh E t ∧
    (∀ r, Approved author E.rootFromSlice r → TimeGuarded honest r) ∧
    rootUpdates E (run E t before) after = 1 ∧
    (run E t (before ++ after)).root = { t.root with version := t.root.version + 1 } ∧
    (run E t before).targets = some a ∧ (run E t (before ++ after)).targets = some b ∧
    b.version < a.version := by
  refine ⟨Withdrawn.env, Attack.honest, Withdrawn.author, Toy.boot, Withdrawn.install,
    .root [2] :: Withdrawn.back, Toy.targets 2 500 [("x", 1)] none,
    Toy.targets 1 500 [("x", 1), ("w", 1)] none, Withdrawn.unforgeable, Withdrawn.neverBack,
    Withdrawn.decoders, .inr ⟨[1], by decide +kernel⟩, fun r hr => ?_, by decide +kernel, by decide +kernel,
    by decide +kernel, by decide +kernel, by decide⟩
  obtain ⟨msg, h1, h2⟩ := hr
  simp only [Withdrawn.author, List.mem_cons, List.not_mem_nil, or_false] at h1
  rcases h1 with rfl | rfl | rfl | rfl | rfl | rfl | rfl | rfl <;> cases h2
  · exact Withdrawn.guards 1 1000
  · exact Withdrawn.guards 2 1000

end RustTuf.Props
