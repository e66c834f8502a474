import Verif.Spec.Live
import Verif.Lemmas.Timed
import Verif.Props.Withdrawn

/-!
# C127: clients that start later never see expired releases
-/

namespace RustTuf.Props
open Client Spec RustTuf Tuf

namespace Live

/-- A timestamp with enough signatures for the root, not expired at `time`, announces this version. -/
def AnnS (E : Env) (time : Time) (r : RootMetadata) (v : Nat) : Prop :=
  ∃ ts raw, Authentic E E.timestampFromSlice raw r.timestamp.threshold (timestampSigners r) ts ∧
    time < ts.expires ∧ ts.snapshot.version = v

/-- The same for what a snapshot lists. -/
def AnnR (E : Env) (time : Time) (r : RootMetadata) (role : MetadataPath) (v : Nat) : Prop :=
  ∃ sn m raw, Authentic E E.snapshotFromSlice raw r.snapshot.threshold (snapshotSigners r) sn ∧
    time < sn.expires ∧ AnnS E time r sn.version ∧ sn.metas.get? role = some m ∧ m.version = v

structure Inv (E : Env) (time : Time) (t : Tuf) : Prop where
  timestamp : ∀ ts, t.timestamp = some ts → (∃ raw, Authentic E E.timestampFromSlice raw
    t.root.timestamp.threshold (timestampSigners t.root) ts) ∧ time < ts.expires
  snapshot : ∀ sn, t.snapshot = some sn → (∃ raw, Authentic E E.snapshotFromSlice raw
    t.root.snapshot.threshold (snapshotSigners t.root) sn) ∧ AnnS E time t.root sn.version
  targets : ∀ ta, t.targets = some ta → time < ta.expires ∧ AnnR E time t.root targetsName ta.version
  delegated : ∀ role ta, t.delegations.get? role = some ta → time < ta.expires ∧
    AnnR E time t.root role ta.version

theorem inv_ofRoot (E : Env) (time : Time) (r : RootMetadata) : Inv E time (ofRoot r) :=
  ⟨fun _ h => (by cases h), fun _ h => (by cases h), fun _ h => (by cases h), fun _ _ h => (by cases h)⟩

theorem inv_step (E : Env) (time : Time) (t : Tuf) (o : Op) (ho : CalledFrom time o) (h : Inv E time t) :
    Inv E time (step E t o).2 := by
  have hc := step_case E t o
  generalize (step E t o).1 = o1 at hc
  generalize (step E t o).2 = t2 at hc
  cases hc with
  | failed | same => exact h
  | root raw new hr => exact inv_ofRoot E time new
  | timestamp clk raw new hr =>
    refine ⟨fun ts hts => ?_, fun sn hsn => ?_, h.targets, h.delegated⟩
    · cases hts
      exact ⟨⟨raw, hr.signed⟩, Int.lt_of_le_of_lt (ho _) hr.unexpired⟩
    · simp only at hsn
      split at hsn
      · exact h.snapshot sn hsn
      · cases hsn
  | timestampExpired => exact ⟨h.timestamp, fun _ h => (by cases h), h.targets, h.delegated⟩
  | snapshot clk raw new t' hr hp =>
    refine ⟨fun ts hts => ?_, fun sn hsn => ?_, fun ta hta => ?_, fun role ta hta => ?_⟩
    · rw [hp.timestamp] at hts
      rw [hp.root]
      exact h.timestamp ts hts
    · rw [hp.snapshot] at hsn
      cases hsn
      rw [hp.root]
      obtain ⟨ts, f1, -, -, f2⟩ := hr.announced
      obtain ⟨⟨tsRaw, g1⟩, g2⟩ := h.timestamp ts f1
      exact ⟨⟨raw, hr.signed⟩, ts, tsRaw, g1, g2, f2.symm⟩
    · rw [hp.root]
      by_cases hl : verOf (·.version) t.targets = listed new targetsName
      · rw [hp.targetsKept hl] at hta; exact h.targets ta hta
      · rw [hp.targetsDropped hl] at hta; cases hta
    · rw [hp.root]
      exact h.delegated role ta ((hp.delegations role ta).1 hta).1
  | targets clk raw new hr =>
    refine ⟨h.timestamp, h.snapshot, fun ta hta => ?_, h.delegated⟩
    cases hta
    obtain ⟨sn, m, f1, f2, f3, -, f4⟩ := hr.announced
    obtain ⟨⟨snRaw, g1⟩, g2⟩ := h.snapshot sn f1
    exact ⟨Int.lt_of_le_of_lt (ho _) hr.unexpired, sn, m, snRaw, g1, Int.lt_of_le_of_lt (ho _) f2, g2, f3,
      f4.symm⟩
  | delegation clk parent role raw new hr =>
    refine ⟨h.timestamp, h.snapshot, h.targets, fun role' ta hta => ?_⟩
    simp only at hta
    by_cases hro : role' = role
    · subst hro
      rw [Map.get?_insert, if_pos rfl] at hta
      cases hta
      obtain ⟨m, ⟨-, ⟨sn, f1, f2, f3⟩, -⟩, -, f4⟩ := hr.context
      obtain ⟨⟨snRaw, g1⟩, g2⟩ := h.snapshot sn f1
      exact ⟨Int.lt_of_le_of_lt (ho _) hr.unexpired, sn, m, snRaw, g1, Int.lt_of_le_of_lt (ho _) f2, g2, f3,
        f4.symm⟩
    · rw [Map.get?_insert, if_neg hro] at hta
      exact h.delegated role' ta hta

section
variable {E : Env} {honest : Scheme → Bytes → Prop} {author : Bytes → Prop}
  (hsig : Unforgeable E honest author) {time : Time} {r : RootMetadata} (hg : TimeGuarded honest r)
include hsig hg

theorem annS {v : Nat} (h : AnnS E time r v) : LiveSnapshot E author time v := by
  obtain ⟨ts, raw, h1, h2, h3⟩ := h
  exact ⟨ts, C88_authentic_is_approved hsig _ raw _ _ ts hg.1 h1, h2, h3⟩

theorem annR {role : MetadataPath} {v : Nat} (h : AnnR E time r role v) : LiveRole E author time role v := by
  obtain ⟨sn, m, raw, h1, h2, h3, h4, h5⟩ := h
  exact ⟨sn, m, C88_authentic_is_approved hsig _ raw _ _ sn hg.2 h1, h2, annS hsig hg h3, h4, h5⟩

end

end Live

section
variable {E : Env} {honest : Scheme → Bytes → Prop} {author : Bytes → Prop}
  (hsig : Unforgeable E honest author) (hE : Decoders E) (time : Time)
include hsig

theorem trustsLive {t : Tuf} (h : Live.Inv E time t) (hg : TimeGuarded honest t.root) :
    TrustsLive E author time t where
  timestamp ts hts := by
    obtain ⟨⟨raw, h1⟩, h2⟩ := h.timestamp ts hts
    exact ⟨C88_authentic_is_approved hsig _ raw _ _ ts hg.1 h1, h2⟩
  snapshot sn hsn := by
    obtain ⟨⟨raw, h1⟩, h2⟩ := h.snapshot sn hsn
    exact ⟨C88_authentic_is_approved hsig _ raw _ _ sn hg.2 h1, Live.annS hsig hg h2⟩
  targets ta hta := (h.targets ta hta).imp id fun x => Live.annR hsig hg x
  delegated role ta hta := (h.delegated role ta hta).imp id fun x => Live.annR hsig hg x

include hE

/-- **C127.** Whatever is submitted to a store from some time on: it trusts only an unexpired timestamp, a
snapshot that an unexpired timestamp of the author announces, and unexpired metadata in versions that an
unexpired snapshot of the author lists which is announced in this way. The attacker must have less than a
threshold of the timestamp keys and of the snapshot keys of the trusted root. -/
theorem C127_store (t : Tuf) (hf : Fresh E t) (ops : List Op) (hops : ∀ o ∈ ops, CalledFrom time o)
    (hg : TimeGuarded honest (run E t ops).root) : TrustsLive E author time (run E t ops) := by
  refine trustsLive hsig time ?_ hg
  obtain ⟨r, rfl, -⟩ := Fresh.eq E hE t hf
  clear hg
  induction ops using List.reverseRecOn with
  | nil => exact Live.inv_ofRoot E time r
  | append_singleton ops o ih =>
    rw [run_snoc]
    exact Live.inv_step E time _ o (hops o (by simp)) (ih fun o ho => hops o (by simp [ho]))

variable {W : Type} (D : Digest) (R : World W) (cfg : Config) (hR : NotBefore R time)
include hR

/-- **C127.** The same for a client that is started at this time or later, whatever the attacker does, and also
if the client starts with the files that an earlier one has left in the local repository. -/
theorem C127_client (start : Start) (io io' : Io W) (t : Tuf)
    (h : construct E D R cfg start io = (.ok t, io')) (calls : List Call)
    (hg : TimeGuarded honest (execAll E D R cfg ⟨t, io'⟩ calls).tuf.root) :
    TrustsLive E author time (execAll E D R cfg ⟨t, io'⟩ calls).tuf := by
  refine trustsLive hsig time ?_ hg
  have timed : Timed E R (fun clk => ∀ site, time ≤ clk site) (Live.Inv E time) :=
    ⟨hR, fun t o ho ht => Live.inv_step E time t o (by cases o <;> exact ho) ht⟩
  refine timed.execAll calls ⟨t, io'⟩ ?_
  have fin : ∀ (t0 : Tuf) (io1 : Io W), Fresh E t0 → Client.new E D R cfg t0 io1 = (.ok t, io') →
      Live.Inv E time t := by
    intro t0 io1 hf hn
    obtain ⟨r, rfl, -⟩ := Fresh.eq E hE t0 hf
    exact timed.new _ t io1 io' (Live.inv_ofRoot E time r) hn
  cases start with
  | trustedRoot raw =>
    obtain ⟨t0, io1, h1, h2⟩ := bind_ok h
    cases hf : Tuf.fromTrustedRoot E raw with
    | error e => rw [hf] at h1; cases h1
    | ok x => rw [hf] at h1; cases h1; exact fin _ _ (.inr ⟨raw, hf⟩) h2
  | trustedLocal =>
    obtain ⟨raw, io1, _, h2⟩ := bind_ok h
    obtain ⟨t0, io2, h1, h2⟩ := bind_ok h2
    cases hf : Tuf.fromTrustedRoot E raw with
    | error e => rw [hf] at h1; cases h1
    | ok x => rw [hf] at h1; cases h1; exact fin _ _ (.inr ⟨raw, hf⟩) h2
  | trustedRootKeys v n keys =>
    obtain ⟨⟨fetched, raw⟩, io1, _, h2⟩ := bind_ok h
    obtain ⟨t0, io2, h1, h2⟩ := bind_ok h2
    obtain ⟨_, io3, _, h3⟩ := bind_ok h2
    cases hf : Tuf.fromRootWithTrustedKeys E raw n keys with
    | error e => rw [hf] at h1; cases h1
    | ok x => rw [hf] at h1; cases h1; exact fin _ _ (.inl ⟨raw, n, keys, hf⟩) h3

/-- **C127.** So a client that is started at this time or later delivers, stores and describes no target that
the author lists only in targets metadata that have expired or that belong to expired releases. -/
theorem C127_expired_releases_are_gone (start : Start) (io io' : Io W) (t : Tuf)
    (h : construct E D R cfg start io = (.ok t, io')) (calls : List Call)
    (s s' : St W) (hs : s = execAll E D R cfg ⟨t, io'⟩ calls)
    (hg : TimeGuarded honest s.tuf.root) (htg : TargetsGuarded honest s.tuf.root)
    (path : TargetPath) (virt : VirtualTargetPath) (hvirt : cfg.realToVirtual path = .ok virt)
    (hgone : ∀ m, Approved author E.targetsFromSlice m → time < m.expires →
      LiveRole E author time targetsName m.version → m.targets.get? virt = none)
    (call : Call)
    (hcall : call = .fetchTarget path ∨ call = .fetchTargetToWriter path ∨ call = .fetchTargetDescription path)
    (reply : Reply) : exec E D R cfg call s ≠ (.ok reply, s') := by
  intro hok
  obtain ⟨d, virt', b, h1, h2, h3⟩ := asked_is_listed D R cfg hcall hok
  rw [hvirt] at h1
  cases h1
  have hl := (C127_client hsig hE time D R cfg hR start io io' t h calls (by rw [← hs]; exact hg)).targets b
    (by rw [← hs]; exact h2)
  have hb := (C88_trusted_is_the_authors E D R cfg honest author hsig hE start io io' t h calls).2.2
    (by rw [← hs]; exact htg) b (by rw [← hs]; exact h2)
  rw [hgone b hb hl.1 hl.2] at h3
  cases h3

end

/-! ### Examples -/

namespace Live

/-- The first release lists `w`, and its timestamp expires at 200. The second one does not list `w`. -/
@[reducible] def world : Toy.World where
  roots := [(1, Toy.root 1 1000)]
  timestamps := [(10, Toy.timestamp 1 200 1), (11, Toy.timestamp 2 500 2)]
  snapshots := [(20, Toy.snapshot 1 500 [("targets", 1)]), (21, Toy.snapshot 2 500 [("targets", 2)])]
  targets := [(30, Toy.targets 1 500 [("x", 1), ("w", 1)] none), (31, Toy.targets 2 500 [("x", 1)] none)]

def author (msg : Bytes) : Prop := msg ∈ [[1], [10], [11], [20], [21], [30], [31]]

instance (m) : Decidable (author m) := by unfold author; infer_instance

/-- The attacker has key `d`, and cannot make signatures of key `k`. -/
def env : Env :=
  { world.env with
    ringVerify := fun s value msg sig =>
      world.env.ringVerify s value msg sig && (decide (value ≠ [7]) || decide (author msg)) }

theorem unforgeable : Unforgeable env Attack.honest author := by
  intro s value msg sig hh hv
  unfold Attack.honest at hh
  subst hh
  simpa using (Bool.and_eq_true_iff.1 hv).2

theorem decoders : Decoders env :=
  have h := world.decoders (by decide) (by decide) (by decide) (by decide)
  ⟨h.root, h.timestamp, h.snapshot, h.targets, h.coherent⟩

/-- What is served at 300 and found in the local repository; either release. -/
def files (ts sn ta : UInt8) : Map (MetadataPath × MetadataVersion) Bytes :=
  Toy.files [("timestamp", none, ts), ("snapshot", none, sn), ("targets", none, ta)]
def repo (ts sn ta : UInt8) (now : Time) : World Toy.Disk :=
  Toy.repos (files ts sn ta) [("x".toList, [9]), ("w".toList, [9])] now

/-- A client is started at 300 with the local repository of a client that has followed the first release
at 100. -/
def old : St Toy.Disk :=
  execAll env Toy.digest (repo 10 20 30 100) Toy.config ⟨Toy.boot, ⟨Toy.Disk.empty, []⟩⟩ [.update]
def start : Except Err Tuf × Io Toy.Disk :=
  construct env Toy.digest (repo 11 21 31 300) Toy.config (.trustedRoot [1]) ⟨old.io.w, []⟩
def s : St Toy.Disk := execAll env Toy.digest (repo 11 21 31 300) Toy.config ⟨Toy.boot, start.2⟩ [.update]

theorem gone (m) (hm : Approved author env.targetsFromSlice m)
    (hl : LiveRole env author 300 targetsName m.version) : m.targets.get? "w".toList = none := by
  obtain ⟨sn, d, h1, -, ⟨ts, h2, h3, h4⟩, h5, h6⟩ := hl
  have e2 : ts = Toy.timestamp 2 500 2 := by
    obtain ⟨msg, k1, k2⟩ := h2
    simp only [author, List.mem_cons, List.not_mem_nil, or_false] at k1
    rcases k1 with rfl | rfl | rfl | rfl | rfl | rfl | rfl <;> cases k2
    · exact absurd h3 (by decide)
    · rfl
  subst e2
  have e1 : sn = Toy.snapshot 2 500 [("targets", 2)] := by
    obtain ⟨msg, k1, k2⟩ := h1
    simp only [author, List.mem_cons, List.not_mem_nil, or_false] at k1
    rcases k1 with rfl | rfl | rfl | rfl | rfl | rfl | rfl <;> cases k2
    · exact absurd h4 (by decide)
    · rfl
  subst e1
  have e3 : d.version = 2 := by
    have := List.mem_singleton.1 (Map.mem_of_get? h5)
    cases this
    rfl
  obtain ⟨msg, k1, k2⟩ := hm
  simp only [author, List.mem_cons, List.not_mem_nil, or_false] at k1
  rcases k1 with rfl | rfl | rfl | rfl | rfl | rfl | rfl <;> cases k2
  · exact absurd (h6.symm.trans e3) (by decide)
  · decide +kernel

-- Hypotheses of `C127_client` and `C127_expired_releases_are_gone`. The earlier client has trusted metadata that
-- list `w`. The new one finds them and does not trust them.
example : NotBefore (repo 11 21 31 300) 300 ∧ start = (.ok Toy.boot, start.2) ∧
    old.tuf.targets = some (Toy.targets 1 500 [("x", 1), ("w", 1)] none) ∧
    TimeGuarded Attack.honest s.tuf.root ∧ TargetsGuarded Attack.honest s.tuf.root ∧
    s.tuf.targets = some (Toy.targets 2 500 [("x", 1)] none) ∧
    Toy.config.realToVirtual "w".toList = .ok "w".toList ∧
    Approved author env.targetsFromSlice (Toy.targets 1 500 [("x", 1), ("w", 1)] none) := by
  have hr : s.tuf.root = Toy.root 1 1000 := by decide +kernel
  exact ⟨fun _ _ => Int.le_refl _, Prod.ext (by decide +kernel) rfl, by decide +kernel, hr ▸ Withdrawn.guards 1 1000,
    hr ▸ (Attack.root_guarded 1 1000).2, by decide +kernel, by decide +kernel, [30], by decide, by decide +kernel⟩

-- Hypotheses of `C127_store`; the first release is submitted before the second one.
example : Fresh env Toy.boot ∧ (∀ o ∈ ([.timestamp (Toy.clk 300) [10], .snapshot (Toy.clk 300) [20],
      .timestamp (Toy.clk 300) [11], .snapshot (Toy.clk 300) [21], .targets (Toy.clk 300) [31]] : List Op),
      CalledFrom 300 o) ∧
    (run env Toy.boot [.timestamp (Toy.clk 300) [10], .snapshot (Toy.clk 300) [20],
      .timestamp (Toy.clk 300) [11], .snapshot (Toy.clk 300) [21], .targets (Toy.clk 300) [31]]).targets =
      some (Toy.targets 2 500 [("x", 1)] none) := by
  refine ⟨.inr ⟨[1], by decide +kernel⟩, fun o ho => ?_, by decide +kernel⟩
  simp only [List.mem_cons, List.not_mem_nil, or_false] at ho
  rcases ho with rfl | rfl | rfl | rfl | rfl <;> exact fun _ => Int.le_refl _

end Live

/-- **C127.** A client that is not restarted can go on with an expired release: the attacker need only withhold
later ones. -/
theorem C127_running_clients_are_not_covered : ∃ (E : Env) (D : Digest) (R R' : World Toy.Disk) (cfg : Config)
    (honest : Scheme → Bytes → Prop) (author : Bytes → Prop) (t : Tuf) (s s' : St Toy.Disk) (ts : TimestampMetadata),
    Unforgeable E honest author ∧ Decoders E ∧ Fresh E t ∧ TimeGuarded honest t.root ∧
    s = execAll E D R cfg ⟨t, ⟨Toy.Disk.empty, []⟩⟩ [.update] ∧ NotBefore R' 300 ∧
    s.tuf.timestamp = some ts ∧ ts.expires < 300 ∧ s.tuf.root = t.root ∧
    exec E D R' cfg (.fetchTarget "w".toList) s = (.ok .done, s') := by
  refine ⟨Live.env, Toy.digest, Live.repo 10 20 30 100, Live.repo 10 20 30 300, Toy.config, Attack.honest, Live.author,
    Toy.boot, Live.old, (exec Live.env Toy.digest (Live.repo 10 20 30 300) Toy.config (.fetchTarget "w".toList)
      Live.old).2, Toy.timestamp 1 200 1, Live.unforgeable, Live.decoders, .inr ⟨[1], by decide +kernel⟩,
    Withdrawn.guards 1 1000, rfl, fun _ _ => Int.le_refl _, by decide +kernel, by decide, by decide +kernel,
    Prod.ext (by decide +kernel) rfl⟩

end RustTuf.Props
