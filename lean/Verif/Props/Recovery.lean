import Verif.Spec.Recovery
import Verif.Props.Adversary
import Verif.Props.ClientHonest

/-!
# C90: Clients recover from lost keys
-/

namespace RustTuf.Props
open RustTuf RustTuf.Client RustTuf.Spec

section
variable {W : Type} (E : Env) (hE : Decoders E) (D : Digest) (R : World W) (cfg : Config) (file : Files)
  (r : RootMetadata) (ts : TimestampMetadata) (sn : SnapshotMetadata) (ta : TargetsMetadata)
include hE

/-- **C90.** A new root makes clients forget: whatever timestamp, snapshot and targets metadata a client
trusts, also of the largest versions, if its root is older than the last one that an honestly published
repository leads to, then `update` succeeds and the client trusts exactly what is published. -/
theorem C90_new_root_recovers (s : St W) (hr : Reachable E s.tuf) (hold : s.tuf.root.version < r.version)
    (hS : Serves R file) (hW : Writable R) (hroots : Roots E cfg file s.tuf.root r)
    (hp : Published E D cfg file r ts sn ta)
    (hclk : Before R r.expires ∧ Before R ts.expires ∧ Before R sn.expires ∧ Before R ta.expires) :
    ∃ b s', update E D R cfg s = (.ok b, s') ∧ s'.tuf.root = r ∧ s'.tuf.timestamp = some ts ∧
      s'.tuf.snapshot = some sn ∧ s'.tuf.targets = some ta :=
  honest_update E hE D R cfg file s hr r ts sn ta hS hW hroots hp
    (fun e => absurd hold (by rw [e]; exact Nat.lt_irrefl _)) hclk

/-- **C90.** Clients recover once lost keys are replaced. Let an attacker have any keys, but less than a
threshold of the root keys of the root that a client trusts and of each later root of the author. Let
the client do anything in a world that the attacker controls. If the author then publishes, under a root
such that the attacker has less than a threshold of the keys of each role, the newest metadata the author
has approved of, then the next `update` from that repository succeeds, and the client trusts exactly
what is published. It does not matter which keys of earlier roots the attacker has, what the client has
accepted from the attacker, and whether the client knows the last root already. -/
theorem C90_replaced_keys_recover (honest : Scheme → Bytes → Prop) (author : Bytes → Prop)
    (hsig : Unforgeable E honest author) (Rbad : World W) (s0 s : St W) (hr : Reachable E s0.tuf)
    (calls : List Call) (hs : s = execAll E D Rbad cfg s0 calls)
    (hnow : RootGuarded honest s0.tuf.root)
    (hlater : ∀ a, Approved author E.rootFromSlice a → s0.tuf.root.version < a.version →
      RootGuarded honest a)
    (hS : Serves R file) (hW : Writable R)
    (hroots : ∀ a, (a = s0.tuf.root ∨ Approved author E.rootFromSlice a ∧ s0.tuf.root.version < a.version) →
      Roots E cfg file a r)
    (hp : Published E D cfg file r ts sn ta) (hg : RolesGuarded honest r)
    (hn : Newest E author ts sn ta)
    (hclk : Before R r.expires ∧ Before R ts.expires ∧ Before R sn.expires ∧ Before R ta.expires) :
    ∃ b s', update E D R cfg s = (.ok b, s') ∧ s'.tuf.root = r ∧ s'.tuf.timestamp = some ts ∧
      s'.tuf.snapshot = some sn ∧ s'.tuf.targets = some ta := by
  have hroot := C88_roots_are_the_authors E D Rbad cfg honest author hsig s0 calls hnow hlater
  rw [← hs] at hroot
  have hreach : Reachable E s.tuf := by
    obtain ⟨l, _, _, h2⟩ := execAll_tr (E := E) (D := D) (R := Rbad) (cfg := cfg) (t0 := s0.tuf)
      (L0 := s0.io.log) calls s0 ⟨[], by simp, Good.nil, rfl⟩
    obtain ⟨t0, ops, h0, h1⟩ := hr
    refine ⟨t0, ops ++ opsOf l, h0, ?_⟩
    rw [hs, h2, h1, run_append]
    rfl
  refine honest_update E hE D R cfg file s hreach r ts sn ta hS hW (hroots _ hroot) hp (fun e => ?_) hclk
  obtain ⟨t0, ops, h0, h1⟩ := hreach
  obtain ⟨a1, a2, a3⟩ := C19_signed_under_current_root E hE t0 h0 ops
  rw [← h1] at a1 a2 a3
  rw [e] at a1 a2 a3
  refine ⟨fun x _ hx => hn.timestamp x ?_, fun x hx => hn.snapshot x ?_, fun x hx => hn.targets x ?_⟩
  · obtain ⟨raw, h⟩ := a1 x hx
    exact C88_authentic_is_approved hsig _ raw _ _ x hg.timestamp h
  · obtain ⟨raw, h⟩ := a2 x hx
    exact C88_authentic_is_approved hsig _ raw _ _ x hg.snapshot h
  · obtain ⟨raw, h⟩ := a3 x hx
    exact C88_authentic_is_approved hsig _ raw _ _ x hg.targets h

end

/-! ### Examples -/

namespace Attack

/-- A role held by key `d`, which the attacker has. -/
def byD : RoleDefinition := { threshold := 1, keyIds := ["d".toList] }
/-- Root 1, with the lost timestamp key. -/
def root1 : RootMetadata := { Toy.root 1 1000 with timestamp := byD }
/-- The author's snapshot and targets metadata. -/
def sn : SnapshotMetadata := Toy.snapshot 1 500 [("targets", 1)]
def ta : TargetsMetadata := Toy.targets 1 500 [("x", 1)] none

/-- The author makes root 1, root 2 and timestamp 1; the attacker makes a timestamp of the largest
version. -/
@[reducible] def lost : Toy.World where
  roots := [(1, root1), (2, Toy.root 2 1000)]
  timestamps := [(10, Toy.timestamp 1 500 1), (11, Toy.timestamp 4294967295 500 1)]
  snapshots := [(20, sn)]
  targets := [(30, ta)]

/-- Signatures of key `k` over anything but the author's documents cannot be made. -/
def lostEnv : Env :=
  { lost.env with
    ringVerify := fun s value msg sig =>
      lost.env.ringVerify s value msg sig && (decide (value ≠ [7]) || decide (author msg)) }

theorem lost_unforgeable : Unforgeable lostEnv honest author := by
  intro s value msg sig hh hv
  unfold honest at hh
  subst hh
  have := (Bool.and_eq_true_iff.1 hv).2
  simpa using this

theorem lost_decoders : Decoders lostEnv :=
  have h := lost.decoders (by decide) (by decide) (by decide) (by decide)
  ⟨h.root, h.timestamp, h.snapshot, h.targets, h.coherent⟩

/-- The author's repository with the new root, and without it. -/
def newFiles : Map (MetadataPath × MetadataVersion) Bytes :=
  Toy.files [("root", some 2, 2), ("timestamp", none, 10), ("snapshot", none, 20), ("targets", none, 30)]
def oldFiles : Map (MetadataPath × MetadataVersion) Bytes :=
  Toy.files [("timestamp", none, 10), ("snapshot", none, 20), ("targets", none, 30)]
/-- The attacker's repository. -/
def badFiles : Map (MetadataPath × MetadataVersion) Bytes :=
  Toy.files [("timestamp", none, 11), ("snapshot", none, 20), ("targets", none, 30)]

def c0 : St Toy.Disk := ⟨⟨root1, none, none, none, []⟩, ⟨Toy.Disk.empty, []⟩⟩
/-- The client after an update from the attacker's repository. -/
def c1 : St Toy.Disk := execAll lostEnv Toy.digest (Toy.repos badFiles [] 100) Toy.config c0 [.update]

theorem c1_tuf : c1.tuf = ⟨root1, some sn, some ta, some (Toy.timestamp 4294967295 500 1), []⟩ := by
  decide +kernel

theorem c0_reachable : Reachable lostEnv c0.tuf :=
  ⟨_, [], .inr ⟨[1], by decide +kernel⟩, rfl⟩

theorem lost_roots (a) (h : Approved author lostEnv.rootFromSlice a) : a = root1 ∨ a = Toy.root 2 1000 := by
  obtain ⟨msg, h1, h2⟩ := h
  simp only [author, List.mem_cons, List.not_mem_nil, or_false] at h1
  rcases h1 with rfl | rfl | rfl | rfl | rfl
  · exact .inl (by cases h2; rfl)
  · exact .inr (by cases h2; rfl)
  all_goals cases h2

theorem root1_guarded : RootGuarded honest root1 := (root_guarded 1 1000).1

theorem published_under (r : RootMetadata) (files : Map (MetadataPath × MetadataVersion) Bytes)
    (h : r = root1 ∨ r = Toy.root 2 1000) (hf : files = newFiles ∨ files = oldFiles) :
    Published lostEnv Toy.digest Toy.config (fun p v => files.get? (p, v)) r (Toy.timestamp 1 500 1) sn ta := by
  rcases h with rfl | rfl <;> rcases hf with rfl | rfl <;>
  refine ⟨⟨[10], by decide +kernel, ⟨by decide, fun n h => by cases h; decide⟩,
        (verifySignatures_ok_iff ..).1 (by decide +kernel)⟩,
      ⟨[20], by decide +kernel, ⟨⟨by decide, fun n h => by cases h; decide⟩, .sha256, by decide +kernel,
        .inr ⟨rfl, by decide +kernel⟩⟩, (verifySignatures_ok_iff ..).1 (by decide +kernel)⟩, rfl,
      ⟨[30], Toy.descr 1, by decide +kernel, rfl, by decide +kernel,
        ⟨⟨by decide, fun n h => by cases h; decide⟩, .sha256, by decide +kernel,
        .inr ⟨rfl, by decide +kernel⟩⟩, (verifySignatures_ok_iff ..).1 (by decide +kernel)⟩⟩

theorem newest : Newest lostEnv author (Toy.timestamp 1 500 1) sn ta := by
  refine ⟨?_, ?_, ?_⟩ <;> rintro x ⟨msg, h1, h2⟩ <;>
    simp only [author, List.mem_cons, List.not_mem_nil, or_false] at h1 <;>
    rcases h1 with rfl | rfl | rfl | rfl | rfl <;> cases h2
  · exact .inl rfl
  · exact fun _ => rfl
  · exact fun _ => rfl

theorem before (files) (e : Time) (h : 100 < e) : Before (Toy.repos files [] 100) e := fun _ _ => h

/-- The hypotheses of C90_replaced_keys_recover: the client has accepted the attacker's timestamp, and
root 2 replaces the key. -/
example : Unforgeable lostEnv honest author ∧ Decoders lostEnv ∧ Reachable lostEnv c0.tuf ∧
    c1.tuf.timestamp = some (Toy.timestamp 4294967295 500 1) ∧ RootGuarded honest c0.tuf.root ∧
    (∀ a, Approved author lostEnv.rootFromSlice a → c0.tuf.root.version < a.version →
      RootGuarded honest a) ∧
    Serves (Toy.repos newFiles [] 100) (fun p v => newFiles.get? (p, v)) ∧
    Writable (Toy.repos newFiles [] 100) ∧
    (∀ a, (a = c0.tuf.root ∨ Approved author lostEnv.rootFromSlice a ∧ c0.tuf.root.version < a.version) →
      Roots lostEnv Toy.config (fun p v => newFiles.get? (p, v)) a (Toy.root 2 1000)) ∧
    Published lostEnv Toy.digest Toy.config (fun p v => newFiles.get? (p, v)) (Toy.root 2 1000)
      (Toy.timestamp 1 500 1) sn ta ∧
    RolesGuarded honest (Toy.root 2 1000) ∧ Newest lostEnv author (Toy.timestamp 1 500 1) sn ta ∧
    Before (Toy.repos newFiles [] 100) 1000 ∧ Before (Toy.repos newFiles [] 100) 500 := by
  have hg := (root_guarded 2 1000).2
  refine ⟨lost_unforgeable, lost_decoders, c0_reachable, by rw [c1_tuf], root1_guarded, ?_,
    toy_serves _ _ _ _ fun _ _ => rfl, fun _ _ _ _ => rfl, ?_, published_under _ _ (.inr rfl) (.inl rfl),
    ⟨hg, hg, hg⟩, newest, before _ _ (by decide), before _ _ (by decide)⟩
  · intro a ha _
    rcases lost_roots a ha with rfl | rfl
    · exact root1_guarded
    · exact (root_guarded 2 1000).1
  · intro a ha
    have : a = root1 ∨ a = Toy.root 2 1000 := by
      rcases ha with rfl | ⟨ha, _⟩
      · exact .inl rfl
      · exact lost_roots a ha
    have last : Roots lostEnv Toy.config (fun p v => newFiles.get? (p, v)) (Toy.root 2 1000)
        (Toy.root 2 1000) := .last _ (by decide +kernel) (by decide +kernel)
    rcases this with rfl | rfl
    · exact .next _ (Toy.root 2 1000) _ [2] (by decide +kernel)
        ⟨by decide, fun n h => by cases h; decide⟩ ((verifySignatures_ok_iff ..).1 (by decide +kernel))
        ((verifySignatures_ok_iff ..).1 (by decide +kernel)) rfl last
    · exact last

end Attack

/-- **C90.** A new root is needed: if the attacker has a threshold of timestamp keys and none of the others,
and the author goes on with the same root, then a client that has accepted the attacker's timestamp of
the largest version cannot update from the author's repository any more: each `update` fails and changes
nothing that is trusted. -/
theorem C90_without_new_root_stuck : ∃ (E : Env) (D : Digest) (R : World Toy.Disk) (cfg : Config)
    (file : Files) (honest : Scheme → Bytes → Prop) (author : Bytes → Prop) (s : St Toy.Disk)
    (ts : TimestampMetadata) (sn : SnapshotMetadata) (ta : TargetsMetadata),
    Unforgeable E honest author ∧ Decoders E ∧ Reachable E s.tuf ∧ RootGuarded honest s.tuf.root ∧
    Guarded honest s.tuf.root.snapshot.threshold (snapshotSigners s.tuf.root) ∧
    TargetsGuarded honest s.tuf.root ∧ Serves R file ∧ Writable R ∧
    Roots E cfg file s.tuf.root s.tuf.root ∧ Published E D cfg file s.tuf.root ts sn ta ∧
    Newest E author ts sn ta ∧ Before R s.tuf.root.expires ∧ Before R ts.expires ∧
    Before R sn.expires ∧ Before R ta.expires ∧
    ∀ io, (update E D R cfg ⟨s.tuf, io⟩).1 = .error .verification ∧ (update E D R cfg ⟨s.tuf, io⟩).2.tuf = s.tuf := by
  refine ⟨Attack.lostEnv, Toy.digest, Toy.repos Attack.oldFiles [] 100, Toy.config,
    fun p v => Attack.oldFiles.get? (p, v), Attack.honest, Attack.author, Attack.c1, Toy.timestamp 1 500 1,
    Attack.sn, Attack.ta, Attack.lost_unforgeable, Attack.lost_decoders, ?_, ?_⟩
  · obtain ⟨l, _, _, h2⟩ := execAll_tr (E := Attack.lostEnv) (D := Toy.digest)
      (R := Toy.repos Attack.badFiles [] 100) (cfg := Toy.config) (t0 := Attack.c0.tuf) (L0 := [])
      [.update] Attack.c0 ⟨[], by simp [Attack.c0], Good.nil, rfl⟩
    obtain ⟨t0, ops, h0, h1⟩ := Attack.c0_reachable
    refine ⟨t0, ops ++ opsOf l, h0, ?_⟩
    rw [Attack.c1, h2, h1, run_append]
    rfl
  rw [Attack.c1_tuf]
  have hg := (Attack.root_guarded 1 1000).2
  exact ⟨Attack.root1_guarded, hg, hg, toy_serves _ _ _ _ fun _ _ => rfl, fun _ _ _ _ => rfl,
    .last _ (by decide +kernel) (by decide +kernel), Attack.published_under _ _ (.inl rfl) (.inr rfl),
    Attack.newest, Attack.before _ _ (by decide), Attack.before _ _ (by decide),
    Attack.before _ _ (by decide), Attack.before _ _ (by decide), fun io => by cases io; exact ⟨rfl, rfl⟩⟩

end RustTuf.Props
