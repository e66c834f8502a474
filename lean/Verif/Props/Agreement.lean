import Verif.Spec.Agreement
import Verif.Props.Anchored

/-!
# C109: clients agree
-/

namespace RustTuf.Props
open Client Spec RustTuf

theorem says_unique {E : Env} {M : Type} {decode : Bytes → Except Err M} {raw : Bytes} {m m' : M}
    (h : Says E decode raw m) (h' : Says E decode raw m') : m = m' := by
  obtain ⟨sigs, signed, msg, e1, e2, e3⟩ := h
  obtain ⟨sigs', signed', msg', f1, f2, f3⟩ := h'
  rw [e1] at f1; cases f1
  rw [e2] at f2; cases f2
  rw [e3] at f3; cases f3
  rfl

theorem sameBytes_of_matches {D : Digest} {d : TargetDescription} {a b : Bytes} (h : Matches D d a)
    (h' : Matches D d b) : SameBytes D a b := by
  by_cases hne : a = b
  · exact .inl hne
  · obtain ⟨x, v, p1, -, q1⟩ := h
    obtain ⟨x', v', p2, -, q2⟩ := h'
    obtain ⟨rfl, rfl⟩ := preferred_unique p1 p2
    exact .inr ⟨x, p1.2.elim .inr fun h => .inl h.1, q1.trans q2.symm, hne⟩

/-- A target is delivered only if there is a trusted snapshot. -/
theorem delivered_snapshot {W : Type} {E : Env} {D : Digest} {R : World W} {cfg : Config} {path : TargetPath}
    {s s' : St W} {r : Reply} (h : exec E D R cfg (.fetchTargetToWriter path) s = (.ok r, s')) :
    ∃ sn, s.tuf.snapshot = some sn := by
  obtain ⟨_, s1, h1, -⟩ := bind_ok h
  obtain ⟨_, s2, h2, -⟩ := bind_ok h1
  obtain ⟨_, s3, h3, -⟩ := bind_ok h2
  obtain ⟨_, s4, h4, h5⟩ := bind_ok h3
  obtain ⟨-, rfl⟩ := ofExcept_ok h4
  obtain ⟨_, s5, h6, h7⟩ := bind_ok h5
  cases h6
  cases hsn : s4.tuf.snapshot with
  | none => rw [hsn] at h7; cases h7
  | some sn => exact ⟨sn, rfl⟩

section roots
variable {E : Env} {honest : Scheme → Bytes → Prop} {author : Bytes → Prop}

theorem rootChain_trans {a b c : RootMetadata} (h : RootChain E a b) (h' : RootChain E b c) :
    RootChain E a c := by
  induction h' with
  | refl => exact h
  | step c d raw _ h1 h2 h3 ih => exact .step a c d raw ih h1 h2 h3

theorem rootChain_le {a b : RootMetadata} (h : RootChain E a b) : a.version ≤ b.version := by
  induction h with
  | refl => exact Nat.le_refl _
  | step _ _ _ _ _ _ hv ih => omega

/-- A chain passes through all versions between. -/
theorem rootChain_through {a b : RootMetadata} (h : RootChain E a b) (v : Nat) (h1 : a.version ≤ v)
    (h2 : v ≤ b.version) : ∃ c, RootChain E a c ∧ RootChain E c b ∧ c.version = v := by
  induction h with
  | refl => exact ⟨a, .refl a, .refl a, by omega⟩
  | step b c raw hab s1 s2 s3 ih =>
    by_cases hv : v = c.version
    · exact ⟨c, .step a b c raw hab s1 s2 s3, .refl c, hv.symm⟩
    · obtain ⟨x, x1, x2, x3⟩ := ih (by omega)
      exact ⟨x, x1, .step x b c raw x2 s1 s2 s3, x3⟩

theorem rootChain_no_fork (hsig : Unforgeable E honest author)
    (hone : OncePerVersion author E.rootFromSlice RootMetadata.version) {r a b : RootMetadata}
    (hnow : RootGuarded honest r)
    (hlater : ∀ r', Approved author E.rootFromSlice r' → r.version < r'.version → RootGuarded honest r')
    (ha : RootChain E r a) (hb : RootChain E r b) (hle : a.version ≤ b.version) : RootChain E a b := by
  obtain ⟨c, c1, c2, c3⟩ := rootChain_through hb a.version (rootChain_le ha) hle
  have : c = a := by
    rcases rootChain_approved hsig c1 hnow hlater with rfl | ⟨e1, e2⟩ <;>
      rcases rootChain_approved hsig ha hnow hlater with rfl | ⟨f1, f2⟩
    · rfl
    · omega
    · omega
    · exact hone c a e1 f1 c3
  rw [← this]
  exact c2

end roots

section clients
variable {W W' : Type} (E : Env) (D : Digest) (R : World W) (R' : World W') (cfg cfg' : Config)
  (honest : Scheme → Bytes → Prop) (author published : Bytes → Prop)
  (hsig : Unforgeable E honest author)
include hsig

/-- **C109.** Roots do not fork: let two clients start from states that trust the same root. Whatever the
attacker shows to each of them, afterwards there is a chain of root updates from the root of one of them
to that of the other. In particular, roots with equal version are equal. The attacker has less than a
threshold of the root keys of the common root and of each later root of the author, and the author gives
each version number once. -/
theorem C109_roots_do_not_fork (hone : OncePerVersion author E.rootFromSlice RootMetadata.version)
    (s : St W) (s' : St W') (calls calls' : List Call) (hs : s.tuf.root = s'.tuf.root)
    (hnow : RootGuarded honest s.tuf.root)
    (hlater : ∀ r, Approved author E.rootFromSlice r → s.tuf.root.version < r.version →
      RootGuarded honest r) (a b : RootMetadata)
    (ha : a = (execAll E D R cfg s calls).tuf.root) (hb : b = (execAll E D R' cfg' s' calls').tuf.root) :
    (RootChain E a b ∨ RootChain E b a) ∧ (a.version = b.version → a = b) := by
  have h1 := execAll_chain E D R cfg honest author hsig s calls
  have h2 := execAll_chain E D R' cfg' honest author hsig s' calls'
  rw [← ha] at h1
  rw [← hb, ← hs] at h2
  refine ⟨?_, fun hv => ?_⟩
  · rcases Nat.le_total a.version b.version with h | h
    · exact .inl (rootChain_no_fork hsig hone hnow hlater h1 h2 h)
    · exact .inr (rootChain_no_fork hsig hone hnow hlater h2 h1 h)
  · rcases rootChain_approved hsig h1 hnow hlater with e | ⟨e1, e2⟩ <;>
      rcases rootChain_approved hsig h2 hnow hlater with f | ⟨f1, f2⟩
    · rw [e, f]
    · rw [e] at hv; omega
    · rw [f] at hv; omega
    · exact hone a b e1 f1 hv

/-- **C109.** Clients that trust timestamps, snapshots or targets metadata with the same version trust the
same timestamp, snapshot or targets metadata, each if the attacker has less than a threshold of the keys
that their roots list for this role. The sessions are arbitrary, with different repositories, clocks and
local files, and different trusted roots. -/
theorem C109_same_version_same_content (hE : Decoders E) (s : St W) (s' : St W')
    (hs : Session E D R cfg s) (hs' : Session E D R' cfg' s') :
    (OncePerVersion author E.timestampFromSlice TimestampMetadata.version →
      TimestampGuarded honest s.tuf.root → TimestampGuarded honest s'.tuf.root →
      ∀ m m', s.tuf.timestamp = some m → s'.tuf.timestamp = some m' → m.version = m'.version → m = m') ∧
    (OncePerVersion author E.snapshotFromSlice SnapshotMetadata.version →
      Guarded honest s.tuf.root.snapshot.threshold (snapshotSigners s.tuf.root) →
      Guarded honest s'.tuf.root.snapshot.threshold (snapshotSigners s'.tuf.root) →
      ∀ m m', s.tuf.snapshot = some m → s'.tuf.snapshot = some m' → m.version = m'.version → m = m') ∧
    (OncePerVersion author E.targetsFromSlice TargetsMetadata.version →
      TargetsGuarded honest s.tuf.root → TargetsGuarded honest s'.tuf.root →
      ∀ m m', s.tuf.targets = some m → s'.tuf.targets = some m' → m.version = m'.version → m = m') := by
  obtain ⟨start, io, io1, t, calls, h1, rfl⟩ := hs
  obtain ⟨start', io', io1', t', calls', h1', rfl⟩ := hs'
  obtain ⟨a1, a2, a3⟩ := C88_trusted_is_the_authors E D R cfg honest author hsig hE start io io1 t h1 calls
  obtain ⟨b1, b2, b3⟩ :=
    C88_trusted_is_the_authors E D R' cfg' honest author hsig hE start' io' io1' t' h1' calls'
  exact ⟨fun ho g g' m m' e e' => ho m m' (a1 g m e) (b1 g' m' e'),
    fun ho g g' m m' e e' => ho m m' (a2 g m e) (b2 g' m' e'),
    fun ho g g' m m' e e' => ho m m' (a3 g m e) (b3 g' m' e')⟩

variable (hrel : Releases E D author published)
include hrel

theorem sameDocument {l l' : List LogEntry} (hno' : NoSecondPreimage D published l')
    {d : MetadataDescription} {raw raw' : Bytes} (h1 : published raw) (h2 : Announces D d raw)
    (h3 : Received l' raw') (h4 : Announces D d raw') : raw = raw' := by
  obtain ⟨a, v, p1, -, q1⟩ := h2
  obtain ⟨a', v', p2, -, q2⟩ := h4
  obtain ⟨rfl, rfl⟩ := preferred_unique p1 p2
  exact hno' a raw raw' h1 h3 (q1.trans q2.symm)

theorem snapshots_agree (hone : OneEach E author published) {l l' : List LogEntry}
    (hno : NoSecondPreimage D published l) (hno' : NoSecondPreimage D published l') {r r' : RootMetadata}
    (hg : TimestampGuarded honest r) (hg' : TimestampGuarded honest r') {raw raw' : Bytes}
    {sn sn' : SnapshotMetadata} (h : ByTimestamp E D l r raw sn) (h' : ByTimestamp E D l' r' raw' sn')
    (hv : sn.version = sn'.version) : sn = sn' := by
  have hp := byTimestamp_published E D honest author published hsig hrel hno hg h
  obtain ⟨h1, h2, ts, tsRaw, h3, h4, h5⟩ := h
  obtain ⟨h1', h2', ts', tsRaw', h3', h4', h5'⟩ := h'
  have e := hone.timestamp ts ts' (C88_authentic_is_approved hsig _ tsRaw _ _ ts hg h3)
    (C88_authentic_is_approved hsig _ tsRaw' _ _ ts' hg' h3') (h5.symm.trans (hv.trans h5'))
  rw [← e] at h4'
  have := sameDocument E D honest author published hsig hrel (l := l) hno' hp h4 h1' h4'
  subst this
  exact says_unique h2 h2'

theorem targets_agree (hone : OneEach E author published) {l l' : List LogEntry}
    (hno : NoSecondPreimage D published l) (hno' : NoSecondPreimage D published l') {r r' : RootMetadata}
    (hg : TimestampGuarded honest r) (hg' : TimestampGuarded honest r') {role : MetadataPath}
    {raw raw' : Bytes} {ta ta' : TargetsMetadata} (h : BySnapshot E D l r role raw ta)
    (h' : BySnapshot E D l' r' role raw' ta') (hv : ta.version = ta'.version) : ta = ta' := by
  have hp := bySnapshot_published E D honest author published hsig hrel hno hg h
  obtain ⟨h1, h2, snRaw, sn, d, h3, h4, h5, h6⟩ := h
  obtain ⟨h1', h2', snRaw', sn', d', h3', h4', h5', h6'⟩ := h'
  have e := hone.snapshot snRaw snRaw' sn sn' role d d'
    (byTimestamp_published E D honest author published hsig hrel hno hg h3)
    (byTimestamp_published E D honest author published hsig hrel hno' hg' h3') h3.2.1 h3'.2.1 h4 h4'
    (h6.symm.trans (hv.trans h6'))
  rw [← e] at h5'
  have := sameDocument E D honest author published hsig hrel (l := l) hno' hp h5 h1' h5'
  subst this
  exact says_unique h2 h2'

/-- **C109.** The timestamp keys suffice for agreement: if the attacker has less than a threshold of the
timestamp keys of the roots that the two clients trust, then snapshots with equal version are equal, and
so is the metadata of each role, delegated or not, with equal version. It does not matter who has the keys
of snapshots, targets metadata and delegated roles. -/
theorem C109_timestamp_keys_suffice (hone : OneEach E author published) (hE : Decoders E) (s : St W)
    (s' : St W') (hs : Session E D R cfg s) (hs' : Session E D R' cfg' s')
    (hno : NoSecondPreimage D published s.io.log) (hno' : NoSecondPreimage D published s'.io.log)
    (hg : TimestampGuarded honest s.tuf.root) (hg' : TimestampGuarded honest s'.tuf.root) :
    (∀ m m', s.tuf.snapshot = some m → s'.tuf.snapshot = some m' → m.version = m'.version → m = m') ∧
    (∀ m m', s.tuf.targets = some m → s'.tuf.targets = some m' → m.version = m'.version → m = m') ∧
    (∀ role m m', s.tuf.delegations.get? role = some m → s'.tuf.delegations.get? role = some m' →
      m.version = m'.version → m = m') := by
  obtain ⟨start, io, io1, t, calls, h1, h2⟩ := hs
  obtain ⟨start', io', io1', t', calls', h1', h2'⟩ := hs'
  obtain ⟨a1, a2, a3⟩ := C106_trusted_goes_back_to_timestamps E D R cfg hE start io io1 t h1 calls s h2
  obtain ⟨b1, b2, b3⟩ :=
    C106_trusted_goes_back_to_timestamps E D R' cfg' hE start' io' io1' t' h1' calls' s' h2'
  refine ⟨fun m m' e e' hv => ?_, fun m m' e e' hv => ?_, fun role m m' e e' hv => ?_⟩
  · obtain ⟨raw, x⟩ := a1 m e
    obtain ⟨raw', x'⟩ := b1 m' e'
    exact snapshots_agree E D honest author published hsig hrel hone hno hno' hg hg' x x' hv
  · obtain ⟨raw, x⟩ := a2 m e
    obtain ⟨raw', x'⟩ := b2 m' e'
    exact targets_agree E D honest author published hsig hrel hone hno hno' hg hg' x x' hv
  · obtain ⟨raw, x⟩ := a3 role m e
    obtain ⟨raw', x'⟩ := b3 role m' e'
    exact targets_agree E D honest author published hsig hrel hone hno hno' hg hg' x x' hv

/-- **C109.** Clients with the same version of the timestamp see the same repository: they trust the same
timestamp, and the same snapshot and targets metadata if they have got that far. -/
theorem C109_one_timestamp_one_view (hone : OneEach E author published)
    (honce : OncePerVersion author E.timestampFromSlice TimestampMetadata.version) (hE : Decoders E)
    (s : St W) (s' : St W') (hs : Session E D R cfg s) (hs' : Session E D R' cfg' s')
    (hno : NoSecondPreimage D published s.io.log) (hno' : NoSecondPreimage D published s'.io.log)
    (hg : TimestampGuarded honest s.tuf.root) (hg' : TimestampGuarded honest s'.tuf.root)
    (ts ts' : TimestampMetadata) (hts : s.tuf.timestamp = some ts) (hts' : s'.tuf.timestamp = some ts')
    (hv : ts.version = ts'.version) :
    ts = ts' ∧
    ∀ sn sn', s.tuf.snapshot = some sn → s'.tuf.snapshot = some sn' → sn = sn' ∧
      ∀ ta ta', s.tuf.targets = some ta → s'.tuf.targets = some ta' → ta = ta' := by
  have ets := (C109_same_version_same_content E D R R' cfg cfg' honest author hsig hE s s' hs hs').1
    honce hg hg' ts ts' hts hts' hv
  have hall := C109_timestamp_keys_suffice E D R R' cfg cfg' honest author published hsig hrel hone hE s s'
    hs hs' hno hno' hg hg'
  obtain ⟨start, io, io1, t, calls, h1, rfl⟩ := hs
  obtain ⟨start', io', io1', t', calls', h1', rfl⟩ := hs'
  have hc := C28_client_consistent E hE D R cfg start io io1 t h1 calls
  have hc' := C28_client_consistent E hE D R' cfg' start' io' io1' t' h1' calls'
  refine ⟨ets, fun sn sn' hsn hsn' => ?_⟩
  obtain ⟨x, e1, e2⟩ := hc.snapshot sn hsn
  obtain ⟨x', e1', e2'⟩ := hc'.snapshot sn' hsn'
  rw [hts] at e1; cases e1
  rw [hts'] at e1'; cases e1'
  have esn := hall.1 sn sn' hsn hsn' (by rw [e2, e2', ets])
  refine ⟨esn, fun ta ta' hta hta' => ?_⟩
  obtain ⟨d, f1, f2⟩ := hc.targets sn ta hsn hta
  obtain ⟨d', f1', f2'⟩ := hc'.targets sn' ta' hsn' hta'
  rw [esn] at f1
  rw [f1] at f1'
  cases f1'
  exact hall.2.1 ta ta' hta hta' (f2.trans f2'.symm)

/-- **C109.** Clients with the same version of the timestamp deliver the same targets: what they write with
success for paths that stand for the same virtual path is equal, unless a collision of SHA-256 or SHA-512
has been found. -/
theorem C109_same_targets (hone : OneEach E author published)
    (honce : OncePerVersion author E.timestampFromSlice TimestampMetadata.version) (hE : Decoders E)
    (s s1 : St W) (s' s1' : St W') (hs : Session E D R cfg s) (hs' : Session E D R' cfg' s')
    (hno : NoSecondPreimage D published s.io.log) (hno' : NoSecondPreimage D published s'.io.log)
    (hg : TimestampGuarded honest s.tuf.root) (hg' : TimestampGuarded honest s'.tuf.root)
    (ts ts' : TimestampMetadata) (hts : s.tuf.timestamp = some ts) (hts' : s'.tuf.timestamp = some ts')
    (hv : ts.version = ts'.version) (path path' : TargetPath)
    (hpath : cfg.realToVirtual path = cfg'.realToVirtual path') (reply reply' : Reply) (h : exec E D R cfg (.fetchTargetToWriter path) s = (.ok reply, s1))
    (h' : exec E D R' cfg' (.fetchTargetToWriter path') s' = (.ok reply', s1')) :
    ∃ l l', s1.io.log = s.io.log ++ l ∧ s1'.io.log = s'.io.log ++ l' ∧
      SameBytes D (written l) (written l') := by
  obtain ⟨d, l, ⟨virt, ta, a1, a2, a3⟩, a4, a5⟩ := C33_writer_gets_the_target E D R cfg path s s1 reply h
  obtain ⟨d', l', ⟨virt', ta', b1, b2, b3⟩, b4, b5⟩ :=
    C33_writer_gets_the_target E D R' cfg' path' s' s1' reply' h'
  obtain ⟨sn, e⟩ := delivered_snapshot h
  obtain ⟨sn', e'⟩ := delivered_snapshot h'
  have := ((C109_one_timestamp_one_view E D R R' cfg cfg' honest author published hsig hrel hone honce hE s s'
    hs hs' hno hno' hg hg' ts ts' hts hts' hv).2 sn sn' e e').2 ta ta' a2 b2
  subst this
  rw [hpath, b1] at a1
  cases a1
  rw [a3] at b3
  cases b3
  exact ⟨l, l', a4, b4, sameBytes_of_matches a5 b5⟩

end clients

/-! ### Examples -/

namespace Stolen

/-- A repository that does not show the second root, for a client with another clock. -/
def other : RustTuf.World Toy.Disk :=
  Toy.repos (Toy.files [("timestamp", none, 10), ("snapshot", none, 20), ("targets", none, 30)])
    [("x".toList, [9])] 200

theorem session (R : RustTuf.World Toy.Disk)
    (h : (start R).1 = .ok ⟨root 1, none, none, none, []⟩) : Session env digest R Toy.config (s2 R) :=
  ⟨.trustedRoot [1], ⟨Toy.Disk.empty, []⟩, _, _, [.update], Prod.ext h rfl, rfl⟩

theorem roots {r} (h : Approved author env.rootFromSlice r) : r = root 1 ∨ r = root 2 := by
  obtain ⟨msg, h1, h2⟩ := h
  simp only [author, List.mem_cons, List.not_mem_nil, or_false] at h1
  rcases h1 with rfl | rfl | rfl <;> cases h2
  · exact .inl rfl
  · exact .inr rfl

/-- The hypotheses of the theorems about C109: the clients trust different roots, and the attacker has all
keys for snapshots and targets metadata. -/
example : Unforgeable env honest author ∧ Releases env digest author published ∧
    OneEach env author published ∧ Decoders env ∧
    OncePerVersion author env.rootFromSlice RootMetadata.version ∧
    OncePerVersion author env.timestampFromSlice TimestampMetadata.version ∧
    Session env digest good Toy.config (s2 good) ∧ Session env digest other Toy.config (s2 other) ∧
    (∀ v, RootGuarded honest (root v) ∧ TimestampGuarded honest (root v)) ∧
    NoSecondPreimage digest published (s2 good).io.log ∧ NoSecondPreimage digest published (s2 other).io.log ∧
    (s2 good).tuf.root = root 2 ∧ (s2 other).tuf.root = root 1 ∧
    (s2 good).tuf.timestamp = (s2 other).tuf.timestamp ∧ (s2 good).tuf.timestamp.isSome = true ∧
    (s2 good).tuf.snapshot ≠ none ∧ (s2 other).tuf.snapshot ≠ none ∧
    (exec env digest good Toy.config (.fetchTargetToWriter "x".toList) (s2 good)).1 = .ok .done ∧
    (exec env digest other Toy.config (.fetchTargetToWriter "x".toList) (s2 other)).1 = .ok .done := by
  refine ⟨unforgeable, releases, oneEach, decoders, fun r r' h h' hv => ?_,
    fun ts ts' h h' _ => by rw [timestamps h, timestamps h'], session good (by decide +kernel),
    session other (by decide +kernel), guards, fun _ _ _ _ _ h => h, fun _ _ _ _ _ h => h,
    by decide +kernel, by decide +kernel, by decide +kernel, by decide +kernel, by decide +kernel,
    by decide +kernel, by decide +kernel, by decide +kernel⟩
  rcases roots h with rfl | rfl <;> rcases roots h' with rfl | rfl
  · rfl
  · cases hv
  · cases hv
  · rfl

/-- The author makes two timestamps with version 1. -/
@[reducible] def forked : Toy.World where
  roots := [(1, root 1)]
  timestamps := [(10, ⟨1, 500, descr 1 20⟩), (11, ⟨1, 500, descr 2 21⟩)]
  snapshots := [(20, ⟨1, 500, [("targets".toList, descr 1 30)]⟩), (21, ⟨2, 500, [("targets".toList, descr 2 31)]⟩)]
  targets := [(30, listing 9), (31, { listing 66 with version := 2 })]

def first : RustTuf.World Toy.Disk :=
  Toy.repos (Toy.files [("timestamp", none, 10), ("snapshot", none, 20), ("targets", none, 30)])
    [("x".toList, [9])] 100
def second : RustTuf.World Toy.Disk :=
  Toy.repos (Toy.files [("timestamp", none, 11), ("snapshot", none, 21), ("targets", none, 31)])
    [("x".toList, [66])] 100

def author2 (msg : Bytes) : Prop := msg ∈ [[1], [10], [11]]
def published2 (raw : Bytes) : Prop := raw ∈ [[20], [21], [30], [31]]

instance (m) : Decidable (author2 m) := by unfold author2; infer_instance

/-- Signatures of `k` are not forged. -/
def env2 : Env :=
  { forked.env with
    ringVerify := fun s value msg sig =>
      forked.env.ringVerify s value msg sig && (decide (value ≠ [7]) || decide (author2 msg)) }

theorem timestamps2 {ts} (h : Approved author2 env2.timestampFromSlice ts) :
    ts = ⟨1, 500, descr 1 20⟩ ∨ ts = ⟨1, 500, descr 2 21⟩ := by
  obtain ⟨msg, h1, h2⟩ := h
  simp only [author2, List.mem_cons, List.not_mem_nil, or_false] at h1
  rcases h1 with rfl | rfl | rfl <;> cases h2
  · exact .inl rfl
  · exact .inr rfl

theorem snapshots2 {raw sn} (h1 : published2 raw) (h2 : Says env2 env2.snapshotFromSlice raw sn) :
    sn = ⟨1, 500, [("targets".toList, descr 1 30)]⟩ ∨ sn = ⟨2, 500, [("targets".toList, descr 2 31)]⟩ := by
  obtain ⟨sigs, signed, msg, e1, e2, e3⟩ := h2
  simp only [published2, List.mem_cons, List.not_mem_nil, or_false] at h1
  rcases h1 with rfl | rfl | rfl | rfl <;> cases e1 <;> cases e2 <;> cases e3
  · exact .inl rfl
  · exact .inr rfl

theorem listed2 {raw sn role d} (h1 : published2 raw) (h2 : Says env2 env2.snapshotFromSlice raw sn)
    (h3 : sn.metas.get? role = some d) : d = descr 1 30 ∨ d = descr 2 31 := by
  rcases snapshots2 h1 h2 with rfl | rfl
  · have : (role, d) = ("targets".toList, descr 1 30) := by simpa using Map.mem_of_get? h3
    cases this; exact .inl rfl
  · have : (role, d) = ("targets".toList, descr 2 31) := by simpa using Map.mem_of_get? h3
    cases this; exact .inr rfl

theorem releases2 : Releases env2 digest author2 published2 where
  timestamp := fun ts h => by
    rcases timestamps2 h with rfl | rfl
    · exact ⟨[20], by simp [published2], announces 1 20⟩
    · exact ⟨[21], by simp [published2], announces 2 21⟩
  snapshot := fun raw sn h1 h2 role d h3 => by
    rcases listed2 h1 h2 h3 with rfl | rfl
    · exact ⟨[30], by simp [published2], announces 1 30⟩
    · exact ⟨[31], by simp [published2], announces 2 31⟩

theorem oneEach2 : OneEach env2 author2 published2 where
  timestamp := fun ts ts' h h' hv => by
    rcases timestamps2 h with rfl | rfl <;> rcases timestamps2 h' with rfl | rfl <;> first | rfl | cases hv
  snapshot := fun raw raw' sn sn' role d d' h1 h1' h2 h2' h3 h3' hv => by
    rcases listed2 h1 h2 h3 with rfl | rfl <;> rcases listed2 h1' h2' h3' with rfl | rfl <;>
      first | rfl | cases hv

def begin_ (R : RustTuf.World Toy.Disk) : Except Err Tuf × Io Toy.Disk :=
  construct env2 digest R Toy.config (.trustedRoot [1]) ⟨Toy.Disk.empty, []⟩
def done_ (R : RustTuf.World Toy.Disk) : St Toy.Disk :=
  execAll env2 digest R Toy.config ⟨⟨root 1, none, none, none, []⟩, (begin_ R).2⟩ [.update]

end Stolen

/-- **C109.** That the author gives each version number once is needed: if there are two timestamps with the
same version, and everything else has its own version, two clients that have updated themselves with
success may trust timestamps with the same version and deliver different targets for the same path. All
signatures are genuine and no digests collide. -/
theorem C109_version_used_twice : ∃ (E : Env) (D : Digest) (R R' : World Toy.Disk) (cfg : Config)
    (honest : Scheme → Bytes → Prop) (author published : Bytes → Prop) (s s' : St Toy.Disk)
    (ts ts' : TimestampMetadata) (ta ta' : TargetsMetadata) (path : TargetPath) (d d' : TargetDescription),
    Unforgeable E honest author ∧ Releases E D author published ∧ OneEach E author published ∧ Decoders E ∧
    (∀ a x y, D a x = D a y → x = y) ∧
    Session E D R cfg s ∧ Session E D R' cfg s' ∧
    TimestampGuarded honest s.tuf.root ∧ TimestampGuarded honest s'.tuf.root ∧
    s.tuf.timestamp = some ts ∧ s'.tuf.timestamp = some ts' ∧ ts.version = ts'.version ∧
    s.tuf.snapshot ≠ none ∧ s'.tuf.snapshot ≠ none ∧
    s.tuf.targets = some ta ∧ s'.tuf.targets = some ta' ∧ cfg.realToVirtual path = .ok path ∧
    ta.targets.get? path = some d ∧ ta'.targets.get? path = some d' ∧
    (∀ content, ¬ (Matches D d content ∧ Matches D d' content)) ∧
    (exec E D R cfg (.fetchTargetToWriter path) s).1 = .ok .done ∧
    (exec E D R' cfg (.fetchTargetToWriter path) s').1 = .ok .done := by
  refine ⟨Stolen.env2, Stolen.digest, Stolen.first, Stolen.second, Toy.config, Stolen.honest, Stolen.author2,
    Stolen.published2, Stolen.done_ Stolen.first, Stolen.done_ Stolen.second, ⟨1, 500, Stolen.descr 1 20⟩,
    ⟨1, 500, Stolen.descr 2 21⟩, Stolen.listing 9, { Stolen.listing 66 with version := 2 }, "x".toList,
    ⟨1, [(.sha256, [9])], none⟩, ⟨1, [(.sha256, [66])], none⟩, ?_, Stolen.releases2, Stolen.oneEach2, ?_,
    fun _ _ _ h => h,
    ⟨.trustedRoot [1], ⟨Toy.Disk.empty, []⟩, _, _, [.update], Prod.ext (by decide +kernel) rfl, rfl⟩,
    ⟨.trustedRoot [1], ⟨Toy.Disk.empty, []⟩, _, _, [.update], Prod.ext (by decide +kernel) rfl, rfl⟩,
    ?_, ?_, by decide +kernel, by decide +kernel, rfl, by decide +kernel, by decide +kernel,
    by decide +kernel, by decide +kernel, by decide +kernel, by decide +kernel, by decide +kernel, ?_,
    by decide +kernel, by decide +kernel⟩
  · intro s value msg sig hh hv
    unfold Stolen.honest at hh
    subst hh
    have := (Bool.and_eq_true_iff.1 hv).2
    simpa using this
  · have h := Stolen.forked.decoders (by decide) (by decide) (by decide) (by decide)
    exact ⟨h.root, h.timestamp, h.snapshot, h.targets, h.coherent⟩
  · have : (Stolen.done_ Stolen.first).tuf.root = Stolen.root 1 := by decide +kernel
    rw [this]
    exact (Stolen.guards 1).2
  · have : (Stolen.done_ Stolen.second).tuf.root = Stolen.root 1 := by decide +kernel
    rw [this]
    exact (Stolen.guards 1).2
  · rintro content ⟨⟨a, v, ⟨p, -⟩, -, q⟩, ⟨a', v', ⟨p', -⟩, -, q'⟩⟩
    have h1 : v = [9] := by
      have := Map.mem_of_get? p
      simp only [List.mem_singleton, Prod.mk.injEq] at this
      exact this.2
    have h2 : v' = [66] := by
      have := Map.mem_of_get? p'
      simp only [List.mem_singleton, Prod.mk.injEq] at this
      exact this.2
    have h3 : content = [9] := q.trans h1
    have h4 : content = [66] := q'.trans h2
    rw [h3] at h4
    cases h4

end RustTuf.Props
