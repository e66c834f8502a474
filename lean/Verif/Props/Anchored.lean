import Verif.Spec.Anchored
import Verif.Props.Adversary

/-!
# C106: the timestamp keys guard everything that clients trust
-/

namespace RustTuf.Props
open Client Spec RustTuf

theorem preferred_unique {h : Map HashAlg HashValue} {a a' : HashAlg} {v v' : HashValue}
    (p1 : Preferred h a v) (p2 : Preferred h a' v') : a = a' ∧ v = v' := by
  obtain ⟨g1, g2⟩ := p1
  obtain ⟨g3, g4⟩ := p2
  rcases g2 with rfl | ⟨rfl, g2⟩ <;> rcases g4 with rfl | ⟨rfl, g4⟩
  · rw [g1] at g3; cases g3; exact ⟨rfl, rfl⟩
  · rw [g1] at g4; cases g4
  · rw [g2] at g3; cases g3
  · rw [g1] at g3; cases g3; exact ⟨rfl, rfl⟩

theorem says_of_authentic {E : Env} {M : Type} {decode : Bytes → Except Err M} {raw : Bytes} {n : Nat}
    {keys : List PublicKey} {m : M} (h : Authentic E decode raw n keys m) : Says E decode raw m := by
  obtain ⟨msg, ⟨-, sigs, signed, h1, h2, -⟩, h3⟩ := h
  exact ⟨sigs, signed, msg, h1, h2, h3⟩

section
variable {E : Env} {D : Digest}

theorem received_mono {l l' : List LogEntry} {raw : Bytes} (hs : ∀ e ∈ l, e ∈ l') (h : Received l raw) :
    Received l' raw := by
  obtain ⟨src, p, h⟩ := h
  exact ⟨src, p, hs _ h⟩

theorem byTimestamp_mono {l l' : List LogEntry} {r : RootMetadata} {raw : Bytes} {sn : SnapshotMetadata}
    (hs : ∀ e ∈ l, e ∈ l') (h : ByTimestamp E D l r raw sn) : ByTimestamp E D l' r raw sn :=
  ⟨received_mono hs h.1, h.2⟩

theorem bySnapshot_mono {l l' : List LogEntry} {r : RootMetadata} {role : MetadataPath} {raw : Bytes}
    {ta : TargetsMetadata} (hs : ∀ e ∈ l, e ∈ l') (h : BySnapshot E D l r role raw ta) :
    BySnapshot E D l' r role raw ta := by
  obtain ⟨h1, h2, snRaw, sn, d, h3, h4⟩ := h
  exact ⟨received_mono hs h1, h2, snRaw, sn, d, byTimestamp_mono hs h3, h4⟩

/-- All trusted metadata goes back to timestamps for the trusted root. -/
structure Anchored (E : Env) (D : Digest) (l : List LogEntry) (t : Tuf) : Prop where
  snapshot : ∀ sn, t.snapshot = some sn → ∃ raw, ByTimestamp E D l t.root raw sn
  targets : ∀ ta, t.targets = some ta → ∃ raw, BySnapshot E D l t.root targetsName raw ta
  delegated : ∀ role d, t.delegations.get? role = some d → ∃ raw, BySnapshot E D l t.root role raw d

theorem Anchored.mono {l l' : List LogEntry} {t : Tuf} (hs : ∀ e ∈ l, e ∈ l') (h : Anchored E D l t) :
    Anchored E D l' t where
  snapshot := fun sn e => (h.snapshot sn e).imp fun _ h => byTimestamp_mono hs h
  targets := fun sn e => (h.targets sn e).imp fun _ h => bySnapshot_mono hs h
  delegated := fun role d e => (h.delegated role d e).imp fun _ h => bySnapshot_mono hs h

theorem good_prefix {cfg : Config} {t : Tuf} {l : List LogEntry} {e : LogEntry}
    (h : Good E D cfg t (l ++ [e])) : Good E D cfg t l ∧ Next E D cfg t l e :=
  ⟨fun pre x post hl => h pre x (post ++ [e]) (by rw [hl]; simp), h l e [] rfl⟩

theorem anchored_of_good (hE : Decoders E) {cfg : Config} {t : Tuf} (hf : Fresh E t) (l : List LogEntry)
    (h : Good E D cfg t l) : Anchored E D l (after E t l) := by
  induction l using List.reverseRecOn with
  | nil =>
    obtain ⟨r, rfl, _⟩ := Fresh.eq E hE t hf
    exact ⟨fun _ h => (by cases h), fun _ h => (by cases h), fun _ _ h => (by cases h)⟩
  | append_singleton l e ih =>
    obtain ⟨hl, hn⟩ := good_prefix h
    have ih := ih hl
    have hsub : ∀ x ∈ l, x ∈ l ++ [e] := fun x hx => List.mem_append_left _ hx
    cases e with
    | op o out =>
      obtain ⟨-, k, raw, pre', src, v, m, hd, hsu, hpre, hreq⟩ := hn
      have hgot : Fits D raw m hd := by
        obtain ⟨pre'', v', m', h', e4, e5⟩ := hl (pre' ++ [.fetch src k.path v m hd]) (.got src k.path raw)
          [] (by rw [hpre]; simp)
        obtain ⟨_, e6⟩ := List.append_inj' e4 (by simp)
        cases e6
        exact e5
      have hrec : Received (l ++ [.op o out]) raw := ⟨src, k.path, by rw [hpre]; simp⟩
      have ih' := ih.mono hsub
      rw [after_op]
      have hts := (C19_signed_under_current_root E hE t hf (opsOf l)).1
      change ∀ m, (after E t l).timestamp = some m → ∃ raw, Authentic E E.timestampFromSlice raw
        (after E t l).root.timestamp.threshold (timestampSigners (after E t l).root) m at hts
      generalize after E t l = t1 at *
      have hc := Tuf.step_case E t1 o
      generalize (Tuf.step E t1 o).1 = o1 at hc
      generalize (Tuf.step E t1 o).2 = t2 at hc
      cases hc with
      | failed | same => exact ih'
      | root =>
        exact ⟨fun _ h => (by cases h), fun _ h => (by cases h), fun _ _ h => (by cases h)⟩
      | timestamp clk raw new hr =>
        refine ⟨fun sn hsn => ?_, ih'.targets, ih'.delegated⟩
        simp only at hsn
        split at hsn
        · exact ih'.snapshot sn hsn
        · cases hsn
      | timestampExpired => exact ⟨fun _ h => (by cases h), ih'.targets, ih'.delegated⟩
      | snapshot clk raw new t' hr hp =>
        cases hsu
        cases hreq with
        | snapshot _ ts a v e1 e2 e3 =>
          obtain ⟨tsRaw, hau⟩ := hts ts e1
          refine ⟨fun sn hsn => ?_, fun ta hta => ?_, fun role d hd => ?_⟩
          · rw [hp.snapshot] at hsn
            cases hsn
            obtain ⟨ts', f1, -, -, f2⟩ := hr.announced
            rw [e1] at f1; cases f1
            rw [hp.root]
            exact ⟨raw, hrec, says_of_authentic hr.signed, ts, tsRaw, hau,
              ⟨a, v, e3, hgot.length _ rfl, hgot.digest _ _ rfl⟩, f2⟩
          · rw [hp.root]
            by_cases hl : verOf (·.version) t1.targets = listed new targetsName
            · rw [hp.targetsKept hl] at hta; exact ih'.targets ta hta
            · rw [hp.targetsDropped hl] at hta; cases hta
          · rw [hp.root]
            exact ih'.delegated role d ((hp.delegations role d).1 hd).1
      | targets clk raw new hr =>
        cases hsu
        cases hreq with
        | targets _ sn d a v e1 e2 e3 e4 =>
          refine ⟨ih'.snapshot, fun ta hta => ?_, ih'.delegated⟩
          cases hta
          obtain ⟨sn', d', f1, -, f2, -, f3⟩ := hr.announced
          rw [e1] at f1; cases f1
          rw [e2] at f2; cases f2
          obtain ⟨snRaw, hsn⟩ := ih'.snapshot sn e1
          exact ⟨raw, hrec, says_of_authentic hr.signed, snRaw, sn, d, hsn, e2,
            ⟨a, v, e4, hgot.length _ rfl, hgot.digest _ _ rfl⟩, f3⟩
      | delegation clk parent role raw new hr =>
        cases hsu
        cases hreq with
        | delegated _ _ sn d a v e1 e2 e3 =>
          refine ⟨ih'.snapshot, ih'.targets, fun role' ta hta => ?_⟩
          by_cases hro : role' = role
          · subst hro
            rw [Map.get?_insert, if_pos rfl] at hta
            cases hta
            obtain ⟨d', ⟨-, ⟨sn', f1, -, f2⟩, -⟩, -, f3⟩ := hr.context
            rw [e1] at f1; cases f1
            rw [e2] at f2; cases f2
            obtain ⟨snRaw, hsn⟩ := ih'.snapshot sn e1
            obtain ⟨ds, de, -, hau⟩ := hr.signed
            exact ⟨raw, hrec, says_of_authentic hau, snRaw, sn, d, hsn, e2,
              ⟨a, v, e3, hgot.length _ rfl, hgot.digest _ _ rfl⟩, f3⟩
          · rw [Map.get?_insert, if_neg hro] at hta
            exact ih'.delegated role' ta hta
    | _ =>
      refine Anchored.mono hsub ?_
      rw [after_append]
      exact ih

end

theorem published_of_announced {D : Digest} {published : Bytes → Prop} {l : List LogEntry} (hno : NoSecondPreimage D published l)
    {d : MetadataDescription} {raw raw' : Bytes} (h1 : published raw) (h2 : Announces D d raw)
    (h3 : Received l raw') (h4 : Announces D d raw') : published raw' := by
  obtain ⟨a, v, p1, -, q1⟩ := h2
  obtain ⟨a', v', p2, -, q2⟩ := h4
  obtain ⟨rfl, rfl⟩ := preferred_unique p1 p2
  rw [← hno a raw raw' h1 h3 (q1.trans q2.symm)]
  exact h1

section client
variable {W : Type} (E : Env) (D : Digest) (R : World W) (cfg : Config)

/-- **C106.** In any state of any session, all trusted metadata goes back to timestamps with enough
signatures for the trusted root: the trusted snapshot comes from a received document that such a
timestamp announces, and the targets metadata of each role comes from a received document that is listed
for this role by a snapshot that such a timestamp announces. -/
theorem C106_trusted_goes_back_to_timestamps (hE : Decoders E) (start : Start) (io io' : Io W) (t : Tuf)
    (h : construct E D R cfg start io = (.ok t, io')) (calls : List Call) (s : St W)
    (hs : s = execAll E D R cfg ⟨t, io'⟩ calls) :
    (∀ sn, s.tuf.snapshot = some sn → ∃ raw, ByTimestamp E D s.io.log s.tuf.root raw sn) ∧
    (∀ ta, s.tuf.targets = some ta → ∃ raw, BySnapshot E D s.io.log s.tuf.root targetsName raw ta) ∧
    (∀ role ta, s.tuf.delegations.get? role = some ta →
      ∃ raw, BySnapshot E D s.io.log s.tuf.root role raw ta) := by
  obtain ⟨t0, L, h0, h1⟩ := construct_good E D R cfg start io io' t h
  obtain ⟨l, h2, h3, h4⟩ := execAll_tr (R := R) calls _ h1
  rw [← hs] at h2 h4
  have ha := (anchored_of_good hE (startsWith_fresh h0) l h3).mono (l' := s.io.log)
    fun e he => by rw [h2]; exact List.mem_append_right _ he
  rw [← h4] at ha
  exact ⟨ha.snapshot, ha.targets, ha.delegated⟩

variable (honest : Scheme → Bytes → Prop) (author published : Bytes → Prop)
  (hsig : Unforgeable E honest author) (hrel : Releases E D author published)
include hsig hrel

theorem byTimestamp_published {l : List LogEntry} (hno : NoSecondPreimage D published l) {r : RootMetadata}
    (hg : TimestampGuarded honest r) {raw : Bytes} {sn : SnapshotMetadata}
    (h : ByTimestamp E D l r raw sn) : published raw := by
  obtain ⟨h1, -, ts, tsRaw, h2, h3, -⟩ := h
  obtain ⟨raw0, h4, h5⟩ := hrel.timestamp ts (C88_authentic_is_approved hsig _ tsRaw _ _ ts hg h2)
  exact published_of_announced hno h4 h5 h1 h3

theorem bySnapshot_published {l : List LogEntry} (hno : NoSecondPreimage D published l) {r : RootMetadata}
    (hg : TimestampGuarded honest r) {role : MetadataPath} {raw : Bytes} {ta : TargetsMetadata}
    (h : BySnapshot E D l r role raw ta) : published raw := by
  obtain ⟨h1, -, snRaw, sn, d, h2, h3, h4, -⟩ := h
  obtain ⟨raw0, h5, h6⟩ := hrel.snapshot snRaw sn
    (byTimestamp_published E D honest author published hsig hrel hno hg h2) h2.2.1 role d h3
  exact published_of_announced hno h5 h6 h1 h4

/-- **C106.** An attacker with less than a threshold of the timestamp keys of the trusted root has put
nothing in place of what the author has published, unless documents with equal digests were found: the
trusted snapshot and the trusted targets metadata of each role are what published documents say. It does
not matter who has the keys of snapshots, targets metadata and delegated roles. -/
theorem C106_trusted_is_published (hE : Decoders E) (start : Start) (io io' : Io W) (t : Tuf)
    (h : construct E D R cfg start io = (.ok t, io')) (calls : List Call) (s : St W)
    (hs : s = execAll E D R cfg ⟨t, io'⟩ calls) (hno : NoSecondPreimage D published s.io.log)
    (hg : TimestampGuarded honest s.tuf.root) :
    (∀ sn, s.tuf.snapshot = some sn → ∃ raw, published raw ∧ Says E E.snapshotFromSlice raw sn) ∧
    (∀ ta, s.tuf.targets = some ta → ∃ raw, published raw ∧ Says E E.targetsFromSlice raw ta) ∧
    (∀ role ta, s.tuf.delegations.get? role = some ta →
      ∃ raw, published raw ∧ Says E E.targetsFromSlice raw ta) := by
  obtain ⟨h1, h2, h3⟩ := C106_trusted_goes_back_to_timestamps E D R cfg hE start io io' t h calls s hs
  refine ⟨fun sn e => ?_, fun ta e => ?_, fun role ta e => ?_⟩
  · obtain ⟨raw, hr⟩ := h1 sn e
    exact ⟨raw, byTimestamp_published E D honest author published hsig hrel hno hg hr, hr.2.1⟩
  · obtain ⟨raw, hr⟩ := h2 ta e
    exact ⟨raw, bySnapshot_published E D honest author published hsig hrel hno hg hr, hr.2.1⟩
  · obtain ⟨raw, hr⟩ := h3 role ta e
    exact ⟨raw, bySnapshot_published E D honest author published hsig hrel hno hg hr, hr.2.1⟩

/-- **C106.** Whatever the attacker does from some point on: if the attacker has less than a threshold of
the root keys and of the timestamp keys of the root that is trusted at this point and of each later root
of the author, then whatever is delivered later for a target path with success matches a description for
this path in targets metadata that the author has published. -/
theorem C106_delivered_is_published (hE : Decoders E) (start : Start) (io io' : Io W) (t : Tuf)
    (h : construct E D R cfg start io = (.ok t, io')) (before after : List Call)
    (s1 s2 s3 : St W) (hs1 : s1 = execAll E D R cfg ⟨t, io'⟩ before)
    (hs2 : s2 = execAll E D R cfg s1 after)
    (hnow : RootGuarded honest s1.tuf.root ∧ TimestampGuarded honest s1.tuf.root)
    (hlater : ∀ r, Approved author E.rootFromSlice r → s1.tuf.root.version < r.version →
      RootGuarded honest r ∧ TimestampGuarded honest r)
    (hno : NoSecondPreimage D published s2.io.log) (path : TargetPath) (reply : Reply)
    (hget : exec E D R cfg (.fetchTargetToWriter path) s2 = (.ok reply, s3)) :
    ∃ raw ta virt d l, published raw ∧ Says E E.targetsFromSlice raw ta ∧
      cfg.realToVirtual path = .ok virt ∧ ta.targets.get? virt = some d ∧
      s3.io.log = s2.io.log ++ l ∧ Matches D d (written l) := by
  obtain ⟨d, l, ⟨virt, ta, h1, h2, h3⟩, h4, h5⟩ := C33_writer_gets_the_target E D R cfg path s2 s3 reply hget
  have hroot := C88_roots_are_the_authors E D R cfg honest author hsig s1 after hnow.1
    fun r h1 h2 => (hlater r h1 h2).1
  have hg : TimestampGuarded honest s2.tuf.root := by
    rw [← hs2] at hroot
    rcases hroot with e | ⟨e1, e2⟩
    · rw [e]; exact hnow.2
    · exact (hlater _ e1 e2).2
  have e : s2 = execAll E D R cfg ⟨t, io'⟩ (before ++ after) := by
    rw [hs2, hs1]
    unfold execAll
    rw [List.foldl_append]
  obtain ⟨raw, hp, hsay⟩ := (C106_trusted_is_published E D R cfg honest author published hsig hrel hE start io
    io' t h (before ++ after) s2 e hno hg).2.1 ta h2
  exact ⟨raw, ta, virt, d, l, hp, hsay, h1, h3, h4, h5⟩

/-- **C106.** Pieces of different releases cannot be combined: if the author gives each version number only
once, the trusted snapshot comes from a published document that the timestamp trusted now announces, and
the trusted targets metadata from a published document that the snapshot trusted now lists. -/
theorem C106_no_mix_and_match (hone : OneEach E author published) (hE : Decoders E) (start : Start)
    (io io' : Io W) (t : Tuf) (h : construct E D R cfg start io = (.ok t, io')) (calls : List Call) (s : St W)
    (hs : s = execAll E D R cfg ⟨t, io'⟩ calls) (hno : NoSecondPreimage D published s.io.log)
    (hg : TimestampGuarded honest s.tuf.root) (sn : SnapshotMetadata) (hsn : s.tuf.snapshot = some sn) :
    (∃ ts raw, s.tuf.timestamp = some ts ∧ Approved author E.timestampFromSlice ts ∧
      published raw ∧ Says E E.snapshotFromSlice raw sn ∧ Announces D ts.snapshot raw) ∧
    ∀ ta, s.tuf.targets = some ta → ∃ d raw, sn.metas.get? targetsName = some d ∧
      published raw ∧ Says E E.targetsFromSlice raw ta ∧ Announces D d raw := by
  obtain ⟨h1, h2, -⟩ := C106_trusted_goes_back_to_timestamps E D R cfg hE start io io' t h calls s hs
  have hc := C28_client_consistent E hE D R cfg start io io' t h calls
  have hts := (C88_trusted_is_the_authors E D R cfg honest author hsig hE start io io' t h calls).1
  rw [← hs] at hc hts
  obtain ⟨ts, e1, e2⟩ := hc.snapshot sn hsn
  have hap := hts hg ts e1
  obtain ⟨snRaw, hby⟩ := h1 sn hsn
  have hsp := byTimestamp_published E D honest author published hsig hrel hno hg hby
  refine ⟨⟨ts, snRaw, e1, hap, hsp, hby.2.1, ?_⟩, fun ta hta => ?_⟩
  · obtain ⟨-, -, ts', tsRaw, f1, f2, f3⟩ := hby
    have hap' := C88_authentic_is_approved hsig _ tsRaw _ _ ts' hg f1
    rw [hone.timestamp ts ts' hap hap' (e2.symm.trans f3)]
    exact f2
  · obtain ⟨d, e3, e4⟩ := hc.targets sn ta hsn hta
    obtain ⟨raw, hta'⟩ := h2 ta hta
    have htp := bySnapshot_published E D honest author published hsig hrel hno hg hta'
    obtain ⟨-, f1, snRaw', sn', d', f2, f3, f4, f5⟩ := hta'
    refine ⟨d, raw, e3, htp, f1, ?_⟩
    have hsp' := byTimestamp_published E D honest author published hsig hrel hno hg f2
    rw [hone.snapshot snRaw snRaw' sn sn' targetsName d d' hsp hsp' hby.2.1 f2.2.1 e3 f3
      (e4.symm.trans f5)]
    exact f4

end client

/-! ### Examples -/

namespace Stolen

/-- Key `k` is honest. The attacker has key `d`, which is the only key for snapshots and targets
metadata. -/
def byD : RoleDefinition := { threshold := 1, keyIds := ["d".toList] }
def root (v : Nat) : RootMetadata := { Toy.root v 1000 with snapshot := byD, targets := byD }

/-- A description of the document `[b]`, for a digest that is the document itself. -/
def descr (v : Nat) (b : UInt8) : MetadataDescription := { version := v, length := 10, hashes := [(.sha256, [b])] }
def digest : Digest := fun _ b => b

/-- Targets metadata with one target. -/
def listing (b : UInt8) : TargetsMetadata :=
  { version := 1, expires := 500, targets := [("x".toList, ⟨1, [(.sha256, [b])], none⟩)], delegations := none }
/-- The documents 21 and 31 are made by the attacker. -/
@[reducible] def world : Toy.World where
  roots := [(1, root 1), (2, root 2)]
  timestamps := [(10, ⟨1, 500, descr 1 20⟩)]
  snapshots := [(20, ⟨1, 500, [("targets".toList, descr 1 30)]⟩), (21, ⟨1, 500, [("targets".toList, descr 1 31)]⟩)]
  targets := [(30, listing 9), (31, listing 66)]

def honest (_ : Scheme) (value : Bytes) : Prop := value = [7]
def author (msg : Bytes) : Prop := msg ∈ [[1], [2], [10]]
def published (raw : Bytes) : Prop := raw ∈ [[20], [30]]

instance (s v) : Decidable (honest s v) := by unfold honest; infer_instance
instance (m) : Decidable (author m) := by unfold author; infer_instance

/-- Signatures of `k` are not forged. -/
def env : Env :=
  { world.env with
    ringVerify := fun s value msg sig =>
      world.env.ringVerify s value msg sig && (decide (value ≠ [7]) || decide (author msg)) }

/-- The repository of the author, and that of the attacker. -/
def good : RustTuf.World Toy.Disk :=
  Toy.repos (Toy.files [("root", some 2, 2), ("timestamp", none, 10), ("snapshot", none, 20),
    ("targets", none, 30)]) [("x".toList, [9])] 100
def bad : RustTuf.World Toy.Disk :=
  Toy.repos (Toy.files [("root", some 2, 2), ("timestamp", none, 10), ("snapshot", none, 21),
    ("targets", none, 31)]) [("x".toList, [66])] 100

def start (R : RustTuf.World Toy.Disk) : Except Err Tuf × Io Toy.Disk :=
  construct env digest R Toy.config (.trustedRoot [1]) ⟨Toy.Disk.empty, []⟩
def s1 (R : RustTuf.World Toy.Disk) : St Toy.Disk := ⟨⟨root 1, none, none, none, []⟩, (start R).2⟩
def s2 (R : RustTuf.World Toy.Disk) : St Toy.Disk := execAll env digest R Toy.config (s1 R) [.update]

theorem unforgeable : Unforgeable env honest author := by
  intro s value msg sig hh hv
  unfold honest at hh
  subst hh
  have := (Bool.and_eq_true_iff.1 hv).2
  simpa using this

theorem decoders : Decoders env :=
  have h := world.decoders (by decide) (by decide) (by decide) (by decide)
  ⟨h.root, h.timestamp, h.snapshot, h.targets, h.coherent⟩

theorem announces (v : Nat) (b : UInt8) : Announces digest (descr v b) [b] :=
  ⟨.sha256, [b], ⟨by simp [descr, Map.get?], .inr ⟨rfl, by simp [descr, Map.get?]⟩⟩, (by show 1 ≤ 10; decide), rfl⟩

theorem timestamps {ts} (h : Approved author env.timestampFromSlice ts) : ts = ⟨1, 500, descr 1 20⟩ := by
  obtain ⟨msg, h1, h2⟩ := h
  simp only [author, List.mem_cons, List.not_mem_nil, or_false] at h1
  rcases h1 with rfl | rfl | rfl <;> cases h2
  rfl

theorem snapshots {raw sn} (h1 : published raw) (h2 : Says env env.snapshotFromSlice raw sn) :
    sn = ⟨1, 500, [("targets".toList, descr 1 30)]⟩ := by
  obtain ⟨sigs, signed, msg, e1, e2, e3⟩ := h2
  simp only [published, List.mem_cons, List.not_mem_nil, or_false] at h1
  rcases h1 with rfl | rfl <;> cases e1 <;> cases e2 <;> cases e3
  rfl

theorem releases : Releases env digest author published where
  timestamp := fun ts h => by
    rw [timestamps h]
    exact ⟨[20], by simp [published], announces 1 20⟩
  snapshot := fun raw sn h1 h2 role d h3 => by
    rw [snapshots h1 h2] at h3
    have : (role, d) = ("targets".toList, descr 1 30) := by simpa using Map.mem_of_get? h3
    cases this
    exact ⟨[30], by simp [published], announces 1 30⟩

theorem oneEach : OneEach env author published where
  timestamp := fun ts ts' h h' _ => by rw [timestamps h, timestamps h']
  snapshot := fun raw raw' sn sn' role d d' h1 h1' h2 h2' h3 h3' _ => by
    rw [snapshots h1 h2] at h3
    rw [snapshots h1' h2'] at h3'
    rw [h3] at h3'
    cases h3'
    rfl

theorem guards (v : Nat) : RootGuarded honest (root v) ∧ TimestampGuarded honest (root v) := by
  refine ⟨Attack.guarded "d".toList (by show 1 < 2; decide) ?_, Attack.guarded_all (Nat.le_refl 1) ?_⟩
  · show ∀ k ∈ [Toy.key "k".toList 7, Toy.key "d".toList 8], _
    decide +kernel
  · show ∀ k ∈ [Toy.key "k".toList 7], _
    decide +kernel

/-- The hypotheses of the theorems about C106 for the repository of the author. The client delivers the
target. The attacker has all keys for snapshots and targets metadata. -/
example : Unforgeable env honest author ∧ Releases env digest author published ∧
    OneEach env author published ∧ Decoders env ∧
    start good = (.ok ⟨root 1, none, none, none, []⟩, (start good).2) ∧
    (s2 good).tuf.root = root 2 ∧ (s2 good).tuf.snapshot.isSome = true ∧ (s2 good).tuf.targets = some (listing 9) ∧
    (RootGuarded honest (root 1) ∧ TimestampGuarded honest (root 1)) ∧
    (∀ r, Approved author env.rootFromSlice r → (s1 good).tuf.root.version < r.version →
      RootGuarded honest r ∧ TimestampGuarded honest r) ∧
    NoSecondPreimage digest published (s2 good).io.log ∧
    (exec env digest good Toy.config (.fetchTargetToWriter "x".toList) (s2 good)).1 = .ok .done ∧
    (∀ k ∈ snapshotSigners (root 2) ++ targetsSigners (root 2), ¬ honest k.scheme k.value) := by
  refine ⟨unforgeable, releases, oneEach, decoders, Prod.ext (by decide +kernel) rfl, by decide +kernel,
    by decide +kernel, by decide +kernel, guards 1, fun r hr _ => ?_, fun _ _ _ _ _ h => h, by decide +kernel,
    by decide +kernel⟩
  obtain ⟨msg, h1, h2⟩ := hr
  simp only [author, List.mem_cons, List.not_mem_nil, or_false] at h1
  rcases h1 with rfl | rfl | rfl <;> cases h2
  · exact guards 1
  · exact guards 2

/-- The repository of the attacker has a snapshot and targets metadata with enough signatures. The client
trusts neither. -/
example : Authentic env env.snapshotFromSlice [21] 1 (snapshotSigners (root 2))
      ⟨1, 500, [("targets".toList, descr 1 31)]⟩ ∧
    (s2 bad).tuf.root = root 2 ∧ (s2 bad).tuf.snapshot = none ∧ (s2 bad).tuf.targets = none ∧
    (exec env digest bad Toy.config (.fetchTargetToWriter "x".toList) (s2 bad)).1 ≠ .ok .done := by
  refine ⟨⟨[21], ⟨by decide, [Toy.sign "k".toList 7 [21], Toy.sign "d".toList 8 [21]], [21], rfl, rfl,
    ["d".toList], by decide, by decide, fun id hid => ?_⟩, by decide +kernel⟩, by decide +kernel, by decide +kernel,
    by decide +kernel, by decide +kernel⟩
  simp only [List.mem_singleton] at hid
  subst hid
  refine ⟨Toy.key "d".toList 8, Toy.sign "d".toList 8 [21], ⟨rfl, [], [], rfl, by simp⟩,
    ⟨rfl, [Toy.sign "k".toList 7 [21]], [], rfl, by simp⟩, by decide +kernel, by decide +kernel⟩

/-- The author publishes two snapshots with version 1, one after the other. -/
@[reducible] def reissued : Toy.World where
  roots := [(1, root 1)]
  timestamps := [(10, ⟨1, 500, descr 1 20⟩), (11, ⟨2, 500, descr 1 21⟩)]
  snapshots := [(20, ⟨1, 500, [("targets".toList, descr 1 30)]⟩), (21, ⟨1, 500, [("targets".toList, descr 2 31)]⟩)]
  targets := [(30, listing 9), (31, { listing 66 with version := 2 })]

/-- The repository serves the second documents to clients that have stored the first ones. -/
def later : RustTuf.World Toy.Disk :=
  { good with
    remote :=
      { fetchTarget := good.remote.fetchTarget
        fetchMetadata := fun p v m h w =>
          let serve := fun (one two : UInt8) =>
            (.ok [.data [if (w.metas.get? (p, .none)).isSome then two else one]], w)
          if p = "timestamp".toList then serve 10 11
          else if p = "snapshot".toList then serve 20 21
          else if p = "targets".toList then serve 30 31
          else (.error .notFound, w) } }

end Stolen

/-- **C106.** That version numbers are used once is needed for the last theorem: if the author publishes a
second snapshot with the same version, a client that has the first one keeps it, whatever the new trusted
timestamp announces, and reports that it has updated itself. -/
theorem C106_reissued_version_is_missed : ∃ (E : Env) (D : Digest) (R : World Toy.Disk) (cfg : Config)
    (t : Tuf) (io' : Io Toy.Disk) (s : St Toy.Disk) (ts : TimestampMetadata) (sn : SnapshotMetadata),
    Decoders E ∧ (∀ a x y, D a x = D a y → x = y) ∧
    construct E D R cfg (.trustedRoot [1]) ⟨Toy.Disk.empty, []⟩ = (.ok t, io') ∧
    s = execAll E D R cfg ⟨t, io'⟩ [.update] ∧
    (exec E D R cfg .update s).1 = .ok (.updated true) ∧
    (exec E D R cfg .update s).2.tuf.timestamp = some ts ∧
    (exec E D R cfg .update s).2.tuf.snapshot = some sn ∧
    ∀ raw, Says E E.snapshotFromSlice raw sn → ¬ Announces D ts.snapshot raw := by
  refine ⟨Stolen.reissued.env, Stolen.digest, Stolen.later, Toy.config, ⟨Stolen.root 1, none, none, none, []⟩,
    (construct Stolen.reissued.env Stolen.digest Stolen.later Toy.config (.trustedRoot [1])
      ⟨Toy.Disk.empty, []⟩).2, _, ⟨2, 500, Stolen.descr 1 21⟩,
    ⟨1, 500, [("targets".toList, Stolen.descr 1 30)]⟩,
    Stolen.reissued.decoders (by decide) (by decide) (by decide) (by decide), fun _ _ _ h => h,
    Prod.ext (by decide +kernel) rfl, rfl, by decide +kernel, by decide +kernel, by decide +kernel, ?_⟩
  rintro raw ⟨sigs, signed, msg, e1, e2, e3⟩ ⟨a, v, ⟨h1, h2⟩, -, h3⟩
  have hv : v = [21] := by
    rcases h2 with rfl | ⟨rfl, -⟩ <;> cases h1
    rfl
  have hr : raw = [21] := h3.trans hv
  subst hr
  cases e1
  cases e2
  cases e3

/-- **C106.** The threshold of timestamp keys is needed: an attacker who has the only timestamp key, but less
than a threshold of root keys, makes clients deliver a target although the author has published no
documents at all. -/
theorem C106_timestamp_keys_are_needed : ∃ (E : Env) (D : Digest) (R : World Toy.Disk) (cfg : Config)
    (honest : Scheme → Bytes → Prop) (author published : Bytes → Prop) (start : Start) (t : Tuf)
    (io' : Io Toy.Disk) (s : St Toy.Disk) (path : TargetPath),
    Unforgeable E honest author ∧ Releases E D author published ∧ Decoders E ∧
    construct E D R cfg start ⟨Toy.Disk.empty, []⟩ = (.ok t, io') ∧
    s = execAll E D R cfg ⟨t, io'⟩ [.update] ∧
    RootGuarded honest t.root ∧
    (∀ r, Approved author E.rootFromSlice r → t.root.version < r.version → RootGuarded honest r) ∧
    NoSecondPreimage D published s.io.log ∧ (∀ raw, ¬ published raw) ∧
    (exec E D R cfg (.fetchTargetToWriter path) s).1 = .ok .done := by
  refine ⟨Attack.env', Toy.digest, Toy.remoteRepo, Toy.config, Attack.honest', Attack.author', fun _ => False,
    .trustedRoot [1], Toy.boot, (construct Attack.env' Toy.digest Toy.remoteRepo Toy.config (.trustedRoot [1])
      ⟨Toy.Disk.empty, []⟩).2, _, "x".toList, ?_, ⟨?_, fun _ _ h => h.elim⟩,
    ⟨Toy.env_decoders.root, Toy.env_decoders.timestamp,
      Toy.env_decoders.snapshot, Toy.env_decoders.targets, Toy.env_decoders.coherent⟩,
    Prod.ext (by decide +kernel) rfl, rfl, ?_, ?_, fun _ _ _ h => h.elim, fun _ h => h,
    by decide +kernel⟩
  · intro s value msg sig hh hv
    unfold Attack.honest' at hh
    subst hh
    have := (Bool.and_eq_true_iff.1 hv).2
    simpa using this
  · rintro ts ⟨msg, h1, h2⟩
    simp only [Attack.author', List.mem_cons, List.not_mem_nil, or_false] at h1
    rcases h1 with rfl | rfl <;> cases h2
  · exact Attack.root_guarded_d 1 1000
  · rintro r ⟨msg, h1, h2⟩ -
    simp only [Attack.author', List.mem_cons, List.not_mem_nil, or_false] at h1
    rcases h1 with rfl | rfl <;> cases h2
    · exact Attack.root_guarded_d 1 1000
    · exact Attack.root_guarded_d 2 1000

end RustTuf.Props
