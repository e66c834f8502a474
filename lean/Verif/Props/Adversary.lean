import Verif.Spec.Adversary
import Verif.Props.Client
import Verif.Props.ClientTargets

/-!
# C88: without enough keys nobody can make a client accept anything
-/

namespace RustTuf.Props
open Client Spec RustTuf

section
variable {E : Env} {honest : Scheme → Bytes → Prop} {author : Bytes → Prop}

theorem lastWith_mem {α : Type} {p : α → Prop} {l : List α} {x : α} (h : LastWith p l x) : x ∈ l := by
  obtain ⟨-, pre, post, rfl, -⟩ := h
  simp

/-- **C88.** A document that carries enough signatures for guarded keys is one the author has approved
of. -/
theorem C88_authentic_is_approved (hsig : Unforgeable E honest author) {M : Type}
    (decode : Bytes → Except Err M) (raw : Bytes) (n : Nat) (keys : List PublicKey) (m : M)
    (hg : Guarded honest n keys) (h : Authentic E decode raw n keys m) : Approved author decode m := by
  obtain ⟨msg, ⟨-, sigs, signed, -, -, ids, hnd, hlen, hall⟩, hd⟩ := h
  refine ⟨msg, ?_, hd⟩
  by_contra hna
  refine absurd (hg ids hnd fun id hid => ?_) (by omega)
  obtain ⟨k, s, hk, -, hv⟩ := hall id hid
  refine ⟨k, lastWith_mem hk, hk.1, fun hh => hna ?_⟩
  exact hsig _ _ _ _ hh hv.2

theorem rootChain_approved (hsig : Unforgeable E honest author) {a b : RootMetadata}
    (hc : RootChain E a b) (hnow : RootGuarded honest a)
    (hlater : ∀ r, Approved author E.rootFromSlice r → a.version < r.version → RootGuarded honest r) :
    b = a ∨ (Approved author E.rootFromSlice b ∧ a.version < b.version) := by
  induction hc with
  | refl => exact .inl rfl
  | step b c raw _ h1 _ hv ih =>
    have hb : RootGuarded honest b ∧ a.version ≤ b.version := by
      rcases ih with rfl | ⟨h, h'⟩
      · exact ⟨hnow, Nat.le_refl _⟩
      · exact ⟨hlater b h h', Nat.le_of_lt h'⟩
    exact .inr ⟨C88_authentic_is_approved hsig _ raw _ _ c hb.1 h1, by omega⟩

end

section client
variable {W : Type} (E : Env) (D : Digest) (R : World W) (cfg : Config) (honest : Scheme → Bytes → Prop)
  (author : Bytes → Prop) (hsig : Unforgeable E honest author)
include hsig

theorem execAll_chain (s : St W) (calls : List Call) :
    RootChain E s.tuf.root (execAll E D R cfg s calls).tuf.root := by
  obtain ⟨l, _, _, h⟩ := execAll_tr (E := E) (D := D) (cfg := cfg) (R := R) (t0 := s.tuf) (L0 := s.io.log)
    calls s ⟨[], by simp, Good.nil, rfl⟩
  rw [h]
  exact C09_root_chain E _ _

/-- **C88.** From any point on, whatever the attacker does: the trusted root stays or becomes a newer one
that the author has approved of, if the attacker has less than a threshold of the root keys of the root
that is trusted at this point and of each later root of the author. Roots before it do not matter, so
keys that a rotation has removed are harmless. -/
theorem C88_roots_are_the_authors (s : St W) (calls : List Call) (hnow : RootGuarded honest s.tuf.root)
    (hlater : ∀ r, Approved author E.rootFromSlice r → s.tuf.root.version < r.version →
      RootGuarded honest r) :
    (execAll E D R cfg s calls).tuf.root = s.tuf.root ∨
      (Approved author E.rootFromSlice (execAll E D R cfg s calls).tuf.root ∧
        s.tuf.root.version < (execAll E D R cfg s calls).tuf.root.version) :=
  rootChain_approved hsig (execAll_chain E D R cfg honest author hsig s calls) hnow hlater

/-- **C88.** A client that is installed with keys starts with a root the author has approved of, if the
attacker has less than a threshold of these keys. -/
theorem C88_installed_with_keys (v : MetadataVersion) (n : Nat) (keys : List PublicKey) (t : Tuf)
    (h : StartsWith E (.trustedRootKeys v n keys) t) (hg : Guarded honest n keys) :
    Approved author E.rootFromSlice t.root := by
  obtain ⟨raw, h⟩ := h
  obtain ⟨r, h1, -, rfl⟩ := (C06_bootstrap_trusted_keys E raw n keys t).1 h
  exact C88_authentic_is_approved hsig _ raw n keys r hg h1

/-- **C88.** Trusted timestamp, snapshot and targets metadata is what the author has approved of, each if
the attacker has less than a threshold of the keys that the trusted root lists for this role. The keys
of the other roles do not matter. -/
theorem C88_trusted_is_the_authors (hE : Decoders E) (start : Start) (io io' : Io W) (t : Tuf)
    (h : construct E D R cfg start io = (.ok t, io')) (calls : List Call) :
    let t' := (execAll E D R cfg ⟨t, io'⟩ calls).tuf
    (Guarded honest t'.root.timestamp.threshold (timestampSigners t'.root) →
      ∀ m, t'.timestamp = some m → Approved author E.timestampFromSlice m) ∧
    (Guarded honest t'.root.snapshot.threshold (snapshotSigners t'.root) →
      ∀ m, t'.snapshot = some m → Approved author E.snapshotFromSlice m) ∧
    (TargetsGuarded honest t'.root →
      ∀ m, t'.targets = some m → Approved author E.targetsFromSlice m) := by
  obtain ⟨t0, ops, h0, h1⟩ := C28_client_refines_tuf E D R cfg start io io' t h calls
  obtain ⟨a1, a2, a3⟩ := C19_signed_under_current_root E hE t0 (startsWith_fresh h0) ops
  dsimp only
  rw [h1]
  refine ⟨fun hg m hm => ?_, fun hg m hm => ?_, fun hg m hm => ?_⟩
  · obtain ⟨raw, hr⟩ := a1 m hm
    exact C88_authentic_is_approved hsig _ raw _ _ m hg hr
  · obtain ⟨raw, hr⟩ := a2 m hm
    exact C88_authentic_is_approved hsig _ raw _ _ m hg hr
  · obtain ⟨raw, hr⟩ := a3 m hm
    exact C88_authentic_is_approved hsig _ raw _ _ m hg hr

/-- Whenever the keys are guarded from some state on, the trusted targets metadata is the author's. -/
theorem listing_is_the_authors (hE : Decoders E) (start : Start) (io io' : Io W) (t : Tuf)
    (h : construct E D R cfg start io = (.ok t, io')) (before after : List Call)
    (s1 s2 : St W) (hs1 : s1 = execAll E D R cfg ⟨t, io'⟩ before)
    (hs2 : s2 = execAll E D R cfg s1 after)
    (hnow : RootGuarded honest s1.tuf.root ∧ TargetsGuarded honest s1.tuf.root)
    (hlater : ∀ r, Approved author E.rootFromSlice r → s1.tuf.root.version < r.version →
      RootGuarded honest r ∧ TargetsGuarded honest r) (ta : TargetsMetadata)
    (hta : s2.tuf.targets = some ta) : Approved author E.targetsFromSlice ta := by
  have hroot := C88_roots_are_the_authors E D R cfg honest author hsig s1 after hnow.1
    fun r h1 h2 => (hlater r h1 h2).1
  have htg : TargetsGuarded honest s2.tuf.root := by
    rw [← hs2] at hroot
    rcases hroot with e | ⟨e1, e2⟩
    · rw [e]; exact hnow.2
    · exact (hlater _ e1 e2).2
  have hall := C88_trusted_is_the_authors E D R cfg honest author hsig hE start io io' t h (before ++ after)
  have e : execAll E D R cfg ⟨t, io'⟩ (before ++ after) = s2 := by
    rw [hs2, hs1]
    unfold execAll
    rw [List.foldl_append]
  dsimp only at hall
  rw [e] at hall
  exact hall.2.2 htg ta hta

/-- **C88.** Nobody can make a client deliver anything but the author's targets. Let the client be in any
state of any session, with a root such that the attacker has less than a threshold of its root keys and
of its targets keys, and likewise for each later root of the author. Then whatever is later written for
a target path with success matches a description that the author has approved of for this path. It does
not matter who has the keys for timestamps and snapshots, keys of earlier roots, the repositories, the
network, the clock and the local files. -/
theorem C88_delivered_is_the_authors (hE : Decoders E) (start : Start) (io io' : Io W) (t : Tuf)
    (h : construct E D R cfg start io = (.ok t, io')) (before after : List Call)
    (s1 s2 s3 : St W) (hs1 : s1 = execAll E D R cfg ⟨t, io'⟩ before)
    (hs2 : s2 = execAll E D R cfg s1 after)
    (hnow : RootGuarded honest s1.tuf.root ∧ TargetsGuarded honest s1.tuf.root)
    (hlater : ∀ r, Approved author E.rootFromSlice r → s1.tuf.root.version < r.version →
      RootGuarded honest r ∧ TargetsGuarded honest r)
    (path : TargetPath) (reply : Reply)
    (hget : exec E D R cfg (.fetchTargetToWriter path) s2 = (.ok reply, s3)) :
    ∃ ta virt d l, Approved author E.targetsFromSlice ta ∧ cfg.realToVirtual path = .ok virt ∧
      ta.targets.get? virt = some d ∧ s3.io.log = s2.io.log ++ l ∧ Matches D d (written l) ∧
      ∀ content, Matches D d content → content = written l ∨
        ∃ a, (a = .sha256 ∨ a = .sha512) ∧ D a content = D a (written l) ∧ content ≠ written l := by
  obtain ⟨d, l, ⟨virt, ta, h1, h2, h3⟩, h4, h5⟩ := C33_writer_gets_the_target E D R cfg path s2 s3 reply hget
  refine ⟨ta, virt, d, l, listing_is_the_authors E D R cfg honest author hsig hE start io io' t h before after
    s1 s2 hs1 hs2 hnow hlater ta h2, h1, h3, h4, h5, fun content hc => ?_⟩
  by_cases hne : content = written l
  · exact .inl hne
  · obtain ⟨a, v, p1, -, q1⟩ := h5
    obtain ⟨a', v', p2, -, q2⟩ := hc
    have : a = a' ∧ v = v' := by
      obtain ⟨g1, g2⟩ := p1
      obtain ⟨g3, g4⟩ := p2
      rcases g2 with rfl | ⟨rfl, g2⟩ <;> rcases g4 with rfl | ⟨rfl, g4⟩
      · rw [g1] at g3; cases g3; exact ⟨rfl, rfl⟩
      · rw [g1] at g4; cases g4
      · rw [g2] at g3; cases g3
      · rw [g1] at g3; cases g3; exact ⟨rfl, rfl⟩
    obtain ⟨rfl, rfl⟩ := this
    exact .inr ⟨a, p1.2.elim .inr fun h => .inl h.1, q2.trans q1.symm, hne⟩

/-- **C88.** The same for what is stored: if fetching a target into the local repository succeeds, the
file holds something that matches a description that the author has approved of for this path, and no
other target file has changed. -/
theorem C88_stored_is_the_authors (get : W → TargetPath → Option Bytes) (hR : KeepsTargets R get)
    (hE : Decoders E) (start : Start) (io io' : Io W) (t : Tuf)
    (h : construct E D R cfg start io = (.ok t, io')) (before after : List Call)
    (s1 s2 s3 : St W) (hs1 : s1 = execAll E D R cfg ⟨t, io'⟩ before)
    (hs2 : s2 = execAll E D R cfg s1 after)
    (hnow : RootGuarded honest s1.tuf.root ∧ TargetsGuarded honest s1.tuf.root)
    (hlater : ∀ r, Approved author E.rootFromSlice r → s1.tuf.root.version < r.version →
      RootGuarded honest r ∧ TargetsGuarded honest r)
    (path : TargetPath) (reply : Reply)
    (hget : exec E D R cfg (.fetchTarget path) s2 = (.ok reply, s3)) :
    ∃ ta virt d content, Approved author E.targetsFromSlice ta ∧ cfg.realToVirtual path = .ok virt ∧
      ta.targets.get? virt = some d ∧ get s3.io.w path = some content ∧ Matches D d content ∧
      ∀ q, q ≠ path → get s3.io.w q = get s2.io.w q := by
  obtain ⟨d, content, ⟨virt, ta, h1, h2, h3⟩, h4, h5, h6⟩ :=
    C33_stored_target_matches E D R cfg get hR path s2 s3 reply hget
  exact ⟨ta, virt, d, content, listing_is_the_authors E D R cfg honest author hsig hE start io io' t h before
    after s1 s2 hs1 hs2 hnow hlater ta h2, h1, h3, h5, h4, h6⟩

end client

/-! ### Examples -/

namespace Attack

/-- The attacker has key `d`. Key `k` is honest, and the author has approved of these documents. -/
def honest (_ : Scheme) (value : Bytes) : Prop := value = [7]
def author (msg : Bytes) : Prop := msg ∈ [[1], [2], [10], [20], [30]]

instance (s v) : Decidable (honest s v) := by unfold honest; infer_instance
instance (m) : Decidable (author m) := by unfold author; infer_instance

/-- Signatures that the attacker cannot make. -/
def env : Env :=
  { Toy.env with
    ringVerify := fun s value msg sig =>
      Toy.env.ringVerify s value msg sig && (decide (value ≠ [7]) || decide (author msg)) }

theorem unforgeable : Unforgeable env honest author := by
  intro s value msg sig hh hv
  unfold honest at hh
  subst hh
  have := (Bool.and_eq_true_iff.1 hv).2
  simpa using this

theorem guarded {honest : Scheme → Bytes → Prop} {keys : List PublicKey} {n : Nat} (bad : KeyId)
    (hn : 1 < n) (h : ∀ k ∈ keys, honest k.scheme k.value ∨ k.keyId = bad) : Guarded honest n keys := by
  intro ids hnd hall
  have : ∀ id ∈ ids, id = bad := by
    intro id hid
    obtain ⟨k, hk, rfl, hn⟩ := hall id hid
    exact (h k hk).resolve_left hn
  match ids, hnd, this with
  | [], _, _ => exact Nat.lt_trans (by decide) hn
  | [_], _, _ => exact hn
  | a :: b :: _, hnd, h =>
    have ea := h a (by simp)
    have eb := h b (by simp)
    rw [ea, eb] at hnd
    simp at hnd

theorem guarded_all {honest : Scheme → Bytes → Prop} {keys : List PublicKey} {n : Nat}
    (hn : 1 ≤ n) (h : ∀ k ∈ keys, honest k.scheme k.value) : Guarded honest n keys := by
  intro ids _ hall
  cases ids with
  | nil => exact hn
  | cons a l =>
    obtain ⟨k, hk, _, hb⟩ := hall a (by simp)
    exact absurd (h k hk) hb

theorem root_guarded_d (v e) : RootGuarded (fun _ value => value = [8]) (Toy.root v e) := by
  refine guarded "k".toList (by show 1 < 2; decide) ?_
  show ∀ k ∈ [Toy.key "k".toList 7, Toy.key "d".toList 8], _
  decide +kernel

theorem root_guarded (v e) : RootGuarded honest (Toy.root v e) ∧ TargetsGuarded honest (Toy.root v e) := by
  refine ⟨guarded "d".toList (by show 1 < 2; decide) ?_, guarded_all (Nat.le_refl 1) ?_⟩
  · show ∀ k ∈ [Toy.key "k".toList 7, Toy.key "d".toList 8], _
    decide +kernel
  · show ∀ k ∈ [Toy.key "k".toList 7], _
    decide +kernel

theorem approved_roots (r) (h : Approved author env.rootFromSlice r) : ∃ v e, r = Toy.root v e := by
  obtain ⟨msg, h1, h2⟩ := h
  simp only [author, List.mem_cons, List.not_mem_nil, or_false] at h1
  rcases h1 with rfl | rfl | rfl | rfl | rfl
  · exact ⟨1, 1000, by cases h2; rfl⟩
  · exact ⟨2, 1000, by cases h2; rfl⟩
  all_goals cases h2

theorem decoders : Decoders env :=
  have h := Toy.env_decoders
  ⟨h.root, h.timestamp, h.snapshot, h.targets, h.coherent⟩

/-- The client after construction from the author's root. -/
def start : Except Err Tuf × Io Toy.Disk :=
  construct env Toy.digest Toy.remoteRepo Toy.config (.trustedRoot [1]) ⟨Toy.Disk.empty, []⟩

def s1 : St Toy.Disk := ⟨Toy.boot, start.2⟩
def s2 : St Toy.Disk := execAll env Toy.digest Toy.remoteRepo Toy.config s1 [.update]

/-- The hypotheses of C88_delivered_is_the_authors, and with them of the other theorems: the attacker has
one of the two root keys. -/
example : Unforgeable env honest author ∧ Decoders env ∧ ¬ honest .ed25519 [8] ∧
    start = (.ok Toy.boot, start.2) ∧ s2.tuf.root.version = 2 ∧
    (RootGuarded honest s1.tuf.root ∧ TargetsGuarded honest s1.tuf.root) ∧
    (∀ r, Approved author env.rootFromSlice r → s1.tuf.root.version < r.version →
      RootGuarded honest r ∧ TargetsGuarded honest r) ∧
    (exec env Toy.digest Toy.remoteRepo Toy.config (.fetchTargetToWriter "x".toList) s2).1 = .ok .done := by
  refine ⟨unforgeable, decoders, by decide, Prod.ext (by decide +kernel) rfl, by decide +kernel,
    root_guarded 1 1000, fun r hr _ => ?_, by decide +kernel⟩
  obtain ⟨v, e, rfl⟩ := approved_roots r hr
  exact root_guarded v e

/-- The further hypotheses of C88_stored_is_the_authors. -/
example : KeepsTargets Toy.remoteRepo (fun w p => w.targets.get? p) ∧
    (exec env Toy.digest Toy.remoteRepo Toy.config (.fetchTarget "x".toList) s2).1 = .ok .done :=
  ⟨toy_keepsTargets _ _ _, by decide +kernel⟩

/-- The hypotheses of C88_installed_with_keys. -/
example : StartsWith env (.trustedRootKeys (.number 1) 2 [Toy.key "k".toList 7, Toy.key "d".toList 8])
      Toy.boot ∧ Guarded honest 2 [Toy.key "k".toList 7, Toy.key "d".toList 8] :=
  ⟨⟨[1], by decide +kernel⟩, guarded "d".toList (by decide) (by decide +kernel)⟩

/-- Now key `d` is honest and the attacker has key `k`, with which targets metadata is signed. -/
def honest' (_ : Scheme) (value : Bytes) : Prop := value = [8]
def author' (msg : Bytes) : Prop := msg ∈ [[1], [2]]

instance (m) : Decidable (author' m) := by unfold author'; infer_instance

def env' : Env :=
  { Toy.env with
    ringVerify := fun s value msg sig =>
      Toy.env.ringVerify s value msg sig && (decide (value ≠ [8]) || decide (author' msg)) }

end Attack

/-- **C88.** The threshold of targets keys is needed: an attacker who has the only targets key, but less
than a threshold of root keys, makes clients deliver a target although the author has approved of no
targets metadata at all. -/
theorem C88_targets_keys_are_needed : ∃ (E : Env) (D : Digest) (R : World Toy.Disk) (cfg : Config)
    (honest : Scheme → Bytes → Prop) (author : Bytes → Prop) (start : Start) (t : Tuf) (io' : Io Toy.Disk)
    (s : St Toy.Disk) (path : TargetPath),
    Unforgeable E honest author ∧ Decoders E ∧
    construct E D R cfg start ⟨Toy.Disk.empty, []⟩ = (.ok t, io') ∧
    s = execAll E D R cfg ⟨t, io'⟩ [.update] ∧
    RootGuarded honest t.root ∧
    (∀ r, Approved author E.rootFromSlice r → t.root.version < r.version → RootGuarded honest r) ∧
    (∀ ta, ¬ Approved author E.targetsFromSlice ta) ∧
    (exec E D R cfg (.fetchTargetToWriter path) s).1 = .ok .done := by
  refine ⟨Attack.env', Toy.digest, Toy.remoteRepo, Toy.config, Attack.honest', Attack.author',
    .trustedRoot [1], Toy.boot, (construct Attack.env' Toy.digest Toy.remoteRepo Toy.config (.trustedRoot [1])
      ⟨Toy.Disk.empty, []⟩).2, _, "x".toList, ?_, ⟨Toy.env_decoders.root, Toy.env_decoders.timestamp,
      Toy.env_decoders.snapshot, Toy.env_decoders.targets, Toy.env_decoders.coherent⟩,
    Prod.ext (by decide +kernel) rfl, rfl, ?_, ?_, ?_,
    by decide +kernel⟩
  · intro s value msg sig hh hv
    unfold Attack.honest' at hh
    subst hh
    have := (Bool.and_eq_true_iff.1 hv).2
    simpa using this
  · exact Attack.root_guarded_d 1 1000
  · rintro r ⟨msg, h1, h2⟩ -
    simp only [Attack.author', List.mem_cons, List.not_mem_nil, or_false] at h1
    rcases h1 with rfl | rfl <;> cases h2
    · exact Attack.root_guarded_d 1 1000
    · exact Attack.root_guarded_d 2 1000
  · rintro ta ⟨msg, h1, h2⟩
    simp only [Attack.author', List.mem_cons, List.not_mem_nil, or_false] at h1
    rcases h1 with rfl | rfl <;> cases h2
end RustTuf.Props
