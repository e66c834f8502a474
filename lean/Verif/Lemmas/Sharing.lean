import Verif.Spec.Sharing
import Verif.Lemmas.Crash
import Verif.Props.Agreement
import Verif.Props.ClientHonest

/-!
# A local repository that several clients use at the same time
-/

namespace RustTuf.Props
open Client Spec Tuf

variable {W : Type} {E : Env} {D : Digest} {cfg : Config} {R : World W} {file : W → Files}
  {a : RootMetadata}

/-! ### The files -/

theorem Others.trans {F F' F'' : Files} (h : Others E cfg a F F') (h' : Others E cfg a F' F'') :
    Others E cfg a F F'' := by
  induction h' with
  | none => exact h
  | file G G' _ hf ih => exact .file G G' ih hf
  | root G b c raw _ h1 h2 h3 h4 ih => exact .root G b c raw ih h1 h2 h3 h4

/-- Roots do not disappear. -/
theorem Others.stays {F F' : Files} (h : Others E cfg a F F') {n : Nat}
    (hn : F "root".toList (.number n) ≠ none) : F' "root".toList (.number n) ≠ none := by
  induction h with
  | none => exact hn
  | file G G' _ hf ih => rw [hf]; exact ih
  | root G b c raw _ _ _ _ _ ih =>
    unfold Files.put
    split
    · simp
    · exact ih

/-- The roots in the files: each one is accepted after a root on the way from `a`, and there are no
gaps. -/
structure Whole (E : Env) (cfg : Config) (a : RootMetadata) (F : Files) : Prop where
  valid : ∀ n raw, a.version < n → F "root".toList (.number n) = some raw → ∃ b c, RootChain E a b ∧
    Succeeds E b raw c ∧ c.version = n ∧ NotLonger cfg.maxRootLength raw
  gapless : ∀ n, a.version < n → F "root".toList (.number (n + 1)) ≠ none →
    F "root".toList (.number n) ≠ none

theorem whole_of_none {F : Files} (h : ∀ n, a.version < n → F "root".toList (.number n) = none) :
    Whole E cfg a F :=
  ⟨fun n raw hn hr => (by rw [h n hn] at hr; cases hr), fun n hn h' => absurd (h (n + 1) (by omega)) h'⟩

theorem Whole.others {F F' : Files} (h : Whole E cfg a F) (ho : Others E cfg a F F') :
    Whole E cfg a F' := by
  induction ho with
  | none => exact h
  | file G G' _ hf ih =>
    exact ⟨fun n raw hn hr => ih.valid n raw hn (by rw [← hf]; exact hr),
      fun n hn h' => by rw [hf] at h' ⊢; exact ih.gapless n hn h'⟩
  | root G b c raw _ h1 h2 h3 h4 ih =>
    have hv := h3.next
    refine ⟨fun n raw' hn hr => ?_, fun n hn h' => ?_⟩
    · unfold Files.put at hr
      split at hr
      · rename_i e
        have : n = c.version := by simpa using e.2
        cases hr
        exact ⟨b, c, h1, h3, this.symm, h4⟩
      · exact ih.valid n raw' hn hr
    · by_cases e : n = c.version
      · simp [Files.put, e]
      · have e2 : Files.put G "root".toList (.number c.version) raw "root".toList (.number n) =
            G "root".toList (.number n) := by
          unfold Files.put; rw [if_neg (by simpa using e)]
        rw [e2]
        by_cases e' : n + 1 = c.version
        · rcases h2 with rfl | h2
          · omega
          · have : n = b.version := by omega
            rw [this]; exact h2
        · refine ih.gapless n hn ?_
          unfold Files.put at h'
          rwa [if_neg (by simpa using e')] at h'

/-- If the root after `v` is not there, no later one is there. -/
theorem Whole.last {F : Files} (h : Whole E cfg a F) {v n : Nat} (hv : a.version ≤ v)
    (hnone : F "root".toList (.number (v + 1)) = none) (hn : F "root".toList (.number n) ≠ none) :
    n ≤ v := by
  by_contra hlt
  have : ∀ k, F "root".toList (.number (v + 1 + k)) = none := by
    intro k
    induction k with
    | zero => exact hnone
    | succ k ih =>
      by_contra h'
      exact h.gapless (v + 1 + k) (by omega) h' ih
  exact hn (by have := this (n - (v + 1)); rwa [show v + 1 + (n - (v + 1)) = n by omega] at this)

theorem rootChain_unique (hno : NoForks E a) {b c : RootMetadata} (hb : RootChain E a b)
    (hc : RootChain E a c) (hv : b.version = c.version) (hbound : b.version ≤ max a.version 4294967295) :
    b = c := by
  induction hb generalizing c with
  | refl =>
    cases hc with
    | refl => rfl
    | step d _ raw h1 h2 h3 h4 => have := rootChain_le h1; omega
  | step d b raw h1 h2 h3 h4 ih =>
    cases hc with
    | refl => have := rootChain_le h1; omega
    | step d' _ raw' g1 g2 g3 g4 =>
      cases ih g1 (by omega) (by omega)
      have := rootChain_le h1
      exact hno d b c raw raw' h1 ⟨h2, h3, h4, by omega⟩ ⟨g2, g3, g4, by omega⟩

theorem notLonger_of_readable {D : Digest} {m : Option Nat} {h : HashData} {raw : Bytes}
    (hr : Readable D m h raw) : NotLonger m raw := by
  have := hr.1
  unfold limit at this
  refine ⟨by simp only [u64Max] at this; omega, ?_⟩
  rintro n rfl
  simp only [Option.getD_some] at this; omega

/-! ### What a client does -/

/-- The files have been changed in allowed ways only since they were `F`, and the trusted root comes
from `a` and is in the files. -/
structure Sound (E : Env) (cfg : Config) (a : RootMetadata) (file : W → Files) (F : Files) (s : St W) :
    Prop where
  since : Others E cfg a F (file s.io.w)
  chain : RootChain E a s.tuf.root
  has : s.tuf.root = a ∨ file s.io.w "root".toList (.number s.tuf.root.version) ≠ none

variable {F : Files}

theorem Sound.move {s s' : St W} (h : Sound E cfg a file F s) (hr : s'.tuf.root = s.tuf.root)
    (ho : Others E cfg a (file s.io.w) (file s'.io.w)) : Sound E cfg a file F s' :=
  ⟨Others.trans h.since ho, by rw [hr]; exact h.chain, by rw [hr]; exact h.has.imp id (Others.stays ho)⟩

/-- A request, seen from the files. -/
theorem fetch_shared (hR : Shared R file (Others E cfg a)) (src : Source) (role : Role) (p : MetadataPath)
    (v : MetadataVersion) (m : Option Nat) (h : HashData) (t : Tuf) (F : Files) :
    Tri (fun s : St W => s.tuf = t ∧ Others E cfg a F (file s.io.w))
      (lift (fetchMetadata D R src role p v m h))
      (fun raw s => (Readable D m h raw ∧ (src = .cache → ∃ G, Others E cfg a F G ∧
          Others E cfg a G (file s.io.w) ∧ G p v = some raw)) ∧
        s.tuf = t ∧ Others E cfg a F (file s.io.w))
      (fun e s => (src = .cache → role.fuzzyMatchesPath p = true → Usable h → ∃ G, Others E cfg a F G ∧
          Others E cfg a G (file s.io.w) ∧
          (e = .notFound ∧ G p v = none ∨ ∃ raw, G p v = some raw ∧ ¬ Readable D m h raw)) ∧
        s.tuf = t ∧ Others E cfg a F (file s.io.w)) := by
  have key : Tri (fun io : Io W => Others E cfg a F (file io.w)) (fetchMetadata D R src role p v m h)
      (fun raw io => (Readable D m h raw ∧ (src = .cache → ∃ G, Others E cfg a F G ∧
          Others E cfg a G (file io.w) ∧ G p v = some raw)) ∧ Others E cfg a F (file io.w))
      (fun e io => (src = .cache → role.fuzzyMatchesPath p = true → Usable h → ∃ G, Others E cfg a F G ∧
          Others E cfg a G (file io.w) ∧
          (e = .notFound ∧ G p v = none ∨ ∃ raw, G p v = some raw ∧ ¬ Readable D m h raw)) ∧
        Others E cfg a F (file io.w)) := by
    unfold fetchMetadata
    refine Tri.bind (Q := fun _ io => Others E cfg a F (file io.w))
      (Tri.ofExcept (fun _ _ _ hs => hs) (fun e io he hs => ⟨fun _ hm => ?_, hs⟩)) fun _ => ?_
    · unfold checkRole at he
      rw [if_neg (by simp [hm])] at he
      cases he
    refine Tri.bind (Q := fun _ (io : Io W) => Others E cfg a F (file io.w)) (fun io hs => hs) fun _ => ?_
    refine Tri.bind (Q := fun evs io => (src = .cache → ∃ G b, Others E cfg a F G ∧
      Others E cfg a G (file io.w) ∧ G p v = some b ∧ delivered evs = (b, .eof)) ∧
      Others E cfg a F (file io.w)) (fun io hs => ?_) fun evs => ?_
    · unfold Io.call
      cases src with
      | remote =>
        have hk : Others E cfg a (file io.w) (file ((R.provider .remote).fetchMetadata p v m h io.w).2) :=
          hR.remoteFetch p v m h io.w
        cases hq : (R.provider .remote).fetchMetadata p v m h io.w with
        | mk r w' =>
          rw [hq] at hk
          cases r <;> exact ⟨(fun e => nomatch e), Others.trans hs hk⟩
      | cache =>
        obtain ⟨G, g1, g2, g3⟩ := hR.cached p v m h io.w
        change Others E cfg a G (file ((R.provider .cache).fetchMetadata p v m h io.w).2) at g2
        change match G p v with
          | some b => ∃ evs, ((R.provider .cache).fetchMetadata p v m h io.w).1 = .ok evs ∧
              delivered evs = (b, .eof)
          | none => ((R.provider .cache).fetchMetadata p v m h io.w).1 = .error .notFound at g3
        cases hq : (R.provider .cache).fetchMetadata p v m h io.w with
        | mk r w' =>
          rw [hq] at g2 g3
          have hF : Others E cfg a F (file w') := Others.trans hs (Others.trans g1 g2)
          cases hG : G p v with
          | none =>
            rw [hG] at g3
            cases g3
            exact ⟨fun _ _ _ => ⟨G, Others.trans hs g1, g2, .inl ⟨rfl, hG⟩⟩, hF⟩
          | some b =>
            rw [hG] at g3
            obtain ⟨evs, h1, h2⟩ := g3
            cases h1
            exact ⟨fun _ => ⟨G, b, Others.trans hs g1, g2, hG, h2⟩, hF⟩
    · refine Tri.bind (Q := fun raw io => (Readable D m h raw ∧ (src = .cache → ∃ G, Others E cfg a F G ∧
          Others E cfg a G (file io.w) ∧ G p v = some raw)) ∧ Others E cfg a F (file io.w))
        (Tri.ofExcept ?_ ?_) fun raw => ?_
      · rintro raw io hr ⟨h1, h2⟩
        obtain ⟨h3, h4⟩ := readChecked_ok hr
        refine ⟨⟨h3, fun e => ?_⟩, h2⟩
        obtain ⟨G, b, g1, g2, g3, g4⟩ := h1 e
        rw [h4] at g4; cases g4
        exact ⟨G, g1, g2, g3⟩
      · rintro e io hr ⟨h1, h2⟩
        refine ⟨fun hsrc _ hu => ?_, h2⟩
        obtain ⟨G, b, g1, g2, g3, g4⟩ := h1 hsrc
        refine ⟨G, g1, g2, .inr ⟨b, g3, fun hread => ?_⟩⟩
        rw [readChecked_of_readable hu hread g4] at hr
        cases hr
      · exact Tri.bind (Q := fun _ (io : Io W) => (Readable D m h raw ∧ (src = .cache → ∃ G, Others E cfg a F G ∧
          Others E cfg a G (file io.w) ∧ G p v = some raw)) ∧ Others E cfg a F (file io.w))
          (fun io hs => hs) fun _ => Tri.ret fun io hs => hs
  exact (Tri.lift key t).conseq (fun _ h => h) (fun _ _ h => ⟨h.2.1, h.1, h.2.2⟩)
    (fun _ _ h => ⟨h.2.1, h.1, h.2.2⟩)

/-- A write of a file that the client may write. -/
theorem store_shared (hR : Shared R file (Others E cfg a)) (role : Role) (p : MetadataPath)
    (v : MetadataVersion) (raw : Bytes) (t : Tuf) (F : Files)
    (hput : ∀ G, Others E cfg a F G → Others E cfg a G (G.put p v raw)) :
    Tri (fun s : St W => s.tuf = t ∧ Others E cfg a F (file s.io.w))
      (lift (storeMetadata R role p v raw))
      (fun _ s => (∃ G : Files, Others E cfg a (G.put p v raw) (file s.io.w)) ∧ s.tuf = t ∧
        Others E cfg a F (file s.io.w))
      (fun _ s => ¬ (role.fuzzyMatchesPath p = true ∧ Writable R) ∧ s.tuf = t ∧
        Others E cfg a F (file s.io.w)) := by
  have key : Tri (fun io : Io W => Others E cfg a F (file io.w)) (storeMetadata R role p v raw)
      (fun _ io => (∃ G : Files, Others E cfg a (G.put p v raw) (file io.w)) ∧
        Others E cfg a F (file io.w))
      (fun _ io => ¬ (role.fuzzyMatchesPath p = true ∧ Writable R) ∧
        Others E cfg a F (file io.w)) := by
    unfold storeMetadata
    refine Tri.bind (Q := fun _ io => Others E cfg a F (file io.w))
      (Tri.ofExcept (fun _ _ _ hs => hs) (fun e io he hs => ⟨fun hm => ?_, hs⟩)) fun _ => ?_
    · unfold checkRole at he
      rw [if_neg (by simp [hm.1])] at he
      cases he
    refine Tri.bind (Q := fun _ (io : Io W) => Others E cfg a F (file io.w)) (fun io hs => hs) fun _ => ?_
    intro io hs
    unfold Io.call
    obtain ⟨G, g1, g2⟩ := hR.store p v raw io.w
    cases hq : R.storeMetadata p v raw io.w with
    | mk r w' =>
      rw [hq] at g2
      have hG := Others.trans hs g1
      rcases g2 with ⟨e, g2⟩ | ⟨⟨x, e⟩, g2⟩
      · cases e
        exact ⟨⟨G, g2⟩, Others.trans hG (Others.trans (hput G hG) g2)⟩
      · cases e
        refine ⟨fun hm => ?_, Others.trans hG g2⟩
        have := hm.2 p v raw io.w
        rw [hq] at this; cases this
  exact (Tri.lift key t).conseq (fun _ h => h) (fun _ _ h => ⟨h.2.1, h.1, h.2.2⟩)
    (fun _ _ h => ⟨h.2.1, h.1, h.2.2⟩)

theorem others_put_none (G : Files) (p : MetadataPath) (raw : Bytes) :
    Others E cfg a G (G.put p .none raw) := .file G _ .none fun n => by simp [Files.put]

/-! ### The parts of a call -/

theorem sound_fetch (hR : Shared R file (Others E cfg a)) (src : Source) (role : Role) (p : MetadataPath)
    (v : MetadataVersion) (m : Option Nat) (h : HashData) :
    Keeps (Sound E cfg a file F) (lift (fetchMetadata D R src role p v m h)) := by
  refine Tri.fix fun s0 h0 => ?_
  exact (fetch_shared hR src role p v m h s0.tuf (file s0.io.w)).conseq
    (by rintro s rfl; exact ⟨rfl, .none⟩) (fun _ s h => h0.move (by rw [h.2.1]) h.2.2)
    (fun _ s h => h0.move (by rw [h.2.1]) h.2.2)

theorem sound_clock (hR : Shared R file (Others E cfg a)) :
    Keeps (Sound E cfg a file F) (getClock R) :=
  Tri.getClock fun s hs => hs.move rfl (hR.clock s.io.w)

theorem sound_op (o : Op) (ho : ∀ raw, o ≠ .root raw) :
    Keeps (Sound E cfg a file F) (updateTuf (W := W) E o) := by
  refine Tri.updateTuf ?_
  intro s o' t' hs hst
  have key : Sound E cfg a file F ⟨t', ⟨s.io.w, s.io.log ++ [LogEntry.op o o']⟩⟩ :=
    hs.move (step_root_eq hst ho) .none
  cases o' <;> exact key

theorem sound_store (hR : Shared R file (Others E cfg a)) (role : Role) (p : MetadataPath) (raw : Bytes) :
    Keeps (Sound E cfg a file F) (lift (storeMetadata R role p .none raw)) := by
  refine Tri.fix fun s0 h0 => ?_
  exact (store_shared hR role p .none raw s0.tuf (file s0.io.w) fun G _ => others_put_none G p raw).conseq
    (by rintro s rfl; exact ⟨rfl, .none⟩) (fun _ s h => h0.move (by rw [h.2.1]) h.2.2)
    (fun _ s h => h0.move (by rw [h.2.1]) h.2.2)

theorem sound_finish (hR : Shared R file (Others E cfg a)) (o : Op) (ho : ∀ raw, o ≠ .root raw)
    (role : Role) (p : MetadataPath) (raw : Bytes) (persist : Bool) :
    Keeps (Sound E cfg a file F) (do match ← updateTuf E o with
          | .changed =>
            M.when persist (lift (storeMetadata R role p .none raw))
            return true
          | _ => return false) := by
  refine (sound_op o ho).bind fun out => ?_
  cases out with
  | changed => exact (Keeps.when fun _ => sound_store hR _ _ _).bind fun _ => Keeps.ret _
  | unchanged => exact Keeps.ret _
  | failed e => exact Keeps.ret _

theorem sound_timestamp (hR : Shared R file (Others E cfg a)) (src : Source) (persist : Bool) :
    Keeps (Sound E cfg a file F) (updateTimestampWithRepos E D R cfg src persist) := by
  unfold updateTimestampWithRepos
  refine (sound_fetch hR src _ _ _ _ _).bind fun raw => (sound_clock hR).bind fun c => ?_
  exact sound_finish hR _ (by simp) _ _ _ _

theorem sound_snapshot (hR : Shared R file (Others E cfg a)) (src : Source) (persist consistent : Bool) :
    Keeps (Sound E cfg a file F) (updateSnapshotWithRepos E D R src persist consistent) := by
  unfold updateSnapshotWithRepos
  refine (keeps_getTuf _).bind fun t => ?_
  cases t.timestamp with
  | none => exact Keeps.fail _
  | some ts =>
    refine Keeps.ite (fun _ => Keeps.ret _) fun _ => (Keeps.ofExcept _).bind fun p => ?_
    obtain ⟨a, v⟩ := p
    refine (sound_fetch hR src _ _ _ _ _).bind fun raw => (sound_clock hR).bind fun c => ?_
    exact sound_finish hR _ (by simp) _ _ _ _

theorem sound_targets (hR : Shared R file (Others E cfg a)) (src : Source) (persist consistent : Bool) :
    Keeps (Sound E cfg a file F) (updateTargetsWithRepos E D R src persist consistent) := by
  unfold updateTargetsWithRepos
  refine (keeps_getTuf _).bind fun t => ?_
  cases t.snapshot with
  | none => exact Keeps.fail _
  | some sn =>
    dsimp only
    cases sn.metas.get? (MetadataPath.fromRole .targets) with
    | none => exact Keeps.fail _
    | some m =>
      refine Keeps.ite (fun _ => Keeps.ret _) fun _ => (Keeps.ofExcept _).bind fun p => ?_
      obtain ⟨a, v⟩ := p
      refine (sound_fetch hR src _ _ _ _ _).bind fun raw => (sound_clock hR).bind fun c => ?_
      exact sound_finish hR _ (by simp) _ _ _ _

theorem sound_walk (hR : Shared R file (Others E cfg a)) :
    Walk E D R (Sound E cfg a file F) (fun _ _ => Sound E cfg a file F) where
  fetch := sound_fetch hR
  clock := sound_clock hR
  op clk parent p raw := sound_op _ (by simp)
  store p raw := sound_store hR _ _ _

/-- What remains when a call fails: the files are in order, and the client as well unless a write has
failed. -/
def Rest (E : Env) (safe : Prop) (cfg : Config) (a : RootMetadata) (file : W → Files) (F : Files)
    (s : St W) : Prop :=
  Others E cfg a F (file s.io.w) ∧ (safe → Sound E cfg a file F s)

theorem Sound.rest {safe : Prop} {s : St W} (h : Sound E cfg a file F s) : Rest E safe cfg a file F s :=
  ⟨h.since, fun _ => h⟩

theorem rootLoop_shared (hR : Shared R file (Others E cfg a)) (src : Source) (persist : Bool)
    (hmode : src = .cache ∨ persist = true) (fuel : Nat) : ∀ upd,
    Tri (Sound E cfg a file F) (rootLoop E D R cfg src persist fuel upd)
      (fun _ => Sound E cfg a file F) (fun _ => Rest E (persist = false ∨ Writable R) cfg a file F) := by
  induction fuel with
  | zero => exact fun _ => Tri.fail fun s h => h.rest
  | succ fuel ih =>
    intro upd
    refine Tri.fix fun s0 h0 => ?_
    unfold rootLoop
    refine Tri.bind (Q := fun t s => t = s0.tuf ∧ s = s0) (by rintro s rfl; exact ⟨rfl, rfl⟩)
      fun t => Tri.assume fun ht => ?_
    subst ht
    refine Tri.bind (Q := fun k s => nextRootVersion cfg.overflowChecks s0.tuf.root.version = .ok k ∧
      s = s0) (Tri.ofExcept (fun _ _ h hs => ⟨h, hs⟩) (by rintro _ s _ rfl; exact h0.rest))
      fun next => Tri.assume fun hnext => ?_
    refine Tri.bind (Tri.attempt ((fetch_shared hR src _ _ _ _ _ s0.tuf (file s0.io.w)).pre
      (by rintro s rfl; exact ⟨rfl, .none⟩)) (fun s hs => (h0.move (by rw [hs.2.1]) hs.2.2).rest)) fun r => ?_
    cases r with
    | error e =>
      refine Tri.pre (P := Sound E cfg a file F) ?_ fun s hs => h0.move (by rw [hs.2.1]) hs.2.2
      cases e <;> first | exact Tri.ret fun _ h => h | exact Tri.fail fun s hs => hs.rest
    | ok raw =>
      dsimp only
      refine Tri.fix fun s1 ⟨⟨hread, hcache⟩, h1, h2⟩ => ?_
      refine Tri.bind (Q := fun _ s => (∃ new, RootRule E s0.tuf raw new ∧ s.tuf = ofRoot new) ∧
        Others E cfg a (file s1.io.w) (file s.io.w)) (Tri.updateTuf ?_) fun _ =>
          Tri.fix fun s2 ⟨⟨new, hrule, h3⟩, h4⟩ => ?_
      · rintro s o' t' rfl hst
        rw [h1] at hst
        rcases root_step hst with ⟨rfl, new, hr, rfl⟩ | ⟨⟨e, rfl⟩, ht⟩
        · exact ⟨⟨new, hr, rfl⟩, .none⟩
        · exact (h0.move (s' := ⟨t', ⟨s.io.w, s.io.log ++ [.op (.root raw) (.failed e)]⟩⟩)
            (by rw [ht]) h2).rest
      have hk : next = s0.tuf.root.version + 1 := by
        have := hrule.noOverflow
        unfold nextRootVersion at hnext
        rw [if_neg (by simp only [u32Max]; omega)] at hnext
        cases hnext; rfl
      have hv : new.version = s0.tuf.root.version + 1 := hrule.nextVersion
      have hsucc : Succeeds E s0.tuf.root raw new :=
        ⟨hrule.signedByOld, hrule.signedBySelf, hv, by have := hrule.noOverflow; omega⟩
      have hchain : RootChain E a new :=
        .step a s0.tuf.root new raw h0.chain hsucc.byOld hsucc.bySelf hv
      have h5 : Others E cfg a F (file s2.io.w) :=
        Others.trans h0.since (Others.trans h2 h4)
      have hnext' : next = new.version := by omega
      refine Tri.bind (Q := fun _ => Sound E cfg a file F) (Tri.when (fun hpers => ?_) ?_) fun _ => ih true
      · have hput : ∀ G, Others E cfg a (file s0.io.w) G →
            Others E cfg a G (G.put "root".toList (.number next) raw) := fun G hG => by
          rw [hnext']
          exact .root G s0.tuf.root new raw .none h0.chain (h0.has.imp id (Others.stays hG)) hsucc
            (notLonger_of_readable hread)
        have fin : ∀ s : St W, s.tuf = ofRoot new → Others E cfg a (file s0.io.w) (file s.io.w) →
            (Writable R → False) → Rest E (persist = false ∨ Writable R) cfg a file F s := fun s _ g2 g3 =>
          ⟨Others.trans h0.since g2, fun h => (h.elim (fun h => by rw [hpers] at h; cases h) g3).elim⟩
        refine Tri.bind (Q := fun _ s => s.tuf = ofRoot new ∧ Others E cfg a (file s0.io.w) (file s.io.w))
          ((store_shared hR .root "root".toList .none raw (ofRoot new) (file s0.io.w)
            fun G _ => others_put_none G _ raw).conseq
            (by rintro s rfl; exact ⟨h3, Others.trans h2 h4⟩) (fun _ _ h => h.2)
            (fun _ s h => fin s h.2.1 h.2.2 fun hw => h.1 ⟨by decide, hw⟩)) fun _ => ?_
        refine (store_shared hR .root "root".toList (.number next) raw (ofRoot new) (file s0.io.w)
          hput).conseq (fun _ h => h) ?_ (fun _ s h => fin s h.2.1 h.2.2 fun hw => h.1 ⟨by decide, hw⟩)
        rintro _ s ⟨⟨G, g1⟩, g2, g3⟩
        refine ⟨Others.trans h0.since g3, by rw [g2]; exact hchain, .inr ?_⟩
        rw [g2]
        refine Others.stays g1 ?_
        rw [show (ofRoot new).root.version = next from hnext'.symm]
        simp [Files.put]
      · rintro hp s rfl
        rcases hmode with hm | hm
        · obtain ⟨G, g1, g2, g3⟩ := hcache hm
          refine ⟨h5, by rw [h3]; exact hchain, .inr ?_⟩
          rw [h3]
          refine Others.stays (Others.trans g2 h4) ?_
          rw [show (ofRoot new).root.version = next from hnext'.symm]
          have : G "root".toList (.number next) = some raw := g3
          rw [this]; simp
        · rw [hp] at hm; cases hm

theorem updateRoot_shared (hR : Shared R file (Others E cfg a)) (src : Source) (persist : Bool)
    (hmode : src = .cache ∨ persist = true) :
    Tri (Sound E cfg a file F) (updateRootWithRepos E D R cfg src persist)
      (fun _ => Sound E cfg a file F) (fun _ => Rest E (persist = false ∨ Writable R) cfg a file F) := by
  unfold updateRootWithRepos
  refine (rootLoop_shared hR src persist hmode _ _).bind fun b => ?_
  refine Tri.conseq (Keeps.bind (sound_clock hR) fun c => (keeps_getTuf _).bind fun t => ?_)
    (fun _ h => h) (fun _ _ h => h) (fun _ _ h => h.rest)
  exact Keeps.ite (fun _ => Keeps.fail _) (fun _ => Keeps.ret _)

theorem update_shared (hR : Shared R file (Others E cfg a)) :
    Tri (Sound E cfg a file F) (update E D R cfg)
      (fun _ => Sound E cfg a file F) (fun _ => Rest E (Writable R) cfg a file F) := by
  unfold Client.update
  refine Tri.bind ((updateRoot_shared hR _ _ (.inr rfl)).conseq (fun _ h => h) (fun _ _ h => h)
    fun _ _ h => ⟨h.1, fun hw => h.2 (.inr hw)⟩) fun _ => ?_
  refine Tri.conseq (Keeps.bind (sound_timestamp hR _ _) fun _ => (keeps_getTuf _).bind fun _ =>
    (sound_snapshot hR _ _ _).bind fun _ => (keeps_getTuf _).bind fun _ =>
    (sound_targets hR _ _ _).bind fun _ => Keeps.ret _)
    (fun _ h => h) (fun _ _ h => h) (fun _ _ h => h.rest)

theorem loadLocal_shared (hR : Shared R file (Others E cfg a)) :
    Keeps (Sound E cfg a file F) (loadLocal E D R cfg) := by
  unfold Client.loadLocal
  refine Keeps.bind ((updateRoot_shared hR _ _ (.inl rfl)).conseq (fun _ h => h) (fun _ _ h => h)
    fun _ _ h => h.2 (.inl rfl)) fun _ => ?_
  exact Keeps.bind (sound_timestamp hR _ _) fun _ => (sound_snapshot hR _ _ _).bind fun _ =>
    (sound_targets hR _ _ _).bind fun _ => Keeps.ret _

/-! ### Calls -/

theorem shared_call {α : Type} (f : W → Except Err α × W)
    (h : ∀ w, Others E cfg a (file w) (file (f w).2)) (G : Files) :
    Keeps (fun io : Io W => Others E cfg a G (file io.w)) (Io.call f) := by
  intro io hs
  unfold Io.call
  have := h io.w
  cases hq : f io.w with
  | mk r w' => rw [hq] at this; cases r <;> exact Others.trans hs this

theorem shared_lift {α : Type} {m : M (Io W) α}
    (h : ∀ G, Keeps (fun io : Io W => Others E cfg a G (file io.w)) m) :
    Keeps (Sound E cfg a file F) (lift m) := by
  refine Tri.fix fun s0 h0 => ?_
  exact (Tri.lift (h (file s0.io.w)) s0.tuf).conseq (by rintro s rfl; exact ⟨rfl, .none⟩)
    (fun _ _ h => h0.move (by rw [h.1]) h.2) (fun _ _ h => h0.move (by rw [h.1]) h.2)

theorem shared_copy (hR : Shared R file (Others E cfg a)) (stream : List Ev) (G : Files) :
    Keeps (fun io : Io W => Others E cfg a G (file io.w)) (copyToWriter R stream) := by
  have fl : Keeps (fun io : Io W => Others E cfg a G (file io.w)) (copyToWriter R []) := by
    intro io hs
    have := hR.flush io.w
    simp only [copyToWriter]
    cases hq : R.flush io.w with
    | mk r w' => rw [hq] at this; cases r <;> exact Others.trans hs this
  induction stream with
  | nil => exact fl
  | cons ev evs ih =>
    cases ev with
    | pending => exact ih
    | err k => exact Keeps.fail _
    | data bs =>
      intro io hs
      by_cases hb : bs = []
      · subst hb
        have e : copyToWriter R (.data [] :: evs) io = copyToWriter R [] io := by
          simp [copyToWriter]
        rw [e]; exact fl io hs
      · have hw := hR.write bs io.w
        cases hq : R.write bs io.w with
        | mk r w' =>
          rw [hq] at hw
          cases r with
          | ok u =>
            simp only [copyToWriter, hb, if_false, hq]
            exact ih _ (Others.trans hs hw)
          | error k =>
            simp only [copyToWriter, hb, if_false, hq]
            exact Others.trans hs hw

theorem exec_shared (hR : Shared R file (Others E cfg a)) (c : Call) :
    Tri (Sound E cfg a file F) (exec E D R cfg c)
      (fun _ => Sound E cfg a file F) (fun _ => Rest E (Writable R) cfg a file F) := by
  have note : ∀ (e : LogEntry) (G : Files),
      Keeps (fun io : Io W => Others E cfg a G (file io.w)) (Io.note e) := fun e G io hs => hs
  have stream : ∀ p d, Keeps (Sound E cfg a file F) (lift (fetchTargetStream D R p d)) := by
    intro p d
    refine shared_lift fun G => ?_
    unfold fetchTargetStream
    refine (Keeps.ofExcept _).bind fun x => ?_
    obtain ⟨y, v⟩ := x
    refine Keeps.bind (note _ G) fun _ => ?_
    exact Keeps.bind (shared_call _ (hR.targetFetch p d) G) fun evs =>
      (Keeps.ofExcept _).bind fun s => Keeps.ret _
  have reader : ∀ p, Keeps (Sound E cfg a file F) (fetchTargetReader E D R cfg p) := fun p =>
    (sound_walk hR).fetchTargetReader stream p
  have weak : ∀ {α : Type} {m : M (St W) α}, Keeps (Sound E cfg a file F) m → Tri (Sound E cfg a file F) m
      (fun _ => Sound E cfg a file F) (fun _ => Rest E (Writable R) cfg a file F) := fun h =>
    h.conseq (fun _ h => h) (fun _ _ h => h) (fun _ _ h => h.rest)
  cases c with
  | update => exact (update_shared hR).bind fun _ => Tri.ret fun _ h => h
  | fetchTarget p =>
    refine weak (Keeps.bind ?_ fun _ => Keeps.ret _)
    refine (reader p).bind fun st => shared_lift fun G => ?_
    unfold storeTarget
    exact Keeps.bind (note _ G) fun _ => shared_call _ (hR.targetStore st p) G
  | fetchTargetToWriter p =>
    refine weak (Keeps.bind ?_ fun _ => Keeps.ret _)
    exact (reader p).bind fun st => shared_lift fun G => shared_copy hR st G
  | fetchTargetDescription p =>
    exact weak (Keeps.bind ((sound_walk hR).fetchTargetDescription p) fun _ => Keeps.ret _)

/-! ### Start -/

/-- Nothing takes the version of the root back. -/
theorem version_prims (R : World W) (n : Nat) :
    Prims E D R (fun s : St W => n ≤ s.tuf.root.version) (fun _ => True) True (fun _ => True) := by
  have idle : ∀ {α : Type} (m : M (Io W) α), Keeps (fun s : St W => n ≤ s.tuf.root.version) (lift m) := by
    intro α m s hs
    unfold lift
    cases hm : m s.io with
    | mk r io => cases r <;> exact hs
  refine ⟨fun _ _ _ _ _ _ _ => idle _, fun _ _ _ _ _ => idle _, Tri.getClock fun s hs => hs,
    fun o _ => Tri.updateTuf ?_⟩
  intro s o' t' hs hst
  have h := root_version_mono E s.tuf [o]
  simp only [Tuf.run, List.foldl, hst] at h
  have key : n ≤ t'.root.version := Nat.le_trans hs h
  cases o' <;> exact key

/-- A client that starts finds every root that has been in the files. -/
theorem rootLoop_finds (hR : Shared R file (Others E cfg a)) (hW : Whole E cfg a F) (hno : NoForks E a)
    {n : Nat} (hn : F "root".toList (.number n) ≠ none) (fuel : Nat) : ∀ upd,
    Tri (fun s : St W => Sound E cfg a file F s ∧ 4294967296 ≤ s.tuf.root.version + fuel)
      (rootLoop E D R cfg .cache false fuel upd)
      (fun _ s => n ≤ s.tuf.root.version) (fun _ s => n ≤ s.tuf.root.version) := by
  have hmax : n ≤ max a.version 4294967295 := by
    by_cases h : n ≤ a.version
    · omega
    · cases hr : F "root".toList (.number n) with
      | none => exact absurd hr hn
      | some raw =>
        obtain ⟨b, c, _, h2, h3, _⟩ := hW.valid n raw (by omega) hr
        have := h2.bound; omega
  have large : ∀ s : St W, Sound E cfg a file F s → 4294967295 ≤ s.tuf.root.version →
      n ≤ s.tuf.root.version := fun s hs h => by have := rootChain_le hs.chain; omega
  induction fuel with
  | zero => exact fun _ => Tri.fail fun s h => large s h.1 (by have := h.2; omega)
  | succ fuel ih =>
    intro upd
    refine Tri.fix fun s0 ⟨h0, hfuel⟩ => ?_
    by_cases hv : 4294967295 ≤ s0.tuf.root.version
    · refine Tri.pre (P := fun s : St W => n ≤ s.tuf.root.version) ?_
        (by rintro s rfl; exact large s h0 hv)
      have h := version_prims (E := E) (D := D) R n
      exact (Prims.rootLoop (cfg := cfg) ⟨h.fetch, h.store, h.clock, fun o _ => h.op o trivial⟩ .cache
        trivial false (fun _ => trivial) _ upd)
    have hle := rootChain_le h0.chain
    unfold rootLoop
    refine Tri.bind (Q := fun t s => t = s0.tuf ∧ s = s0) (by rintro s rfl; exact ⟨rfl, rfl⟩)
      fun t => Tri.assume fun ht => ?_
    subst ht
    have hnext : nextRootVersion cfg.overflowChecks s0.tuf.root.version =
        .ok (s0.tuf.root.version + 1) := by
      unfold nextRootVersion
      rw [if_neg (by simp only [u32Max]; omega)]
    rw [hnext]
    refine Tri.bind (Q := fun k s => k = s0.tuf.root.version + 1 ∧ s = s0)
      (by rintro s rfl; exact ⟨rfl, rfl⟩) fun next => Tri.assume fun hk => ?_
    subst hk
    refine Tri.bind (Q := fun r s => (∃ G raw, r = .ok raw ∧ Others E cfg a F G ∧
        Others E cfg a G (file s.io.w) ∧
        G "root".toList (.number (s0.tuf.root.version + 1)) = some raw) ∧ s.tuf = s0.tuf ∨
      r = .error .notFound ∧ n ≤ s.tuf.root.version) ?_ fun r => ?_
    · have h := Tri.attempt (Y := fun _ s => n ≤ s.tuf.root.version) ((fetch_shared (D := D) hR .cache .root (MetadataPath.fromRole .root)
        (.number (s0.tuf.root.version + 1)) cfg.maxRootLength none s0.tuf F).pre (P' := fun s => s = s0)
        (by rintro s rfl; exact ⟨rfl, h0.since⟩)) ?_
      · refine h.post ?_
        intro r s hs
        cases r with
        | ok raw =>
          obtain ⟨⟨_, hc⟩, ht, _⟩ := hs
          obtain ⟨G, g1, g2, g3⟩ := hc rfl
          exact .inl ⟨⟨G, raw, rfl, g1, g2, g3⟩, ht⟩
        | error e =>
          obtain ⟨hc, ht, _⟩ := hs
          obtain ⟨G, g1, g2, ⟨rfl, g3⟩ | ⟨raw, g3, g4⟩⟩ := hc rfl (by decide) (fun _ _ h => by cases h)
          · refine .inr ⟨rfl, ?_⟩
            rw [ht]
            exact (hW.others g1).last hle g3 (Others.stays g1 hn)
          · obtain ⟨b, c, _, _, _, h4⟩ := (hW.others g1).valid _ raw (by omega) g3
            exact absurd (readable_of_notLonger h4) g4
      · rintro s ⟨hc, ht, _⟩
        obtain ⟨G, g1, g2, ⟨h, g3⟩ | ⟨raw, g3, g4⟩⟩ := hc rfl (by decide) (fun _ _ h => by cases h)
        · cases h
        · obtain ⟨b, c, _, _, _, h4⟩ := (hW.others g1).valid _ raw (by omega) g3
          exact absurd (readable_of_notLonger h4) g4
    refine Tri.fix fun s1 h1 => ?_
    rcases h1 with ⟨⟨G, raw, rfl, g1, g2, g3⟩, ht⟩ | ⟨rfl, hle'⟩
    swap
    · exact Tri.ret (by rintro s rfl; exact hle')
    dsimp only
    obtain ⟨b, c, hb, hs, hcv, _⟩ := (hW.others g1).valid _ raw (by omega) g3
    have hbv := hs.next
    have hbeq : b = s0.tuf.root := rootChain_unique hno hb h0.chain (by omega) (by omega)
    subst hbeq
    have hrule : RootRule E s0.tuf raw c := ⟨hs.byOld, hs.bySelf, hs.next, by have := hs.bound; omega⟩
    refine Tri.bind (Q := fun _ s => s.tuf = ofRoot c ∧ Others E cfg a G (file s.io.w))
      (Tri.updateTuf ?_) fun _ => ?_
    · rintro s o' t' rfl hst
      rw [ht] at hst
      have hup := (updateRoot_ok_iff E s0.tuf (ofRoot c) raw).2 ⟨c, hrule, rfl⟩
      simp only [Tuf.step, hup] at hst
      cases hst
      exact ⟨rfl, g2⟩
    refine Tri.bind (Q := fun _ s => s.tuf = ofRoot c ∧ Others E cfg a G (file s.io.w))
      (Tri.when (by simp) fun _ _ h => h) fun _ => (ih true).pre ?_
    rintro s ⟨h1, h2⟩
    have hcv' : s.tuf.root.version = s0.tuf.root.version + 1 := by rw [h1]; exact hs.next
    refine ⟨⟨Others.trans g1 h2, by rw [h1]; exact .step a _ c raw h0.chain hs.byOld hs.bySelf hs.next,
      .inr (Others.stays h2 ?_)⟩, by omega⟩
    rw [hcv', g3]; simp

theorem loadLocal_finds (hR : Shared R file (Others E cfg a)) (hW : Whole E cfg a F) (hno : NoForks E a)
    {n : Nat} (hn : F "root".toList (.number n) ≠ none) :
    Tri (Sound E cfg a file F) (loadLocal E D R cfg)
      (fun _ s => n ≤ s.tuf.root.version) (fun _ s => n ≤ s.tuf.root.version) := by
  have h := version_prims (E := E) (D := D) R n
  have hp : Prims E D R (fun s : St W => n ≤ s.tuf.root.version) (fun _ => True) True TopOp :=
    ⟨h.fetch, h.store, h.clock, fun o _ => h.op o trivial⟩
  unfold Client.loadLocal updateRootWithRepos
  refine Tri.bind (Q := fun _ s => n ≤ s.tuf.root.version) ?_ fun _ => ?_
  · refine Tri.bind ((rootLoop_finds hR hW hno hn rootFuel false).pre fun s hs =>
      ⟨hs, by simp only [rootFuel, u32Max]; omega⟩) fun _ => ?_
    refine Keeps.bind hp.clock fun c => (keeps_getTuf _).bind fun t => ?_
    exact Keeps.ite (fun _ => Keeps.fail _) (fun _ => Keeps.ret _)
  · refine Keeps.bind (hp.updateTimestamp _ trivial _ (by simp)) fun _ => ?_
    refine (hp.updateSnapshot _ trivial _ (by simp) _).bind fun _ => ?_
    exact (hp.updateTargets _ trivial _ (by simp) _).bind fun _ => Keeps.ret _

/-- Start of a client. -/
theorem construct_shared {raw : Bytes} {io io' : Io W} {t : Tuf}
    (h0 : fromTrustedRoot E raw = .ok (ofRoot a))
    (h : construct E D R cfg (.trustedRoot raw) io = (.ok t, io')) :
    ∃ r s, loadLocal E D R cfg ⟨ofRoot a, io⟩ = (r, s) ∧ s.tuf = t ∧ s.io = io' := by
  have h' : Client.new E D R cfg (ofRoot a) io = (.ok t, io') := by
    have : construct E D R cfg (.trustedRoot raw) io = Client.new E D R cfg (ofRoot a) io := by
      show M.bind (M.ofExcept (fromTrustedRoot E raw)) _ io = _
      unfold M.bind M.ofExcept
      rw [h0]
    rw [← this]; exact h
  unfold Client.new at h'
  cases hm : loadLocal E D R cfg ⟨ofRoot a, io⟩ with
  | mk r s =>
    rw [hm] at h'
    refine ⟨r, s, rfl, ?_⟩
    split at h'
    · rename_i heq; cases heq; cases h'
    · rename_i heq; cases heq; cases h'; exact ⟨rfl, rfl⟩

end RustTuf.Props
