import Verif.Lemmas.Restart
import Verif.Props.ClientTotal

/-!
# What the local repository holds
An invariant of client runs: the local repository has every root on the way from the initial root to
the trusted one, and the files of the other trusted metadata.
-/

namespace RustTuf.Props
open Client Spec Tuf

variable {W : Type} {E : Env} {D : Digest} {cfg : Config}

/-- The files lead from root `a` to root `b`, one version at a time. -/
inductive Stored (E : Env) (m : Option Nat) (F : Files) (a : RootMetadata) : RootMetadata → Prop
  | refl : Stored E m F a a
  | snoc (b c : RootMetadata) (raw : Bytes) : Stored E m F a b →
      F "root".toList (.number (b.version + 1)) = some raw → raw.length ≤ limit m →
      RootRule E (ofRoot b) raw c → Stored E m F a c

theorem Stored.version_le {m F a b} (h : Stored E m F a b) : a.version ≤ b.version := by
  induction h with
  | refl => exact Nat.le_refl _
  | snoc b c raw _ _ _ hr ih => have := hr.nextVersion; simp only [ofRoot] at this; omega

theorem Stored.bound {m F a b} (h : Stored E m F a b) :
    b.version ≤ max a.version 4294967295 := by
  cases h with
  | refl => omega
  | snoc b c raw _ _ _ hr =>
    have := hr.nextVersion; have := hr.noOverflow; simp only [ofRoot] at *; omega

theorem Stored.congr {m F F' a b} (h : Stored E m F a b)
    (hF : ∀ n, n ≤ b.version → F' "root".toList (.number n) = F "root".toList (.number n)) :
    Stored E m F' a b := by
  induction h with
  | refl => exact .refl
  | snoc b c raw h1 h2 h3 hr ih =>
    have hv : c.version = b.version + 1 := hr.nextVersion
    refine .snoc b c raw (ih fun n hn => hF n (by omega)) ?_ h3 hr
    rw [hF _ (by omega)]; exact h2

/-- The first step of a non-empty chain. -/
theorem Stored.head {m F a b} (h : Stored E m F a b) : a = b ∨
    ∃ c raw, F "root".toList (.number (a.version + 1)) = some raw ∧ raw.length ≤ limit m ∧
      RootRule E (ofRoot a) raw c ∧ Stored E m F c b := by
  induction h with
  | refl => exact .inl rfl
  | snoc b c raw h1 h2 h3 hr ih =>
    rcases ih with rfl | ⟨d, raw', h4, h5, h6, h7⟩
    · exact .inr ⟨c, raw, h2, h3, hr, .refl⟩
    · exact .inr ⟨d, raw', h4, h5, h6, .snoc b c raw h7 h2 h3 hr⟩

theorem _root_.RustTuf.Spec.Files.put_ne {F : Files} {p p' : MetadataPath} {v v' : MetadataVersion}
    {raw : Bytes} (h : p' ≠ p) : F.put p v raw p' v' = F p' v' := by
  unfold Files.put
  rw [if_neg (fun e => h e.1)]

/-- The roots from `a` to `b` are stored, and no further ones. -/
structure RootsOn (E : Env) (cfg : Config) (F : Files) (a b : RootMetadata) : Prop where
  stored : Stored E cfg.maxRootLength F a b
  beyond : ∀ n, b.version < n → F "root".toList (.number n) = none

theorem RootsOn.congr {F F' a b} (h : RootsOn E cfg F a b)
    (hF : ∀ n, F' "root".toList (.number n) = F "root".toList (.number n)) : RootsOn E cfg F' a b :=
  ⟨h.stored.congr fun n _ => hF n, fun n hn => by rw [hF]; exact h.beyond n hn⟩

theorem RootsOn.put_none {F a b p raw} (h : RootsOn E cfg F a b) :
    RootsOn E cfg (F.put p .none raw) a b :=
  h.congr fun n => by simp [Files.put]

theorem RootsOn.put {F a b c raw} (h : RootsOn E cfg F a b) (hl : raw.length ≤ limit cfg.maxRootLength)
    (hr : RootRule E (ofRoot b) raw c) :
    RootsOn E cfg (F.put "root".toList (.number (b.version + 1)) raw) a c := by
  have hv : c.version = b.version + 1 := hr.nextVersion
  refine ⟨.snoc b c raw (h.stored.congr fun n hn => ?_) ?_ hl hr, fun n hn => ?_⟩
  · have : n ≠ b.version + 1 := by omega
    simp [Files.put, this]
  · simp [Files.put]
  · have : n ≠ b.version + 1 := by omega
    simp only [Files.put, MetadataVersion.number.injEq, this, and_false, if_false]
    exact h.beyond n (by omega)

/-- The unversioned files are those of the trusted metadata, and the record tells where they were
announced. -/
structure Top (E : Env) (D : Digest) (cfg : Config) (F : Files) (log : List LogEntry) (t : Tuf) :
    Prop where
  timestamp : ∀ ts, t.timestamp = some ts → ∃ clk raw, F "timestamp".toList .none = some raw ∧
    raw.length ≤ limit cfg.maxTimestampLength ∧
    Authentic E E.timestampFromSlice raw t.root.timestamp.threshold (timestampSigners t.root) ts ∧
    .op (.timestamp clk raw) .changed ∈ log
  snapshot : ∀ sn, t.snapshot = some sn → ∃ clk raw d a v, F "snapshot".toList .none = some raw ∧
    Authentic E E.snapshotFromSlice raw t.root.snapshot.threshold (snapshotSigners t.root) sn ∧
    Announced E log d ∧ d.version = sn.version ∧ hashPreference d.hashes = .ok (a, v) ∧
    Readable D (some d.length) (some (a, v)) raw ∧ .op (.snapshot clk raw) .changed ∈ log
  targets : ∀ ta, t.targets = some ta → ∃ raw d a v, F "targets".toList .none = some raw ∧
    Authentic E E.targetsFromSlice raw t.root.targets.threshold (targetsSigners t.root) ta ∧
    Listed E log d ∧ d.version = ta.version ∧ hashPreference d.hashes = .ok (a, v) ∧
    Readable D (some d.length) (some (a, v)) raw

theorem _root_.RustTuf.Spec.Authentic.decodes {M : Type} {decode : Bytes → Except Err M} {raw n keys}
    {m : M} (h : Authentic E decode raw n keys m) : Decodes E decode raw m := by
  obtain ⟨msg, ⟨_, sigs, signed, h1, h2, _⟩, h3⟩ := h
  exact ⟨sigs, signed, msg, h1, h2, h3⟩

theorem _root_.RustTuf.Spec.Announced.mono {L L' : List LogEntry} {d} (h : Announced E L d)
    (hL : L <+: L') : Announced E L' d := by
  obtain ⟨clk, raw, ts, h1, h2⟩ := h
  exact ⟨clk, raw, ts, hL.subset h1, h2⟩

theorem _root_.RustTuf.Spec.Listed.mono {L L' : List LogEntry} {d} (h : Listed E L d)
    (hL : L <+: L') : Listed E L' d := by
  obtain ⟨clk, raw, ts, h1, h2⟩ := h
  exact ⟨clk, raw, ts, hL.subset h1, h2⟩

theorem _root_.RustTuf.Spec.ProperNames.of_prefix {L L' : List LogEntry} (h : ProperNames L')
    (hL : L <+: L') : ProperNames L :=
  fun clk parent role raw out hm => h clk parent role raw out (hL.subset hm)

theorem Top.ofRoot (F : Files) (L : List LogEntry) (r : RootMetadata) :
    Top E D cfg F L (ofRoot r) :=
  ⟨fun _ h => (by cases h), fun _ h => (by cases h), fun _ h => (by cases h)⟩

/-- Timestamp part. -/
theorem Top.mono {F F' : Files} {L L' : List LogEntry} {t t' : Tuf} (h : Top E D cfg F L t)
    (hL : L <+: L') (hr : t'.root = t.root)
    (h1 : ∀ ts, t'.timestamp = some ts → t.timestamp = some ts ∧
      F' "timestamp".toList .none = F "timestamp".toList .none)
    (h2 : ∀ sn, t'.snapshot = some sn → t.snapshot = some sn ∧
      F' "snapshot".toList .none = F "snapshot".toList .none)
    (h3 : ∀ ta, t'.targets = some ta → t.targets = some ta ∧
      F' "targets".toList .none = F "targets".toList .none) : Top E D cfg F' L' t' := by
  refine ⟨fun ts hts => ?_, fun sn hsn => ?_, fun ta hta => ?_⟩
  · obtain ⟨e, f⟩ := h1 ts hts
    obtain ⟨clk, raw, a1, a2, a3, a4⟩ := h.timestamp ts e
    exact ⟨clk, raw, f.trans a1, a2, hr ▸ a3, hL.subset a4⟩
  · obtain ⟨e, f⟩ := h2 sn hsn
    obtain ⟨clk, raw, d, a, v, a1, a2, a3, a4, a5, a6, a7⟩ := h.snapshot sn e
    exact ⟨clk, raw, d, a, v, f.trans a1, hr ▸ a2, a3.mono hL, a4, a5, a6, hL.subset a7⟩
  · obtain ⟨e, f⟩ := h3 ta hta
    obtain ⟨raw, d, a, v, a1, a2, a3, a4, a5, a6⟩ := h.targets ta e
    exact ⟨raw, d, a, v, f.trans a1, hr ▸ a2, a3.mono hL, a4, a5, a6⟩

/-- The invariant: the roots are stored, and the other files as well if writes never fail and no
delegated role has a reserved name. -/
structure Inv (E : Env) (D : Digest) (R : World W) (cfg : Config) (file : W → Files)
    (a : RootMetadata) (n : Nat) (s : St W) : Prop where
  roots : RootsOn E cfg (file s.io.w) a s.tuf.root
  version : n ≤ s.tuf.root.version
  top : Faithful R file → ProperNames s.io.log → Top E D cfg (file s.io.w) s.io.log s.tuf

section run
variable {R : World W} {file : W → Files} {a : RootMetadata} {n : Nat}

theorem Inv.idle {s s' : St W} (h : Inv E D R cfg file a n s) (ht : s'.tuf = s.tuf)
    (hf : file s'.io.w = file s.io.w) (hl : s.io.log <+: s'.io.log) : Inv E D R cfg file a n s' := by
  refine ⟨by rw [ht, hf]; exact h.roots, by rw [ht]; exact h.version, fun hF hp => ?_⟩
  exact (h.top hF (hp.of_prefix hl)).mono hl (by rw [ht]) (by rw [ht, hf]; exact fun _ h => ⟨h, rfl⟩)
    (by rw [ht, hf]; exact fun _ h => ⟨h, rfl⟩) (by rw [ht, hf]; exact fun _ h => ⟨h, rfl⟩)

/-- A request, at the level of client states. -/
theorem fetch_st (hR : Reads R file) (src : Source) (role : Role) (p : MetadataPath)
    (v : MetadataVersion) (m : Option Nat) (h : HashData) (t : Tuf) (F : Files) (L : List LogEntry) :
    Tri (fun s : St W => s.tuf = t ∧ file s.io.w = F ∧ L <+: s.io.log)
      (lift (fetchMetadata D R src role p v m h))
      (fun raw s => (Readable D m h raw ∧ (src = .cache → F p v = some raw)) ∧
        s.tuf = t ∧ file s.io.w = F ∧ L <+: s.io.log)
      (fun _ s => s.tuf = t ∧ file s.io.w = F ∧ L <+: s.io.log) :=
  (Tri.lift (fetch_files hR src role p v m h F L) t).conseq (fun _ h => h)
    (fun _ _ h => ⟨h.2.1, h.1, h.2.2⟩) (fun _ _ h => h)

theorem clock_st (hR : Reads R file) (t : Tuf) (F : Files) (L : List LogEntry) :
    Keeps (fun s : St W => s.tuf = t ∧ file s.io.w = F ∧ L <+: s.io.log) (getClock R) :=
  Tri.getClock fun s hs => ⟨hs.1, (hR.clock _).trans hs.2.1, hs.2.2⟩

/-- Submission of a document of a top-level role other than root, and the write that follows. -/
theorem finish_disk (hR : Lossy R file) (o : Op) (role : Role) (p : MetadataPath) (raw : Bytes)
    (persist : Bool) (s0 : St W) (h0 : Inv E D R cfg file a n s0)
    (hm : role.fuzzyMatchesPath p = true)
    (hfile : persist = false → file s0.io.w p .none = some raw)
    (hroot : ∀ o' t', Tuf.step E s0.tuf o = (o', t') → t'.root = s0.tuf.root)
    (hchg : ∀ t' F' L', Tuf.step E s0.tuf o = (.changed, t') → F' p .none = some raw →
      (∀ p', p' ≠ p → F' p' .none = file s0.io.w p' .none) → s0.io.log <+: L' →
      .op o .changed ∈ L' → Top E D cfg (file s0.io.w) s0.io.log s0.tuf → Top E D cfg F' L' t')
    (hoth : ∀ o' t' L', o' ≠ .changed → Tuf.step E s0.tuf o = (o', t') → s0.io.log <+: L' →
      Top E D cfg (file s0.io.w) s0.io.log s0.tuf → Top E D cfg (file s0.io.w) L' t') :
    Tri (fun s : St W => s.tuf = s0.tuf ∧ file s.io.w = file s0.io.w ∧ s0.io.log <+: s.io.log)
      (do match ← updateTuf E o with
          | .changed =>
            M.when persist (lift (storeMetadata R role p .none raw))
            return true
          | _ => return false)
      (fun _ => Inv E D R cfg file a n) (fun _ => Inv E D R cfg file a n) := by
  refine Tri.bind (Q := fun o' s => Tuf.step E s0.tuf o = (o', s.tuf) ∧ file s.io.w = file s0.io.w ∧
    s0.io.log <+: s.io.log ∧ .op o o' ∈ s.io.log) (Tri.updateTuf ?_) fun o' => ?_
  · rintro s o' t' ⟨h1, h2, h3⟩ hst
    rw [h1] at hst
    have hl : s0.io.log <+: s.io.log ++ [.op o o'] := h3.trans (List.prefix_append _ _)
    have hmem : LogEntry.op o o' ∈ s.io.log ++ [.op o o'] := by simp
    cases o' with
    | changed => exact ⟨hst, h2, hl, hmem⟩
    | unchanged => exact ⟨hst, h2, hl, hmem⟩
    | failed e =>
      refine ⟨?_, ?_, fun hF hp => ?_⟩
      · show RootsOn E cfg (file s.io.w) a t'.root
        rw [hroot _ _ hst, h2]; exact h0.roots
      · show n ≤ t'.root.version
        rw [hroot _ _ hst]; exact h0.version
      · show Top E D cfg (file s.io.w) _ t'
        rw [h2]
        exact hoth _ _ _ (by simp) hst hl (h0.top hF (hp.of_prefix hl))
  · have oth : o' ≠ .changed → ∀ s : St W, (Tuf.step E s0.tuf o = (o', s.tuf) ∧
        file s.io.w = file s0.io.w ∧ s0.io.log <+: s.io.log ∧ .op o o' ∈ s.io.log) →
        Inv E D R cfg file a n s := by
      rintro hne s ⟨h1, h2, h3, _⟩
      refine ⟨by rw [hroot _ _ h1, h2]; exact h0.roots, by rw [hroot _ _ h1]; exact h0.version, ?_⟩
      intro hF hp
      rw [h2]
      exact hoth _ _ _ hne h1 h3 (h0.top hF (hp.of_prefix h3))
    cases o' with
    | unchanged => exact Tri.ret (oth (by simp))
    | failed e => exact Tri.ret (oth (by simp))
    | changed =>
      refine Tri.bind (Q := fun _ => Inv E D R cfg file a n) (Tri.when (fun hp => ?_) (fun hp => ?_))
        fun _ => Tri.ret fun _ h => h
      · refine Tri.fix fun s1 ⟨h1, h2, h3, h4⟩ => ?_
        refine (Tri.lift (store_files hR role p .none raw (file s1.io.w) s1.io.log) s1.tuf).conseq
          ?_ ?_ ?_
        · rintro s rfl; exact ⟨rfl, rfl, List.prefix_refl _⟩
        · rintro _ s ⟨e1, _, e2, e3⟩
          refine ⟨?_, by rw [e1, hroot _ _ h1]; exact h0.version, fun hF hpn => ?_⟩
          · rw [e1, e2, hroot _ _ h1, h2]; exact h0.roots.put_none
          · rw [e1]
            refine hchg _ _ _ h1 ?_ ?_ (h3.trans e3) (e3.subset h4)
              (h0.top hF (hpn.of_prefix (h3.trans e3)))
            · rw [e2]; simp [Files.put]
            · intro p' hp'; rw [e2, h2]; simp [Files.put, hp']
        · rintro _ s ⟨e1, e0, e2, e3⟩
          refine ⟨?_, by rw [e1, hroot _ _ h1]; exact h0.version, fun hF => ?_⟩
          · rw [e1, e2, hroot _ _ h1, h2]; exact h0.roots
          · have := e0 hF; rw [hm] at this; cases this
      · rintro s ⟨h1, h2, h3, h4⟩
        refine ⟨by rw [hroot _ _ h1, h2]; exact h0.roots, by rw [hroot _ _ h1]; exact h0.version, ?_⟩
        intro hF hpn
        exact hchg _ _ _ h1 (by rw [h2]; exact hfile hp) (by intro p' _; rw [h2]) h3 h4
          (h0.top hF (hpn.of_prefix h3))

/-- Which repository is used and whether documents are stored: loading the local repository and
updating from the remote repository. -/
def Mode (src : Source) (persist : Bool) : Prop := src = .cache ∧ persist = false ∨ persist = true

theorem step_root_eq {t t' : Tuf} {o : Op} {o' : Outcome} (h : Tuf.step E t o = (o', t'))
    (ho : ∀ raw, o ≠ .root raw) : t'.root = t.root := by
  have := step_case E t o
  rw [h] at this
  generalize hx : o' = ox at this
  cases this with
  | failed | same | timestamp | timestampExpired | targets | delegation => rfl
  | root raw new => exact absurd rfl (ho raw)
  | snapshot clk raw new t' h1 h2 => exact h2.root

theorem updateTimestamp_disk (hR : Lossy R file) {src : Source} {persist : Bool}
    (hmode : Mode src persist) :
    Keeps (Inv E D R cfg file a n) (updateTimestampWithRepos E D R cfg src persist) := by
  refine Tri.fix fun s0 h0 => ?_
  have idle : ∀ s : St W, (s.tuf = s0.tuf ∧ file s.io.w = file s0.io.w ∧ s0.io.log <+: s.io.log) →
      Inv E D R cfg file a n s := fun s h => h0.idle h.1 h.2.1 h.2.2
  unfold updateTimestampWithRepos
  refine Tri.bind ((fetch_st hR.toReads src _ _ _ _ _ s0.tuf (file s0.io.w) s0.io.log).conseq
    (by rintro s rfl; exact ⟨rfl, rfl, List.prefix_refl _⟩) (fun _ _ h => h) (fun _ s h => idle s h))
    fun raw => Tri.assume fun hraw => ?_
  refine Tri.bind ((clock_st hR.toReads s0.tuf (file s0.io.w) s0.io.log).conseq (fun _ h => h)
    (fun _ _ h => h) (fun _ s h => idle s h)) fun clk => ?_
  refine finish_disk hR (.timestamp clk raw) .timestamp _ raw persist s0 h0 (by decide) ?_
    (fun o' t' h => step_root_eq h (by simp)) ?_ ?_
  · intro hp
    rcases hmode with ⟨hs, _⟩ | hp'
    · exact hraw.2 hs
    · rw [hp] at hp'; cases hp'
  · intro t' F' L' hst hF hF' hL hop htop
    simp only [Tuf.step] at hst
    split at hst <;> cases hst
    rename_i new hu
    obtain ⟨hrule, rfl⟩ := (updateTimestamp_some_iff ..).1 hu
    refine ⟨fun ts hts => ?_, ?_, ?_⟩
    · cases hts
      exact ⟨clk, raw, hF, hraw.1.1, hrule.signed, hop⟩
    · refine (htop.mono (t' := { s0.tuf with timestamp := none, snapshot := if verOf (·.version) s0.tuf.snapshot = new.snapshot.version then s0.tuf.snapshot else none }) hL rfl (by intro _ h; cases h) ?_
        (fun ta h => ⟨h, hF' _ (by decide)⟩)).snapshot
      intro sn hsn
      refine ⟨?_, hF' _ (by decide)⟩
      dsimp only at hsn
      split at hsn
      · exact hsn
      · cases hsn
    · exact (htop.mono (t' := { s0.tuf with timestamp := none, snapshot := none }) hL rfl
        (by intro _ h; cases h) (by intro _ h; cases h) (fun ta h => ⟨h, hF' _ (by decide)⟩)).targets
  · intro o' t' L' hne hst hL htop
    have hc := step_case E s0.tuf (.timestamp clk raw)
    rw [hst] at hc
    have same : Top E D cfg (file s0.io.w) L' s0.tuf := htop.mono hL rfl (fun _ h => ⟨h, rfl⟩)
      (fun _ h => ⟨h, rfl⟩) (fun _ h => ⟨h, rfl⟩)
    generalize hx : t' = tx at hc
    generalize hy : o' = oy at hc
    cases hc with
    | failed => subst hx; exact same
    | same => subst hx; exact same
    | timestamp => exact absurd hy hne
    | timestampExpired =>
      subst hx
      exact htop.mono hL rfl (fun _ h => ⟨h, rfl⟩) (by intro _ h; cases h) (fun _ h => ⟨h, rfl⟩)

theorem updateSnapshot_disk (hR : Lossy R file) {src : Source} {persist : Bool} (consistent : Bool)
    (hmode : src = .cache ∧ persist = false ∧ consistent = false ∨ persist = true) :
    Keeps (Inv E D R cfg file a n) (updateSnapshotWithRepos E D R src persist consistent) := by
  refine Tri.fix fun s0 h0 => ?_
  have idle : ∀ s : St W, (s.tuf = s0.tuf ∧ file s.io.w = file s0.io.w ∧ s0.io.log <+: s.io.log) →
      Inv E D R cfg file a n s := fun s h => h0.idle h.1 h.2.1 h.2.2
  have start : ∀ s : St W, s = s0 →
      (s.tuf = s0.tuf ∧ file s.io.w = file s0.io.w ∧ s0.io.log <+: s.io.log) := by
    rintro s rfl; exact ⟨rfl, rfl, List.prefix_refl _⟩
  unfold updateSnapshotWithRepos
  refine Tri.bind (Q := fun t s => t = s0.tuf ∧ s = s0) (by rintro s rfl; exact ⟨rfl, rfl⟩)
    fun t => Tri.assume fun ht => ?_
  subst ht
  cases hts : s0.tuf.timestamp with
  | none => exact Tri.fail fun s hs => idle s (start s hs)
  | some ts =>
    refine Tri.ite (fun _ => Tri.ret fun s hs => idle s (start s hs)) fun hv => ?_
    refine Tri.bind (Q := fun p s => hashPreference ts.snapshot.hashes = .ok p ∧ s = s0)
      (Tri.ofExcept (fun _ _ h hs => ⟨h, hs⟩) (fun _ s _ hs => idle s (start s hs)))
      fun pr => Tri.assume fun hpr => ?_
    obtain ⟨al, va⟩ := pr
    dsimp only
    refine Tri.bind ((fetch_st hR.toReads src _ _ _ _ _ s0.tuf (file s0.io.w) s0.io.log).conseq
      start (fun _ _ h => h) (fun _ s h => idle s h)) fun raw => Tri.assume fun hraw => ?_
    refine Tri.bind ((clock_st hR.toReads s0.tuf (file s0.io.w) s0.io.log).conseq (fun _ h => h)
      (fun _ _ h => h) (fun _ s h => idle s h)) fun clk => ?_
    refine finish_disk hR (.snapshot clk raw) .snapshot _ raw persist s0 h0 (by decide) ?_
      (fun o' t' h => step_root_eq h (by simp)) ?_ ?_
    · intro hp
      rcases hmode with ⟨hs, _, hc⟩ | hp'
      · have := hraw.2 hs; rw [hc] at this; exact this
      · rw [hp] at hp'; cases hp'
    · intro t' F' L' hst hF hF' hL hop htop
      obtain ⟨new, hrule, hpost⟩ := snapshot_step hst
      have hts' : t'.timestamp = s0.tuf.timestamp := hpost.timestamp
      refine ⟨?_, fun sn hsn => ?_, ?_⟩
      · exact (htop.mono (t' := { t' with snapshot := none, targets := none }) hL hpost.root
          (fun ta h => ⟨hts' ▸ h, hF' _ (by decide)⟩) (by intro _ h; cases h)
          (by intro _ h; cases h)).timestamp
      · rw [hpost.snapshot] at hsn
        cases hsn
        obtain ⟨ts', h1, _, _, h4⟩ := hrule.announced
        rw [hts] at h1; cases h1
        obtain ⟨clk', raw', _, _, b3, b4⟩ := htop.timestamp ts hts
        refine ⟨clk, raw, ts.snapshot, al, va, hF, ?_, ?_, h4.symm, hpr, hraw.1, hop⟩
        · rw [hpost.root]; exact hrule.signed
        · exact ⟨clk', raw', ts, hL.subset b4, b3.decodes, rfl⟩
      · refine (htop.mono (t' := { t' with snapshot := none, timestamp := none }) hL hpost.root
          (by intro _ h; cases h) (by intro _ h; cases h) (fun ta h => ⟨?_, hF' _ (by decide)⟩)).targets
        by_cases hk : verOf (·.version) s0.tuf.targets = listed new targetsName
        · rw [← hpost.targetsKept hk]; exact h
        · have := hpost.targetsDropped hk
          change t'.targets = some ta at h
          rw [this] at h; cases h
    · intro o' t' L' hne hst hL htop
      have hc := step_case E s0.tuf (.snapshot clk raw)
      rw [hst] at hc
      have same : Top E D cfg (file s0.io.w) L' s0.tuf := htop.mono hL rfl (fun _ h => ⟨h, rfl⟩)
        (fun _ h => ⟨h, rfl⟩) (fun _ h => ⟨h, rfl⟩)
      generalize hx : t' = tx at hc
      generalize hy : o' = oy at hc
      cases hc with
      | failed => subst hx; exact same
      | same => subst hx; exact same
      | snapshot => exact absurd hy hne

theorem updateTargets_disk (hR : Lossy R file) {src : Source} {persist : Bool} (consistent : Bool)
    (hmode : src = .cache ∧ persist = false ∧ consistent = false ∨ persist = true) :
    Keeps (Inv E D R cfg file a n) (updateTargetsWithRepos E D R src persist consistent) := by
  refine Tri.fix fun s0 h0 => ?_
  have idle : ∀ s : St W, (s.tuf = s0.tuf ∧ file s.io.w = file s0.io.w ∧ s0.io.log <+: s.io.log) →
      Inv E D R cfg file a n s := fun s h => h0.idle h.1 h.2.1 h.2.2
  have start : ∀ s : St W, s = s0 →
      (s.tuf = s0.tuf ∧ file s.io.w = file s0.io.w ∧ s0.io.log <+: s.io.log) := by
    rintro s rfl; exact ⟨rfl, rfl, List.prefix_refl _⟩
  unfold updateTargetsWithRepos
  refine Tri.bind (Q := fun t s => t = s0.tuf ∧ s = s0) (by rintro s rfl; exact ⟨rfl, rfl⟩)
    fun t => Tri.assume fun ht => ?_
  subst ht
  cases hsn : s0.tuf.snapshot with
  | none => exact Tri.fail fun s hs => idle s (start s hs)
  | some sn =>
    dsimp only
    cases hm : sn.metas.get? (MetadataPath.fromRole .targets) with
    | none => exact Tri.fail fun s hs => idle s (start s hs)
    | some m =>
    refine Tri.ite (fun _ => Tri.ret fun s hs => idle s (start s hs)) fun hv => ?_
    refine Tri.bind (Q := fun p s => hashPreference m.hashes = .ok p ∧ s = s0)
      (Tri.ofExcept (fun _ _ h hs => ⟨h, hs⟩) (fun _ s _ hs => idle s (start s hs)))
      fun pr => Tri.assume fun hpr => ?_
    obtain ⟨al, va⟩ := pr
    dsimp only
    refine Tri.bind ((fetch_st hR.toReads src _ _ _ _ _ s0.tuf (file s0.io.w) s0.io.log).conseq
      start (fun _ _ h => h) (fun _ s h => idle s h)) fun raw => Tri.assume fun hraw => ?_
    refine Tri.bind ((clock_st hR.toReads s0.tuf (file s0.io.w) s0.io.log).conseq (fun _ h => h)
      (fun _ _ h => h) (fun _ s h => idle s h)) fun clk => ?_
    refine finish_disk hR (.targets clk raw) .targets _ raw persist s0 h0 (by decide) ?_
      (fun o' t' h => step_root_eq h (by simp)) ?_ ?_
    · intro hp
      rcases hmode with ⟨hs, _, hc⟩ | hp'
      · have := hraw.2 hs; rw [hc] at this; exact this
      · rw [hp] at hp'; cases hp'
    · intro t' F' L' hst hF hF' hL hop htop
      obtain ⟨new, hrule, rfl⟩ := targets_step hst
      refine ⟨?_, ?_, fun ta hta => ?_⟩
      · exact (htop.mono (t' := { s0.tuf with targets := none }) hL rfl
          (fun ta h => ⟨h, hF' _ (by decide)⟩) (fun ta h => ⟨h, hF' _ (by decide)⟩)
          (by intro _ h; cases h)).timestamp
      · exact (htop.mono (t' := { s0.tuf with targets := none }) hL rfl
          (fun ta h => ⟨h, hF' _ (by decide)⟩) (fun ta h => ⟨h, hF' _ (by decide)⟩)
          (by intro _ h; cases h)).snapshot
      · cases hta
        obtain ⟨sn', m', h1, _, h3, _, h4⟩ := hrule.announced
        rw [hsn] at h1; cases h1
        have h3' : sn.metas.get? (MetadataPath.fromRole .targets) = some m' := h3
        rw [hm] at h3'; cases h3'
        obtain ⟨clk', raw', _, _, _, _, b3, _, _, _, _, b4⟩ := htop.snapshot sn hsn
        exact ⟨raw, m, al, va, hF, hrule.signed, ⟨clk', raw', sn, hL.subset b4, b3.decodes, h3⟩,
          h4.symm, hpr, hraw.1⟩
    · intro o' t' L' hne hst hL htop
      have hc := step_case E s0.tuf (.targets clk raw)
      rw [hst] at hc
      have same : Top E D cfg (file s0.io.w) L' s0.tuf := htop.mono hL rfl (fun _ h => ⟨h, rfl⟩)
        (fun _ h => ⟨h, rfl⟩) (fun _ h => ⟨h, rfl⟩)
      generalize hx : t' = tx at hc
      generalize hy : o' = oy at hc
      cases hc with
      | failed => subst hx; exact same
      | same => subst hx; exact same
      | targets => exact absurd hy hne

/-- What remains if code of the root update fails: at worst the last roots are not stored. -/
def Short (E : Env) (D : Digest) (R : World W) (cfg : Config) (file : W → Files)
    (a : RootMetadata) (n : Nat) (s : St W) : Prop :=
  (∃ b, RootsOn E cfg (file s.io.w) a b ∧ n ≤ b.version ∧ b.version ≤ s.tuf.root.version) ∧
  (Faithful R file → Inv E D R cfg file a n s)

theorem Inv.short {s : St W} (h : Inv E D R cfg file a n s) : Short E D R cfg file a n s :=
  ⟨⟨_, h.roots, h.version, Nat.le_refl _⟩, fun _ => h⟩

/-- A write, at the level of client states. -/
theorem store_st (hR : Lossy R file) (role : Role) (p : MetadataPath) (v : MetadataVersion)
    (raw : Bytes) (hm : role.fuzzyMatchesPath p = true) (t : Tuf) (F : Files) (L : List LogEntry) :
    Tri (fun s : St W => s.tuf = t ∧ file s.io.w = F ∧ L <+: s.io.log)
      (lift (storeMetadata R role p v raw))
      (fun _ s => s.tuf = t ∧ file s.io.w = F.put p v raw ∧ L <+: s.io.log)
      (fun _ s => ¬ Faithful R file ∧ s.tuf = t ∧ file s.io.w = F ∧ L <+: s.io.log) :=
  (Tri.lift (store_files hR role p v raw F L) t).conseq (fun _ h => h)
    (fun _ _ h => ⟨h.1, h.2.2⟩)
    (fun _ _ h => ⟨fun hF => (by have := h.2.1 hF; rw [hm] at this; cases this), h.1, h.2.2⟩)

theorem rootLoop_disk (hR : Lossy R file) (fuel : Nat) : ∀ upd,
    Tri (Inv E D R cfg file a n) (rootLoop E D R cfg .remote true fuel upd)
      (fun _ => Inv E D R cfg file a n) (fun _ => Short E D R cfg file a n) := by
  induction fuel with
  | zero => exact fun _ => Tri.fail fun s h => h.short
  | succ fuel ih =>
    intro upd
    refine Tri.fix fun s0 h0 => ?_
    have idle : ∀ s : St W, (s.tuf = s0.tuf ∧ file s.io.w = file s0.io.w ∧ s0.io.log <+: s.io.log) →
        Inv E D R cfg file a n s := fun s h => h0.idle h.1 h.2.1 h.2.2
    have start : ∀ s : St W, s = s0 →
        (s.tuf = s0.tuf ∧ file s.io.w = file s0.io.w ∧ s0.io.log <+: s.io.log) := by
      rintro s rfl; exact ⟨rfl, rfl, List.prefix_refl _⟩
    unfold rootLoop
    refine Tri.bind (Q := fun t s => t = s0.tuf ∧ s = s0) (by rintro s rfl; exact ⟨rfl, rfl⟩)
      fun t => Tri.assume fun ht => ?_
    subst ht
    refine Tri.bind (Q := fun k s => nextRootVersion cfg.overflowChecks s0.tuf.root.version = .ok k ∧
      s = s0) (Tri.ofExcept (fun _ _ h hs => ⟨h, hs⟩) (fun _ s _ hs => (idle s (start s hs)).short))
      fun next => Tri.assume fun hnext => ?_
    refine Tri.bind (Tri.attempt ((fetch_st hR.toReads .remote _ _ _ _ _ s0.tuf (file s0.io.w)
      s0.io.log).pre start) (fun s hs => (idle s hs).short)) fun r => ?_
    cases r with
    | error e =>
      have ok : ∀ s : St W, (s.tuf = s0.tuf ∧ file s.io.w = file s0.io.w ∧ s0.io.log <+: s.io.log) →
        Inv E D R cfg file a n s := idle
      cases e <;> first | exact Tri.ret ok | exact Tri.fail fun s hs => (ok s hs).short
    | ok raw =>
      refine Tri.assume fun hraw => ?_
      dsimp only
      refine Tri.bind (Q := fun _ s => (∃ new, RootRule E s0.tuf raw new ∧ s.tuf = ofRoot new) ∧
        file s.io.w = file s0.io.w ∧ s0.io.log <+: s.io.log) (Tri.updateTuf ?_) fun _ =>
          Tri.fix fun s1 ⟨⟨new, hrule, h1⟩, h2, h3⟩ => ?_
      · rintro s o' t' ⟨h1, h2, h3⟩ hst
        rw [h1] at hst
        have hl : s0.io.log <+: s.io.log ++ [.op (.root raw) o'] := h3.trans (List.prefix_append _ _)
        rcases root_step hst with ⟨rfl, new, hr, rfl⟩ | ⟨⟨e, rfl⟩, ht⟩
        · exact ⟨⟨new, hr, rfl⟩, h2, hl⟩
        · exact (idle ⟨t', ⟨s.io.w, s.io.log ++ [.op (.root raw) (.failed e)]⟩⟩ ⟨ht, h2, hl⟩).short
      · have hk : next = s0.tuf.root.version + 1 := by
          have := hrule.noOverflow
          unfold nextRootVersion at hnext
          rw [if_neg (by simp only [u32Max]; omega)] at hnext
          cases hnext; rfl
        have hv : new.version = s0.tuf.root.version + 1 := hrule.nextVersion
        have hrule' : RootRule E (ofRoot s0.tuf.root) raw new :=
          ⟨hrule.signedByOld, hrule.signedBySelf, hrule.nextVersion, hrule.noOverflow⟩
        have hn := h0.version
        refine Tri.bind (Q := fun _ => Inv E D R cfg file a n) (Tri.when (fun _ => ?_) (by simp))
          fun _ => ih true
        refine Tri.bind (Q := fun _ s => s.tuf = ofRoot new ∧
            file s.io.w = (file s0.io.w).put "root".toList .none raw ∧ s0.io.log <+: s.io.log)
          ((store_st hR .root "root".toList .none raw (by decide) (ofRoot new) (file s0.io.w)
            s0.io.log).conseq (by rintro s rfl; exact ⟨h1, h2, h3⟩) (fun _ _ h => h) ?_) fun _ => ?_
        · rintro _ s ⟨hF, e1, e2, e3⟩
          refine ⟨⟨s0.tuf.root, by rw [e2]; exact h0.roots, hn, ?_⟩, fun h => absurd h hF⟩
          rw [e1]; show _ ≤ new.version; omega
        · refine (store_st hR .root "root".toList (.number next) raw (by decide) (ofRoot new) _
            s0.io.log).conseq (fun _ h => h) ?_ ?_
          · rintro _ s ⟨e1, e2, e3⟩
            refine ⟨?_, ?_, fun _ _ => by rw [e1]; exact Top.ofRoot _ _ _⟩
            · rw [e1, e2, hk]
              exact h0.roots.put_none.put hraw.1.1 hrule'
            · rw [e1]; show n ≤ new.version; omega
          · rintro _ s ⟨hF, e1, e2, e3⟩
            refine ⟨⟨s0.tuf.root, by rw [e2]; exact h0.roots.put_none, hn, ?_⟩, fun h => absurd h hF⟩
            rw [e1]; show _ ≤ new.version; omega

theorem update_disk (hR : Lossy R file) :
    Tri (Inv E D R cfg file a n) (update E D R cfg)
      (fun _ => Inv E D R cfg file a n) (fun _ => Short E D R cfg file a n) := by
  have weak : ∀ {α : Type} {m : M (St W) α}, Keeps (Inv E D R cfg file a n) m →
      Tri (Inv E D R cfg file a n) m (fun _ => Inv E D R cfg file a n)
        (fun _ => Short E D R cfg file a n) :=
    fun h => h.conseq (fun _ h => h) (fun _ _ h => h) (fun _ _ h => h.short)
  have clock : Keeps (Inv E D R cfg file a n) (getClock R) :=
    Tri.getClock fun s hs => hs.idle rfl (hR.clock _) (List.prefix_refl _)
  unfold Client.update updateRootWithRepos
  refine Tri.bind (Q := fun _ => Inv E D R cfg file a n) ?_ fun _ => ?_
  · refine Tri.bind (rootLoop_disk hR _ _) fun b => weak ?_
    refine clock.bind fun c => (keeps_getTuf _).bind fun t => ?_
    exact Keeps.ite (fun _ => Keeps.fail _) (fun _ => Keeps.ret _)
  · refine weak ?_
    refine (updateTimestamp_disk hR (.inr rfl)).bind fun _ => (keeps_getTuf _).bind fun _ => ?_
    refine (updateSnapshot_disk hR _ (.inr rfl)).bind fun _ => (keeps_getTuf _).bind fun _ => ?_
    exact (updateTargets_disk hR _ (.inr rfl)).bind fun _ => Keeps.ret _

/-- Target lookups: delegated metadata may be written, but not over the files of the invariant. -/
theorem walk_disk (hR : Lossy R file) : Walk E D R (Inv E D R cfg file a n)
    (fun p _ s => Inv E D R cfg file a n s ∧
      (ProperNames s.io.log → p ≠ "timestamp".toList ∧ p ≠ "targets".toList)) where
  fetch src role p v mx h := by
    refine Tri.fix fun s0 h0 => ?_
    exact (fetch_st hR.toReads src role p v mx h s0.tuf (file s0.io.w) s0.io.log).conseq
      (by rintro s rfl; exact ⟨rfl, rfl, List.prefix_refl _⟩)
      (fun _ _ h => h0.idle h.2.1 h.2.2.1 h.2.2.2) (fun _ _ h => h0.idle h.1 h.2.1 h.2.2)
  clock := Tri.getClock fun s hs => hs.idle rfl (hR.clock _) (List.prefix_refl _)
  op clk parent p raw := by
    refine Tri.updateTuf ?_
    intro s o' t' h0 hst
    have hl : s.io.log <+: s.io.log ++ [LogEntry.op (.delegation clk parent p raw) o'] :=
      List.prefix_append _ _
    have inv : Inv E D R cfg file a n
        ⟨t', ⟨s.io.w, s.io.log ++ [LogEntry.op (.delegation clk parent p raw) o']⟩⟩ := by
      have hroot := step_root_eq hst (by simp)
      refine ⟨by show RootsOn E cfg (file s.io.w) a t'.root; rw [hroot]; exact h0.roots,
        by show n ≤ t'.root.version; rw [hroot]; exact h0.version, fun hF hp => ?_⟩
      have htop := h0.top hF (hp.of_prefix hl)
      have hc := step_case E s.tuf (.delegation clk parent p raw)
      rw [hst] at hc
      refine htop.mono hl hroot ?_ ?_ ?_ <;>
      · intro x hx
        refine ⟨?_, rfl⟩
        generalize ho : o' = ox at hc
        cases hc <;> exact hx
    have names : ProperNames (s.io.log ++ [LogEntry.op (.delegation clk parent p raw) o']) →
        p ≠ "timestamp".toList ∧ p ≠ "targets".toList :=
      fun h => h clk parent p raw o' (by simp)
    cases o' with
    | failed e => exact inv
    | changed => exact ⟨inv, names⟩
    | unchanged => exact ⟨inv, names⟩
  store p raw := by
    refine Tri.fix fun s0 ⟨h0, hp⟩ => ?_
    refine (Tri.lift (store_files hR .targets p .none raw (file s0.io.w) s0.io.log) s0.tuf).conseq
      (by rintro s rfl; exact ⟨rfl, rfl, List.prefix_refl _⟩) ?_ ?_
    · rintro _ s ⟨e1, e0, e2, e3⟩
      refine ⟨by rw [e1, e2]; exact h0.roots.put_none, by rw [e1]; exact h0.version, ?_⟩
      intro hF hpn
      have hn := hp (hpn.of_prefix e3)
      have hs : p ≠ "snapshot".toList := by rintro rfl; revert e0; decide
      rw [e1, e2]
      refine (h0.top hF (hpn.of_prefix e3)).mono e3 rfl ?_ ?_ ?_ <;> intro x hx <;> refine ⟨hx, ?_⟩
      · exact Files.put_ne hn.1.symm
      · exact Files.put_ne hs.symm
      · exact Files.put_ne hn.2.symm
    · rintro _ s ⟨e1, e0, e2, e3⟩
      exact h0.idle e1 e2 e3

theorem lift_disk {α : Type} {m : M (Io W) α}
    (h : ∀ F L, Keeps (fun io : Io W => file io.w = F ∧ L <+: io.log) m) :
    Keeps (Inv E D R cfg file a n) (lift m) := by
  refine Tri.fix fun s0 h0 => ?_
  exact (Tri.lift (h (file s0.io.w) s0.io.log) s0.tuf).conseq
    (by rintro s rfl; exact ⟨rfl, rfl, List.prefix_refl _⟩)
    (fun _ _ h => h0.idle h.1 h.2.1 h.2.2) (fun _ _ h => h0.idle h.1 h.2.1 h.2.2)

/-- The invariant for all public calls. -/
theorem exec_disk (hR : Lossy R file) (c : Call) :
    Tri (Inv E D R cfg file a n) (exec E D R cfg c)
      (fun _ => Inv E D R cfg file a n) (fun _ => Short E D R cfg file a n) := by
  have weak : ∀ {α : Type} {m : M (St W) α}, Keeps (Inv E D R cfg file a n) m →
      Tri (Inv E D R cfg file a n) m (fun _ => Inv E D R cfg file a n)
        (fun _ => Short E D R cfg file a n) :=
    fun h => h.conseq (fun _ h => h) (fun _ _ h => h) (fun _ _ h => h.short)
  have reader : ∀ p, Keeps (Inv E D R cfg file a n) (fetchTargetReader E D R cfg p) := fun p =>
    (walk_disk hR).fetchTargetReader
      (fun q d => lift_disk fun F L => fetchTargetStream_files hR.toReads q d F L) p
  cases c with
  | update => exact Tri.bind (update_disk hR) fun _ => weak (Keeps.ret _)
  | fetchTarget p =>
    refine weak (Keeps.bind ?_ fun _ => Keeps.ret _)
    exact (reader p).bind fun st => lift_disk fun F L => storeTarget_files hR.toReads st p F L
  | fetchTargetToWriter p =>
    refine weak (Keeps.bind ?_ fun _ => Keeps.ret _)
    exact (reader p).bind fun st => lift_disk fun F L => copyToWriter_files hR.toReads st F L
  | fetchTargetDescription p =>
    exact weak (Keeps.bind ((walk_disk hR).fetchTargetDescription p) fun _ => Keeps.ret _)

/-- Loading the stored roots: the client ends up with the last one. -/
theorem rootLoop_replay (hR : Reads R file) (F : Files) (L : List LogEntry) (fuel : Nat) :
    ∀ (upd : Bool) (r b : RootMetadata), RootsOn E cfg F r b → b.version - r.version < fuel →
    Tri (fun s : St W => s.tuf = ofRoot r ∧ file s.io.w = F ∧ L <+: s.io.log)
      (rootLoop E D R cfg .cache false fuel upd)
      (fun _ s => s.tuf = ofRoot b ∧ file s.io.w = F ∧ L <+: s.io.log)
      (fun _ s => 4294967295 ≤ b.version ∧ s.tuf = ofRoot b ∧ file s.io.w = F ∧ L <+: s.io.log) := by
  induction fuel with
  | zero => intro upd r b _ h; omega
  | succ fuel ih =>
    intro upd r b hr hfuel
    unfold rootLoop
    refine Tri.bind (Q := fun t s => t = ofRoot r ∧ s.tuf = ofRoot r ∧ file s.io.w = F ∧ L <+: s.io.log)
      (fun s h => ⟨h.1, h⟩) fun t => Tri.assume fun ht => ?_
    subst ht
    rcases hr.stored.head with rfl | ⟨c, raw, h1, h2, h3, h4⟩
    · -- the last root
      by_cases hmax : 4294967295 ≤ r.version
      · refine Tri.bind (Q := fun _ s => s.tuf = ofRoot r ∧ file s.io.w = F ∧ L <+: s.io.log)
          (Tri.ofExcept (fun _ _ _ h => h) (fun _ _ _ h => ⟨hmax, h⟩)) fun next => ?_
        refine Tri.bind (Tri.attempt (fetch_st hR .cache _ _ _ _ _ (ofRoot r) F L)
          (fun _ h => ⟨hmax, h⟩)) fun x => ?_
        cases x with
        | error e => cases e <;> first
          | exact Tri.ret fun _ h => h
          | exact Tri.fail fun _ h => ⟨hmax, h⟩
        | ok raw =>
          refine Tri.assume fun _ => Tri.bind (Q := fun _ _ => False) (Tri.updateTuf ?_) fun _ =>
            fun _ h => h.elim
          rintro s o' t' ⟨e1, e2, e3⟩ hst
          rw [e1] at hst
          rcases root_step hst with ⟨rfl, new, hr', rfl⟩ | ⟨⟨e, rfl⟩, rfl⟩
          · have := hr'.noOverflow; simp only [ofRoot] at this; omega
          · exact ⟨hmax, rfl, e2, e3.trans (List.prefix_append _ _)⟩
      · refine Tri.bind (Q := fun k s => k = r.version + 1 ∧
          s.tuf = ofRoot r ∧ file s.io.w = F ∧ L <+: s.io.log) (Tri.ofExcept ?_ ?_) fun next =>
            Tri.assume fun hk => ?_
        · intro k s hk hs
          refine ⟨?_, hs⟩
          unfold nextRootVersion at hk
          rw [if_neg (by simp only [u32Max, ofRoot]; omega)] at hk
          cases hk; rfl
        · intro e s hk hs
          unfold nextRootVersion at hk
          rw [if_neg (by simp only [u32Max, ofRoot]; omega)] at hk
          cases hk
        · subst hk
          refine Tri.bind (Q := fun x s => x = .error .notFound ∧
            s.tuf = ofRoot r ∧ file s.io.w = F ∧ L <+: s.io.log) ?_ fun x => Tri.assume ?_
          · rintro ⟨t, io⟩ ⟨e1, e2, e3⟩
            obtain ⟨io', q1, q2, q3⟩ := cacheFetch_absent (D := D) (m := cfg.maxRootLength) (h := none)
              hR (role := .root) (p := MetadataPath.fromRole .root) (v := .number (r.version + 1))
              (io := io) (by decide) (by rw [show file io.w = F from e2]; exact hr.beyond _ (by omega))
            simp only [M.attempt, lift, q1]
            refine ⟨trivial, e1, q2.trans e2, ?_⟩
            rw [q3]; exact e3.trans (List.prefix_append _ _)
          · rintro rfl
            exact Tri.ret fun _ h => h
    · -- one more root
      have hv : c.version = r.version + 1 := h3.nextVersion
      have hno : r.version + 1 ≤ 4294967295 := h3.noOverflow
      refine Tri.bind (Q := fun k s => k = r.version + 1 ∧
        s.tuf = ofRoot r ∧ file s.io.w = F ∧ L <+: s.io.log) (Tri.ofExcept ?_ ?_) fun next =>
          Tri.assume fun hk => ?_
      · intro k s hk hs
        refine ⟨?_, hs⟩
        unfold nextRootVersion at hk
        rw [if_neg (by simp only [u32Max, ofRoot]; omega)] at hk
        cases hk; rfl
      · intro e s hk hs
        unfold nextRootVersion at hk
        rw [if_neg (by simp only [u32Max, ofRoot]; omega)] at hk
        cases hk
      subst hk
      refine Tri.bind (Q := fun x s => x = .ok raw ∧
        s.tuf = ofRoot r ∧ file s.io.w = F ∧ L <+: s.io.log) ?_ fun x => Tri.assume ?_
      · rintro ⟨t, io⟩ ⟨e1, e2, e3⟩
        obtain ⟨io', q1, q2, q3⟩ := cacheFetch_present (D := D) (m := cfg.maxRootLength) (h := none)
          hR (role := .root) (p := MetadataPath.fromRole .root) (v := .number (r.version + 1))
          (io := io) (raw := raw) (by decide) (by rw [show file io.w = F from e2]; exact h1)
          (by intro _ _ h; cases h) ⟨h2, by intro _ _ h; cases h⟩
        simp only [M.attempt, lift, q1]
        refine ⟨trivial, e1, q2.trans e2, ?_⟩
        rw [q3]; exact e3.trans (List.prefix_append _ _)
      · rintro rfl
        dsimp only
        refine Tri.bind (Q := fun _ s => s.tuf = ofRoot c ∧ file s.io.w = F ∧ L <+: s.io.log)
          (Tri.updateTuf ?_) fun _ => ?_
        · rintro s o' t' ⟨e1, e2, e3⟩ hst
          have hok := (updateRoot_ok_iff E (ofRoot r) (ofRoot c) raw).2 ⟨c, h3, rfl⟩
          rw [e1] at hst
          simp only [Tuf.step, hok] at hst
          cases hst
          exact ⟨rfl, e2, e3.trans (List.prefix_append _ _)⟩
        · refine Tri.bind (Q := fun _ s => s.tuf = ofRoot c ∧ file s.io.w = F ∧ L <+: s.io.log)
            (Tri.when (by simp) fun _ _ h => h) fun _ => ?_
          exact ih true c b ⟨h4, hr.beyond⟩ (by have := h4.version_le; omega)

/-- Loading the local repository: the last stored root is trusted, whatever else happens. -/
theorem loadLocal_disk (hR : Lossy R file) (b : RootMetadata) (F : Files) (L : List LogEntry)
    (hb : RootsOn E cfg F a b) (hn : n ≤ b.version) :
    Tri (fun s : St W => s.tuf = ofRoot a ∧ file s.io.w = F ∧ L <+: s.io.log) (loadLocal E D R cfg)
      (fun _ s => s.tuf.root = b ∧ file s.io.w = F ∧ L <+: s.io.log ∧ Inv E D R cfg file a n s)
      (fun _ s => s.tuf.root = b ∧ file s.io.w = F ∧ L <+: s.io.log ∧ Inv E D R cfg file a n s) := by
  have hfuel : b.version - a.version < rootFuel := by
    have := hb.stored.bound
    have : a.version ≤ 4294967295 ∨ b.version = a.version := by
      have := hb.stored.version_le
      omega
    simp only [rootFuel, u32Max]
    omega
  have base : ∀ s : St W, s.tuf = ofRoot b ∧ file s.io.w = F ∧ L <+: s.io.log →
      s.tuf.root = b ∧ file s.io.w = F ∧ L <+: s.io.log ∧ Inv E D R cfg file a n s := by
    rintro s ⟨h1, h2, h3⟩
    refine ⟨by rw [h1]; rfl, h2, h3, ?_, ?_, fun _ _ => by rw [h1]; exact Top.ofRoot _ _ _⟩
    · rw [h1, h2]; exact hb
    · rw [h1]; exact hn
  unfold Client.loadLocal updateRootWithRepos
  refine Tri.bind (Q := fun _ s => s.tuf = ofRoot b ∧ file s.io.w = F ∧ L <+: s.io.log) ?_ fun _ => ?_
  · refine Tri.bind ((rootLoop_replay hR.toReads F L rootFuel false a b hb hfuel).conseq
      (fun _ h => h) (fun _ _ h => h) (fun _ s h => base s h.2)) fun _ => ?_
    refine Tri.bind ((clock_st hR.toReads (ofRoot b) F L).conseq (fun _ h => h) (fun _ _ h => h)
      (fun _ s h => base s h)) fun c => ?_
    refine Tri.bind (Q := fun _ (s : St W) => s.tuf = ofRoot b ∧ file s.io.w = F ∧ L <+: s.io.log)
      (fun (s : St W) h => h) fun t => ?_
    exact Tri.ite (fun _ => Tri.fail fun s h => base s h) (fun _ => Tri.ret fun _ h => h)
  · -- the other parts change neither files nor root
    refine Tri.pre (P := fun s : St W => s.tuf.root = b ∧ file s.io.w = F ∧ L <+: s.io.log ∧
      Inv E D R cfg file a n s) ?_ base
    have split : ∀ {α : Type} {m : M (St W) α},
        Keeps (fun s : St W => s.tuf.root = b) m →
        Keeps (fun s : St W => file s.io.w = F ∧ L <+: s.io.log) m →
        Keeps (Inv E D R cfg file a n) m →
        Keeps (fun s : St W => s.tuf.root = b ∧ file s.io.w = F ∧ L <+: s.io.log ∧
          Inv E D R cfg file a n s) m := by
      intro α m h1 h2 h3 s hs
      have e1 := h1 s hs.1
      have e2 := h2 s ⟨hs.2.1, hs.2.2.1⟩
      have e3 := h3 s hs.2.2.2
      cases hm : m s with
      | mk r s' => rw [hm] at e1 e2 e3; cases r <;> exact ⟨e1, e2.1, e2.2, e3⟩
    have prims : Prims E D R (fun s : St W => file s.io.w = F ∧ L <+: s.io.log)
        (· = .cache) False TopOp := by
      refine ⟨?_, False.elim, ?_, ?_⟩
      · intro src _ role p v mx h
        refine lift_keeps ((fetch_files hR.toReads src role p v mx h F L).conseq (fun _ h => h)
          (fun _ _ h => h.2) (fun _ _ h => h))
      · exact Tri.getClock fun s hs => ⟨(hR.clock _).trans hs.1, hs.2⟩
      · intro o _
        refine Tri.updateTuf ?_
        intro s o' t' hs hst
        have key : file s.io.w = F ∧ L <+: s.io.log ++ [LogEntry.op o o'] :=
          ⟨hs.1, hs.2.trans (List.prefix_append _ _)⟩
        cases o' <;> exact key
    have root : ∀ {m : M (St W) Bool} {o : Clock → Bytes → Op}, (∀ c x raw, o c x ≠ .root raw) →
        (∀ t, Tri (fun s : St W => s.tuf = t) m
          (fun _ s => s.tuf = t ∨ ∃ clk raw o', Tuf.step E t (o clk raw) = (o', s.tuf))
          (fun _ s => s.tuf = t ∨ ∃ clk raw o', Tuf.step E t (o clk raw) = (o', s.tuf))) →
        Keeps (fun s : St W => s.tuf.root = b) m := by
      intro m o ho h
      refine Tri.fix fun s0 h0 => (h s0.tuf).conseq (by rintro s rfl; rfl) ?_ ?_ <;>
      · rintro _ s (h1 | ⟨clk, raw, o', h1⟩)
        · show s.tuf.root = b
          rw [h1]; exact h0
        · exact (step_root_eq h1 (ho clk raw)).trans h0
    refine Keeps.bind (split (root (o := fun c x => .timestamp c x) (by simp) fun t =>
      (updateTimestamp_eff .cache false t).conseq (fun _ h => h) ?_ (fun _ _ h => h))
      (prims.updateTimestamp .cache rfl false (by simp)) (updateTimestamp_disk hR (.inl ⟨rfl, rfl⟩)))
      fun _ => ?_
    · rintro _ s ⟨w, raw, ⟨_, h⟩ | ⟨_, h⟩⟩ <;> exact .inr ⟨_, _, _, h⟩
    refine Keeps.bind (split (root (o := fun c x => .snapshot c x) (by simp) fun t =>
      (updateSnapshot_eff .cache false false t).conseq (fun _ h => h) ?_ (fun _ _ h => h))
      (prims.updateSnapshot .cache rfl false (by simp) false)
      (updateSnapshot_disk hR false (.inl ⟨rfl, rfl, rfl⟩))) fun _ => ?_
    · rintro _ s (⟨w, raw, _, h⟩ | ⟨_, h, _⟩)
      · exact .inr ⟨_, _, _, h⟩
      · exact .inl h
    refine Keeps.bind (split (root (o := fun c x => .targets c x) (by simp) fun t =>
      (updateTargets_eff .cache false false t).conseq (fun _ h => h) ?_ (fun _ _ h => h))
      (prims.updateTargets .cache rfl false (by simp) false)
      (updateTargets_disk hR false (.inl ⟨rfl, rfl, rfl⟩))) fun _ => Keeps.ret _
    · rintro _ s (⟨w, raw, _, h⟩ | ⟨_, h, _⟩)
      · exact .inr ⟨_, _, _, h⟩
      · exact .inl h

/-- Construction of a client from the initial root `a`. -/
theorem construct_disk (hR : Lossy R file) {raw : Bytes} {b : RootMetadata} {io io' : Io W}
    {r : Except Err Tuf} (h0 : fromTrustedRoot E raw = .ok (ofRoot a))
    (hb : RootsOn E cfg (file io.w) a b) (hn : n ≤ b.version)
    (h : construct E D R cfg (.trustedRoot raw) io = (r, io')) :
    ∃ r' s, loadLocal E D R cfg ⟨ofRoot a, io⟩ = (r', s) ∧ s.io = io' ∧
      (r' = .error .panic ∧ r = .error .panic ∨ r' ≠ .error .panic ∧ r = .ok s.tuf) ∧
      s.tuf.root = b ∧ file io'.w = file io.w ∧ io.log <+: io'.log ∧ Inv E D R cfg file a n s := by
  have hl := loadLocal_disk (E := E) (D := D) (n := n) hR b (file io.w) io.log hb hn ⟨ofRoot a, io⟩
    ⟨rfl, rfl, List.prefix_refl _⟩
  have h' : Client.new E D R cfg (ofRoot a) io = (r, io') := by
    have : construct E D R cfg (.trustedRoot raw) io = Client.new E D R cfg (ofRoot a) io := by
      show M.bind (M.ofExcept (fromTrustedRoot E raw)) _ io = _
      unfold M.bind M.ofExcept
      rw [h0]
    rw [← this]; exact h
  unfold Client.new at h'
  cases hm : loadLocal E D R cfg ⟨ofRoot a, io⟩ with
  | mk r' s =>
    rw [hm] at hl h'
    refine ⟨r', s, rfl, ?_⟩
    have inv : s.tuf.root = b ∧ file s.io.w = file io.w ∧ io.log <+: s.io.log ∧
        Inv E D R cfg file a n s := by cases r' <;> exact hl
    split at h'
    · rename_i heq; cases heq; cases h'
      exact ⟨rfl, .inl ⟨rfl, rfl⟩, inv⟩
    · rename_i hne heq; cases heq; cases h'
      refine ⟨rfl, .inr ⟨?_, rfl⟩, inv⟩
      rintro rfl; exact hne rfl

end run
end RustTuf.Props
