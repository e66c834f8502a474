import Verif.Props.ClientUpdate
import Verif.Props.ClientTargets
import Verif.Props.Paths
import Verif.Lemmas.Restart
import Verif.Spec.Published

/-!
# An honestly published repository is accepted
-/

namespace RustTuf.Props
open Client Spec RustTuf Tuf

variable {W : Type}

theorem hashPreference_of {hs : Map HashAlg HashValue} {a : HashAlg} {v : HashValue}
    (h : Preferred hs a v) : hashPreference hs = .ok (a, v) := by
  obtain ⟨h1, rfl | ⟨rfl, h2⟩⟩ := h
  · simp [hashPreference, hashAlgPrefs, hashPreferenceIn, h1]
  · simp [hashPreference, hashAlgPrefs, hashPreferenceIn, h1, h2]

theorem readable_of_notLonger {D : Digest} {m : Option Nat} {raw : Bytes} (h : NotLonger m raw) :
    Readable D m none raw := by
  refine ⟨?_, fun _ _ h => by cases h⟩
  obtain ⟨h1, h2⟩ := h
  unfold limit
  cases m with
  | none => simpa [usizeMax, u64Max] using h1
  | some n => have := h2 n rfl; simp only [Option.getD_some, u64Max]; omega

theorem readable_of_described {D : Digest} {n : Nat} {hs : Map HashAlg HashValue} {raw : Bytes}
    (h : Described D n hs raw) : ∃ a v, hashPreference hs = .ok (a, v) ∧ Usable (some (a, v)) ∧
      Readable D (some n) (some (a, v)) raw := by
  obtain ⟨hw, a, hp⟩ := h
  refine ⟨a, D a raw, hashPreference_of hp, ?_, (readable_of_notLonger (D := D) hw).1, ?_⟩
  · intro b v h
    cases h
    rcases hp.2 with rfl | ⟨rfl, _⟩
    · exact .inl rfl
    · exact .inr rfl
  · intro b v h; cases h; rfl

theorem step_of_timestamp {E : Env} {clk : Clock} {t t' : Tuf} {raw : Bytes} {ts : TimestampMetadata}
    (h : updateTimestamp E clk t raw = (.ok (some ts), t')) :
    Tuf.step E t (.timestamp clk raw) = (.changed, t') := by simp only [Tuf.step, h]

theorem step_of_targets {E : Env} {clk : Clock} {t t' : Tuf} {raw : Bytes}
    (h : updateTargets E clk t raw = (.ok true, t')) :
    Tuf.step E t (.targets clk raw) = (.changed, t') := by simp only [Tuf.step, h]

section honest
variable {E : Env} {D : Digest} {R : World W} {cfg : Config} {file : Files}

/-- A file that is served and passes the checks is read. -/
theorem fetch_delivers {I : W → Prop} {role : Role} {p : MetadataPath} {v : MetadataVersion}
    {m : Option Nat} {h : HashData} {raw : Bytes} (hS : Delivers R I p v m h raw)
    (hc : checkRole role p = .ok ()) (hu : Usable h) (hr : Readable D m h raw) (t : Tuf) :
    Tri (fun s : St W => s.tuf = t ∧ I s.io.w) (lift (fetchMetadata D R .remote role p v m h))
      (fun x s => x = raw ∧ s.tuf = t) (fun _ _ => False) := by
  refine (Tri.lift (P := fun io => I io.w) (Q := fun x _ => x = raw) (X := fun _ _ => False) ?_ t).conseq
    (fun _ h => h) (fun _ _ h => ⟨h.2, h.1⟩) (fun _ _ h => h.2)
  intro io hI
  obtain ⟨evs, he, hd⟩ := hS io.w hI
  cases hq : R.remote.fetchMetadata p v m h io.w with
  | mk r w' =>
    rw [hq] at he
    cases he
    have : fetchMetadata D R .remote role p v m h io =
        (.ok raw, ⟨w', (io.log ++ [.fetch .remote p v m h]) ++ [.got .remote p raw]⟩) := by
      simp only [fetchMetadata, hc]
      show M.bind _ _ _ = _
      simp only [M.bind, M.ofExcept, Bind.bind, Io.note, Io.call, World.provider, hq,
        readChecked_of_readable hu hr hd]
      rfl
    rw [this]

theorem _root_.RustTuf.Spec.Serves.delivers (hS : Serves R file) {p : MetadataPath} {v : MetadataVersion} {raw : Bytes}
    (ht : TopName p) (hf : file p v = some raw) (m : Option Nat) (h : HashData) :
    Delivers R (fun _ => True) p v m h raw := fun w _ => hS.present p v m h w raw ht hf

/-- The root files among `file` are served. -/
structure ServesRoots (R : World W) (file : Files) : Prop where
  present : ∀ v m h w b, file "root".toList v = some b →
    ∃ evs, (R.remote.fetchMetadata "root".toList v m h w).1 = .ok evs ∧ delivered evs = (b, .eof)
  absent : ∀ v m h w, file "root".toList v = none →
    (R.remote.fetchMetadata "root".toList v m h w).1 = .error .notFound

theorem _root_.RustTuf.Spec.Serves.roots (hS : Serves R file) : ServesRoots R file where
  present v m h w b := hS.present _ v m h w b (.inl rfl)
  absent v m h w := hS.absent _ v m h w (.inl rfl)

/-- A file that is not published is reported missing. -/
theorem fetch_absent (hS : ServesRoots R file) {role : Role} {v : MetadataVersion}
    {m : Option Nat} {h : HashData} (hc : checkRole role "root".toList = .ok ())
    (hf : file "root".toList v = none) (t : Tuf) :
    Tri (fun s : St W => s.tuf = t) (lift (fetchMetadata D R .remote role "root".toList v m h))
      (fun _ _ => False) (fun e s => e = .notFound ∧ s.tuf = t) := by
  refine (Tri.lift (P := fun _ => True) (Q := fun x _ => False) (X := fun e _ => e = .notFound)
    ?_ t).conseq (fun _ h => ⟨h, trivial⟩) (fun _ _ h => h.2) (fun _ _ h => ⟨h.2, h.1⟩)
  intro io _
  have he := hS.absent v m h io.w hf
  cases hq : R.remote.fetchMetadata "root".toList v m h io.w with
  | mk r w' =>
    rw [hq] at he
    cases he
    have : fetchMetadata D R .remote role "root".toList v m h io =
        (.error .notFound, ⟨w', io.log ++ [.fetch .remote "root".toList v m h]⟩) := by
      simp only [fetchMetadata, hc]
      show M.bind _ _ _ = _
      simp only [M.bind, M.ofExcept, Bind.bind, Io.note, Io.call, World.provider, hq]
    rw [this]

theorem store_writable (hW : Writable R) {role : Role} {p : MetadataPath} (v : MetadataVersion)
    (raw : Bytes) (hc : checkRole role p = .ok ()) (t : Tuf) :
    Tri (fun s : St W => s.tuf = t) (lift (storeMetadata R role p v raw))
      (fun _ s => s.tuf = t) (fun _ _ => False) := by
  refine (Tri.lift (P := fun _ => True) (Q := fun _ _ => True) (X := fun _ _ => False) ?_ t).conseq
    (fun _ h => ⟨h, trivial⟩) (fun _ _ h => h.1) (fun _ _ h => h.2)
  intro io _
  have he := hW p v raw io.w
  cases hq : R.storeMetadata p v raw io.w with
  | mk r w' =>
    rw [hq] at he
    cases he
    have : storeMetadata R role p v raw io = (.ok (), ⟨w', io.log ++ [.store p v raw]⟩) := by
      simp only [storeMetadata, hc]
      show M.bind _ _ _ = _
      simp only [M.bind, M.ofExcept, Bind.bind, Io.note, Io.call, hq]
    rw [this]
    trivial

/-- The published roots: versions go up to the last one. -/
theorem _root_.RustTuf.Spec.Roots.le {r r' : RootMetadata} (h : Roots E cfg file r r') :
    r.version ≤ r'.version ∧ r'.version < 4294967295 ∧ (r.version = r'.version → r = r') := by
  induction h with
  | last r h1 _ => exact ⟨Nat.le_refl _, h1, fun _ => rfl⟩
  | next r r1 r' raw _ _ _ _ hv _ ih => exact ⟨by omega, ih.2.1, fun h => by omega⟩

/-- The client follows the published roots to the last one. -/
theorem rootLoop_honest (hS : ServesRoots R file) (hW : Writable R) {r r' : RootMetadata}
    (h : Roots E cfg file r r') : ∀ (fuel : Nat) (upd : Bool) (t : Tuf), t.root = r →
      r'.version - r.version < fuel →
      Tri (fun s : St W => s.tuf = t) (rootLoop E D R cfg .remote true fuel upd)
        (fun _ s => s.tuf = t ∧ r = r' ∨ s.tuf = ofRoot r') (fun _ _ => False) := by
  induction h with
  | last r hv hn =>
    intro fuel upd t ht hf
    obtain ⟨fuel, rfl⟩ : ∃ k, fuel = k + 1 := ⟨fuel - 1, by omega⟩
    unfold rootLoop
    refine Tri.bind (getTuf_tuf t fun _ hs => hs) fun t' => Tri.assume fun ht' => ?_
    subst ht'
    refine Tri.bind (Q := fun nx s => nx = r.version + 1 ∧ s.tuf = t')
      (Tri.ofExcept (fun nx s h hs => ⟨?_, hs⟩) (fun e s h _ => ?_)) fun nx => Tri.assume fun hnx => ?_
    · rw [ht] at h; unfold nextRootVersion u32Max at h; split at h
      · omega
      · cases h; rfl
    · rw [ht] at h; unfold nextRootVersion u32Max at h; split at h
      · omega
      · cases h
    subst hnx
    refine Tri.bind (Tri.attempt (fetch_absent (D := D) hS (role := .root)
      (by decide +kernel) hn t')
      (fun _ h => nomatch h.1)) fun x => ?_
    cases x with
    | ok raw => exact fun s hs => hs.elim
    | error e =>
      refine Tri.assume fun he => ?_
      subst he
      exact Tri.ret fun s hs => .inl ⟨hs, rfl⟩
  | next r r1 r' raw hfile hw ha1 ha2 hv hrest ih =>
    intro fuel upd t ht hf
    obtain ⟨fuel, rfl⟩ : ∃ k, fuel = k + 1 := ⟨fuel - 1, by omega⟩
    have hle := hrest.le
    unfold rootLoop
    refine Tri.bind (getTuf_tuf t fun _ hs => hs) fun t' => Tri.assume fun ht' => ?_
    subst ht'
    refine Tri.bind (Q := fun nx s => nx = r.version + 1 ∧ s.tuf = t')
      (Tri.ofExcept (fun nx s h hs => ⟨?_, hs⟩) (fun e s h _ => ?_)) fun nx => Tri.assume fun hnx => ?_
    · rw [ht] at h; unfold nextRootVersion u32Max at h; split at h
      · omega
      · cases h; rfl
    · rw [ht] at h; unfold nextRootVersion u32Max at h; split at h
      · omega
      · cases h
    subst hnx
    refine Tri.bind (Tri.attempt ((fetch_delivers (D := D) (role := .root) (p := MetadataPath.fromRole .root)
      (I := fun _ => True) (fun w _ => hS.present _ _ _ w _ hfile) (by decide +kernel)
      (fun _ _ h => by cases h) (readable_of_notLonger hw) t').pre fun _ h => ⟨h, trivial⟩)) fun x => ?_
    cases x with
    | error e => exact fun s hs => hs.elim
    | ok raw' =>
      refine Tri.assume fun he => ?_
      subst he
      have hup : updateRoot E t' raw' = (.ok (), ofRoot r1) :=
        (updateRoot_ok_iff ..).2 ⟨r1, ⟨by rw [ht]; exact ha1, ha2, by rw [ht]; exact hv,
          by rw [ht]; omega⟩, rfl⟩
      refine Tri.bind (Q := fun _ s => s.tuf = ofRoot r1)
        (Tri.updateTuf fun s o t'' hs hst => ?_) fun o => ?_
      · rw [hs] at hst
        simp only [Tuf.step, hup] at hst
        cases hst
        rfl
      refine Tri.bind (Q := fun _ s => s.tuf = ofRoot r1) (Tri.when (fun _ =>
        Tri.bind (store_writable hW _ _ (by decide +kernel) _) fun _ =>
          store_writable hW _ _ (by decide +kernel) _) (fun h => by cases h)) fun _ => ?_
      refine (ih fuel true (ofRoot r1) rfl (by omega)).post fun _ s hs => .inr ?_
      rcases hs with ⟨hs, rfl⟩ | hs
      · exact hs
      · exact hs

theorem updateRoot_honest (hS : ServesRoots R file) (hW : Writable R) {r' : RootMetadata} (t : Tuf)
    (h : Roots E cfg file t.root r') (hx : Before R r'.expires) :
    Tri (fun s : St W => s.tuf = t) (updateRootWithRepos E D R cfg .remote true)
      (fun _ s => s.tuf = t ∧ t.root = r' ∨ s.tuf = ofRoot r') (fun _ _ => False) := by
  unfold updateRootWithRepos
  have hle := h.le
  refine Tri.bind (rootLoop_honest hS hW h rootFuel false t rfl
    (by simp only [rootFuel, u32Max]; omega)) fun b => ?_
  refine Tri.fix fun s0 h0 => ?_
  refine Tri.bind ((clock_read s0.tuf).pre (fun s hs => by rw [hs])) fun c => Tri.assume ?_
  rintro ⟨w, rfl⟩
  refine Tri.bind (getTuf_tuf s0.tuf fun _ hs => hs) fun t' => Tri.assume fun ht' => ?_
  subst ht'
  refine Tri.ite (fun hc => ?_) (fun _ => Tri.ret fun s hs => by rw [hs]; exact h0)
  have hroot : s0.tuf.root = r' := by
    rcases h0 with ⟨h1, h2⟩ | h1
    · rw [h1, h2]
    · rw [h1]; rfl
  rw [hroot] at hc
  have := hx w .root
  omega

/-- A document that is accepted is stored. -/
theorem finish_honest (hW : Writable R) {o : Op} {role : Role} {p : MetadataPath} {raw : Bytes}
    {t t' : Tuf} {b : Bool} (hc : checkRole role p = .ok ())
    (hst : Tuf.step E t o = (if b then .changed else .unchanged, t')) :
    Tri (fun s : St W => s.tuf = t) (do
        match ← updateTuf E o with
        | .changed =>
          M.when true do
            lift (storeMetadata R role p .none raw)
          return true
        | _ => return false)
      (fun _ s => s.tuf = t') (fun _ _ => False) := by
  refine Tri.bind (Q := fun o s => o = (if b then .changed else .unchanged) ∧ s.tuf = t')
    (Tri.updateTuf fun s o' t'' hs h => ?_) fun o' => Tri.assume fun ho => ?_
  · rw [hs, hst] at h
    cases b <;> cases h <;> exact ⟨rfl, rfl⟩
  · subst ho
    cases b with
    | true =>
      exact Tri.bind (Tri.when (fun _ => store_writable hW _ _ hc t') (fun h => by cases h))
        fun _ => Tri.ret fun s hs => hs
    | false => exact Tri.ret fun s hs => hs

end honest

/-- What a client trusts after the root stage. -/
structure Ready (t : Tuf) (r : RootMetadata) (ts : TimestampMetadata) (sn : SnapshotMetadata)
    (ta : TargetsMetadata) : Prop where
  root : t.root = r
  timestamp : ∀ x, t.timestamp = some x → x = ts ∨ x.version < ts.version
  snapshot : ∀ x, t.snapshot = some x → x.version = sn.version → x = sn
  targets : ∀ x, t.targets = some x → x.version = ta.version → x = ta
  consistent : Consistent t

/-- What a client trusts after the timestamp stage. -/
structure Ready2 (t : Tuf) (r : RootMetadata) (ts : TimestampMetadata) (sn : SnapshotMetadata)
    (ta : TargetsMetadata) : Prop where
  root : t.root = r
  timestamp : t.timestamp = some ts
  snapshot : ∀ x, t.snapshot = some x → x = sn
  targets : ∀ x, t.targets = some x → x.version = ta.version → x = ta
  both : t.snapshot = some sn → ∀ x, t.targets = some x → x = ta

/-- What a client trusts after the snapshot stage. -/
structure Ready3 (t : Tuf) (r : RootMetadata) (ts : TimestampMetadata) (sn : SnapshotMetadata)
    (ta : TargetsMetadata) : Prop where
  root : t.root = r
  timestamp : t.timestamp = some ts
  snapshot : t.snapshot = some sn
  targets : ∀ x, t.targets = some x → x = ta

/-- The client trusts exactly this. -/
structure Trusts (t : Tuf) (r : RootMetadata) (ts : TimestampMetadata) (sn : SnapshotMetadata)
    (ta : TargetsMetadata) : Prop where
  root : t.root = r
  timestamp : t.timestamp = some ts
  snapshot : t.snapshot = some sn
  targets : t.targets = some ta

section stages
variable {E : Env} {D : Digest} {R : World W} {cfg : Config} {I : W → Prop} {r : RootMetadata}
  {ts : TimestampMetadata} {sn : SnapshotMetadata} {ta : TargetsMetadata} {m : MetadataDescription}
  (hE : Decoders E) (hW : Writable R)
include hE hW

theorem timestamp_stage {rawTs : Bytes}
    (f1 : Delivers R I "timestamp".toList .none cfg.maxTimestampLength none rawTs)
    (l1 : NotLonger cfg.maxTimestampLength rawTs)
    (a1 : Authentic E E.timestampFromSlice rawTs r.timestamp.threshold (timestampSigners r) ts)
    (vsn : ts.snapshot.version = sn.version) (g3 : sn.metas.get? "targets".toList = some m)
    (v3 : m.version = ta.version) (x2 : Before R ts.expires) :
    Tri (fun s' : St W => Ready s'.tuf r ts sn ta ∧ I s'.io.w)
      (updateTimestampWithRepos E D R cfg .remote true)
      (fun _ s => Ready2 s.tuf r ts sn ta) (fun _ _ => False) := by
  have pts := decoders_of_authentic hE.timestamp a1
  refine Tri.fix fun s0 h0 => ?_
  obtain ⟨⟨h1, h2, h3, h4, h5⟩, hI⟩ := h0
  have fin : ∀ t : Tuf, (∀ x, t.snapshot = some x → x = sn) → t.targets = s0.tuf.targets →
      (t.snapshot = some sn → s0.tuf.snapshot = some sn) → t.snapshot = some sn →
      ∀ x, t.targets = some x → x = ta := by
    intro t _ e1 e2 e3 x hx
    rw [e1] at hx
    obtain ⟨m', hm', hv'⟩ := h5.targets sn x (e2 e3) hx
    have : m' = m := by rw [show targetsName = "targets".toList from rfl, g3] at hm'; cases hm'; rfl
    exact h4 x hx (by rw [hv', this, v3])
  unfold updateTimestampWithRepos
  refine Tri.bind ((fetch_delivers (D := D) (role := .timestamp)
    (p := MetadataPath.fromRole .timestamp) f1 (by decide +kernel) (fun _ _ h => by cases h)
    (readable_of_notLonger l1) s0.tuf).pre (fun s hs => by rw [hs]; exact ⟨rfl, hI⟩)) fun raw =>
      Tri.assume fun he => ?_
  subst he
  refine Tri.bind (clock_read s0.tuf) fun c => Tri.assume ?_
  rintro ⟨w, rfl⟩
  have a1' : Authentic E E.timestampFromSlice raw s0.tuf.root.timestamp.threshold
      (timestampSigners s0.tuf.root) ts := by rw [h1]; exact a1
  by_cases hsame : s0.tuf.timestamp = some ts
  · have hup : updateTimestamp E (R.clock w).1 s0.tuf raw = (.ok none, s0.tuf) :=
      (updateTimestamp_none_iff ..).2 ⟨rfl, ts, a1', by rw [hsame]; rfl⟩
    refine (finish_honest (b := false) hW (by decide +kernel)
      (show Tuf.step E s0.tuf (.timestamp (R.clock w).1 raw) = (.unchanged, s0.tuf) by
        simp only [Tuf.step, hup])).post fun _ s hs => ?_
    rw [hs]
    have hsn : ∀ x, s0.tuf.snapshot = some x → x = sn := by
      intro x hx
      obtain ⟨ts', e1, e2⟩ := h5.snapshot x hx
      rw [hsame] at e1; cases e1
      exact h3 x hx (by rw [e2, vsn])
    exact ⟨h1, hsame, hsn, h4, fin _ hsn rfl id⟩
  · have hnew : verOf (·.version) s0.tuf.timestamp < ts.version := by
      cases hc : s0.tuf.timestamp with
      | none => simp only [verOf]; omega
      | some x =>
        rcases h2 x hc with rfl | h
        · exact absurd hc hsame
        · exact h
    have hup := (updateTimestamp_some_iff E (R.clock w).1 s0.tuf _ raw ts).2
      ⟨⟨a1', hnew, x2 w .new⟩, rfl⟩
    have hst := step_of_timestamp hup
    refine (finish_honest (b := true) hW (by decide +kernel)
      hst).post fun _ s hs => ?_
    rw [hs]
    have hsn : ∀ x, (if verOf (·.version) s0.tuf.snapshot = ts.snapshot.version then s0.tuf.snapshot
        else none) = some x → x = sn := by
      intro x hx
      split at hx
      · rename_i hv
        rw [hx] at hv
        exact h3 x hx (by rw [← vsn]; exact hv)
      · cases hx
    refine ⟨h1, rfl, hsn, h4, fin _ hsn rfl ?_⟩
    intro h
    simp only at h
    split at h
    · exact h
    · cases h

theorem snapshot_stage {rawSn : Bytes}
    (f2 : ∀ m h, Delivers R I "snapshot".toList (publishedAs r sn.version) m h rawSn)
    (d2 : Described D ts.snapshot.length ts.snapshot.hashes rawSn)
    (a2 : Authentic E E.snapshotFromSlice rawSn r.snapshot.threshold (snapshotSigners r) sn)
    (vsn : ts.snapshot.version = sn.version) (g3 : sn.metas.get? "targets".toList = some m)
    (v3 : m.version = ta.version) (x1 : Before R r.expires) (x2 : Before R ts.expires) (c : Bool)
    (hc : c = r.consistentSnapshot) :
    Tri (fun s' : St W => Ready2 s'.tuf r ts sn ta ∧ I s'.io.w)
      (updateSnapshotWithRepos E D R .remote true c) (fun _ s => Ready3 s.tuf r ts sn ta)
      (fun _ _ => False) := by
  subst hc
  have psn := decoders_of_authentic hE.snapshot a2
  refine Tri.fix fun s0 h0 => ?_
  obtain ⟨⟨h1, h2, h3, h4, h5⟩, hI⟩ := h0
  unfold updateSnapshotWithRepos
  refine Tri.bind (getTuf_tuf s0.tuf fun _ hs => by rw [hs]) fun t' => Tri.assume fun ht' => ?_
  subst ht'
  simp only [h2]
  refine Tri.ite (fun hc => Tri.ret fun s hs => ?_) (fun hc => ?_)
  · rw [hs]
    rw [snapshotVersion_eq] at hc
    cases hsn : s0.tuf.snapshot with
    | none => rw [hsn] at hc; simp only [verOf] at hc; omega
    | some x =>
      have := h3 x hsn
      subst this
      exact ⟨h1, h2, hsn, h5 hsn⟩
  · obtain ⟨a, v, e1, e2, e3⟩ := readable_of_described d2
    refine Tri.bind (Q := fun p s => p = (a, v) ∧ s = s0)
      (Tri.ofExcept (fun p s h hs => ⟨by rw [e1] at h; cases h; rfl, hs⟩)
        (fun _ _ h _ => by rw [e1] at h; cases h)) fun p => Tri.assume fun hpp => ?_
    subst hpp
    refine Tri.bind ((fetch_delivers (D := D) (role := .snapshot)
      (p := MetadataPath.fromRole .snapshot) (by rw [vsn]; exact f2 _ _) (by decide +kernel)
      e2 e3 s0.tuf).pre (fun s hs => by rw [hs]; exact ⟨rfl, hI⟩)) fun raw => Tri.assume fun he => ?_
    subst he
    refine Tri.bind (clock_read s0.tuf) fun c => Tri.assume ?_
    rintro ⟨w, rfl⟩
    have hrule : SnapshotRule E (R.clock w).1 s0.tuf raw sn :=
      ⟨by rw [h1]; exact x1 w .root, ⟨ts, h2, x2 w .timestamp, by
        rw [snapshotVersion_eq] at hc; omega, vsn.symm⟩, by rw [h1]; exact a2⟩
    obtain ⟨t', hup⟩ := updateSnapshot_true_of_rule E _ s0.tuf raw sn hrule
    obtain ⟨sn', hr', hpost⟩ := updateSnapshot_true E _ s0.tuf t' raw hup
    have : sn' = sn := by
      obtain ⟨m1, q1, q2⟩ := hr'.signed
      obtain ⟨m2, q3, q4⟩ := hrule.signed
      obtain ⟨_, sg, sd, u1, u2, _⟩ := q1
      obtain ⟨_, sg', sd', u1', u2', _⟩ := q3
      rw [u1] at u1'; cases u1'
      rw [u2] at u2'; cases u2'
      rw [q2] at q4; cases q4; rfl
    subst this
    refine (finish_honest (b := true) hW (by decide +kernel)
      (show Tuf.step E s0.tuf (.snapshot (R.clock w).1 raw) = (.changed, t') by
        simp only [Tuf.step, hup])).post fun _ s hs => ?_
    rw [hs]
    refine ⟨by rw [hpost.root, h1], by rw [hpost.timestamp, h2], hpost.snapshot, fun x hx => ?_⟩
    have hl : listed sn' targetsName = ta.version := by
      unfold listed
      rw [show targetsName = "targets".toList from rfl, g3]
      exact v3
    by_cases hv : verOf (·.version) s0.tuf.targets = listed sn' targetsName
    · rw [hpost.targetsKept hv] at hx
      rw [hx] at hv
      exact h4 x hx (by rw [← hl]; exact hv)
    · rw [hpost.targetsDropped hv] at hx; cases hx

theorem targets_stage {rawTa : Bytes}
    (f3 : ∀ m h, Delivers R I "targets".toList (publishedAs r ta.version) m h rawTa)
    (d3 : Described D m.length m.hashes rawTa)
    (a3 : Authentic E E.targetsFromSlice rawTa r.targets.threshold (targetsSigners r) ta)
    (g3 : sn.metas.get? "targets".toList = some m)
    (v3 : m.version = ta.version) (x1 : Before R r.expires) (x3 : Before R sn.expires)
    (x4 : Before R ta.expires) (c : Bool) (hc : c = r.consistentSnapshot) :
    Tri (fun s' : St W => Ready3 s'.tuf r ts sn ta ∧ I s'.io.w)
      (updateTargetsWithRepos E D R .remote true c)
      (fun _ s => Trusts s.tuf r ts sn ta) (fun _ _ => False) := by
  subst hc
  have pta := decoders_of_authentic hE.targets a3
  refine Tri.fix fun s0 h0 => ?_
  obtain ⟨⟨h1, h2, h3, h4⟩, hI⟩ := h0
  unfold updateTargetsWithRepos
  refine Tri.bind (getTuf_tuf s0.tuf fun _ hs => by rw [hs]) fun t' => Tri.assume fun ht' => ?_
  subst ht'
  have g3' : sn.metas.get? (MetadataPath.fromRole .targets) = some m := g3
  simp only [h3, g3']
  refine Tri.ite (fun hc => Tri.ret fun s hs => ?_) (fun hc => ?_)
  · rw [hs]
    rw [targetsVersion_eq] at hc
    cases hta : s0.tuf.targets with
    | none => rw [hta] at hc; simp only [verOf] at hc; omega
    | some x => exact ⟨h1, h2, h3, by rw [hta, h4 x hta]⟩
  · obtain ⟨a, v, e1, e2, e3⟩ := readable_of_described d3
    refine Tri.bind (Q := fun p s => p = (a, v) ∧ s = s0)
      (Tri.ofExcept (fun p s h hs => ⟨by rw [e1] at h; cases h; rfl, hs⟩)
        (fun _ _ h _ => by rw [e1] at h; cases h)) fun p => Tri.assume fun hpp => ?_
    subst hpp
    refine Tri.bind ((fetch_delivers (D := D) (role := .targets)
      (p := MetadataPath.fromRole .targets) (by rw [v3]; exact f3 _ _) (by decide +kernel)
      e2 e3 s0.tuf).pre (fun s hs => by rw [hs]; exact ⟨rfl, hI⟩)) fun raw => Tri.assume fun he => ?_
    subst he
    refine Tri.bind (clock_read s0.tuf) fun c => Tri.assume ?_
    rintro ⟨w, rfl⟩
    have hup := (updateTargets_true_iff E (R.clock w).1 s0.tuf _ raw).2
      ⟨ta, ⟨by rw [h1]; exact x1 w .root, ⟨sn, m, h3, x3 w .snapshot, g3, by
        rw [targetsVersion_eq] at hc; omega, v3.symm⟩, by rw [h1]; exact a3, x4 w .new⟩, rfl⟩
    refine (finish_honest (b := true) hW (by decide +kernel)
      (step_of_targets hup)).post fun _ s hs => ?_
    rw [hs]
    exact ⟨h1, h2, h3, rfl⟩

end stages

/-- C73, where it does not matter what the client trusts if its root is older. -/
theorem honest_update (E : Env) (hE : Decoders E) (D : Digest) (R : World W)
    (cfg : Config) (file : Files) (s : St W) (hr : Reachable E s.tuf) (r : RootMetadata)
    (ts : TimestampMetadata) (sn : SnapshotMetadata) (ta : TargetsMetadata)
    (hS : Serves R file) (hW : Writable R) (hroots : Roots E cfg file s.tuf.root r)
    (hp : Published E D cfg file r ts sn ta) (hb : s.tuf.root = r → Behind s.tuf r ts sn ta)
    (hclk : Before R r.expires ∧ Before R ts.expires ∧ Before R sn.expires ∧ Before R ta.expires) :
    ∃ b s', update E D R cfg s = (.ok b, s') ∧ s'.tuf.root = r ∧ s'.tuf.timestamp = some ts ∧
      s'.tuf.snapshot = some sn ∧ s'.tuf.targets = some ta := by
  obtain ⟨x1, x2, x3, x4⟩ := hclk
  obtain ⟨rawTs, f1, l1, a1⟩ := hp.timestamp
  obtain ⟨rawSn, f2, d2, a2⟩ := hp.snapshot
  obtain ⟨rawTa, m, g3, v3, f3, d3, a3⟩ := hp.targets
  have vsn := hp.snapshotVersion
  have hcons := hr.consistent hE
  have s1 : Tri (fun s' : St W => s'.tuf = s.tuf) (updateRootWithRepos E D R cfg .remote true)
      (fun _ s => Ready s.tuf r ts sn ta) (fun _ _ => False) := by
    refine (updateRoot_honest (D := D) hS.roots hW s.tuf hroots x1).post fun _ s' hs => ?_
    rcases hs with ⟨h1, h2⟩ | h1
    · rw [h1]
      have hb := hb h2
      exact ⟨h2, fun x => hb.timestamp x (by rw [h2]), hb.snapshot, hb.targets, hcons⟩
    · rw [h1]
      exact ⟨rfl, by simp [ofRoot], by simp [ofRoot], by simp [ofRoot],
        ⟨by simp [ofRoot], by simp [ofRoot], by simp [ofRoot]⟩⟩
  have call : Tri (fun s' : St W => s'.tuf = s.tuf) (update E D R cfg)
      (fun _ s => Trusts s.tuf r ts sn ta) (fun _ _ => False) := by
    unfold update
    refine Tri.bind s1 fun b1 => ?_
    refine Tri.bind ((timestamp_stage hE hW (Serves.delivers hS (.inr (.inl rfl)) f1 _ _) l1 a1 vsn g3
      v3 x2).pre fun _ h => ⟨h, trivial⟩) fun b2 => ?_
    refine Tri.bind (Q := fun t s => t.root = r ∧ Ready2 s.tuf r ts sn ta)
      (fun s hs => ⟨hs.root, hs⟩) fun t => Tri.assume fun ht => ?_
    refine Tri.bind ((snapshot_stage hE hW
      (fun _ _ => Serves.delivers hS (.inr (.inr (.inl rfl))) f2 _ _) d2 a2 vsn g3 v3 x1 x2 _
      (by rw [ht])).pre fun _ h => ⟨h, trivial⟩) fun b3 => ?_
    refine Tri.bind (Q := fun t s => t.root = r ∧ Ready3 s.tuf r ts sn ta)
      (fun s hs => ⟨hs.root, hs⟩) fun t => Tri.assume fun ht => ?_
    refine Tri.bind ((targets_stage hE hW
      (fun _ _ => Serves.delivers hS (.inr (.inr (.inr rfl))) f3 _ _) d3 a3 g3 v3 x1 x3 x4 _
      (by rw [ht])).pre fun _ h => ⟨h, trivial⟩) fun b4 => ?_
    exact Tri.ret fun s hs => hs
  have := call s rfl
  cases hu : update E D R cfg s with
  | mk x s' =>
    rw [hu] at this
    cases x with
    | error e => exact this.elim
    | ok b => exact ⟨b, s', rfl, this.1, this.2, this.3, this.4⟩

/-- **C73.** A client updates to any honestly published repository: if the remote repository serves
root files that lead from the client's root to an unexpired last root, and below it a timestamp, a
snapshot and targets metadata that are signed, described and unexpired, if the client trusts nothing
newer, and if the local repository can be written, then `update` succeeds and afterwards the client
trusts exactly the published metadata. -/
theorem C73_honest_update_succeeds (E : Env) (hE : Decoders E) (D : Digest) (R : World W)
    (cfg : Config) (file : Files) (s : St W) (hr : Reachable E s.tuf) (r : RootMetadata)
    (ts : TimestampMetadata) (sn : SnapshotMetadata) (ta : TargetsMetadata)
    (hS : Serves R file) (hW : Writable R) (hroots : Roots E cfg file s.tuf.root r)
    (hp : Published E D cfg file r ts sn ta) (hb : Behind s.tuf r ts sn ta)
    (hclk : Before R r.expires ∧ Before R ts.expires ∧ Before R sn.expires ∧ Before R ta.expires) :
    ∃ b s', update E D R cfg s = (.ok b, s') ∧ s'.tuf.root = r ∧ s'.tuf.timestamp = some ts ∧
      s'.tuf.snapshot = some sn ∧ s'.tuf.targets = some ta :=
  honest_update E hE D R cfg file s hr r ts sn ta hS hW hroots hp (fun _ => hb) hclk

/-- Toy worlds serve their files. -/
theorem toy_serves (files : Map (MetadataPath × MetadataVersion) Bytes) (targets : Map TargetPath Bytes)
    (now : Time) (file : Files) (h : ∀ p v, file p v = files.get? (p, v)) :
    Serves (Toy.repos files targets now) file where
  present p v m hh w b _ hb := by
    rw [h] at hb
    refine ⟨Toy.stream b, by simp only [Toy.repos, hb], ?_⟩
    unfold Toy.stream
    split
    · rename_i hb; subst hb; rfl
    · rename_i hb; simp [delivered, hb]
  absent p v m hh w _ hb := by
    rw [h] at hb
    simp only [Toy.repos, hb]

/-- The toy repository meets the hypotheses of C73 for the toy client, which has to go through a
root change. -/
example : ∃ (file : Files) (r : RootMetadata) (ts : TimestampMetadata) (sn : SnapshotMetadata)
    (ta : TargetsMetadata), Decoders Toy.env ∧ Reachable Toy.env Toy.client0.tuf ∧
    Serves Toy.remoteRepo file ∧ Writable Toy.remoteRepo ∧
    Roots Toy.env Toy.config file Toy.client0.tuf.root r ∧ Toy.client0.tuf.root ≠ r ∧
    Published Toy.env Toy.digest Toy.config file r ts sn ta ∧ Behind Toy.client0.tuf r ts sn ta ∧
    (Before Toy.remoteRepo r.expires ∧ Before Toy.remoteRepo ts.expires ∧
      Before Toy.remoteRepo sn.expires ∧ Before Toy.remoteRepo ta.expires) := by
  refine ⟨fun p v => Toy.remoteFiles.get? (p, v), Toy.root 2 1000, Toy.timestamp 1 500 1,
    Toy.snapshot 1 500 [("targets", 1), ("a", 1), ("b", 1)], Toy.topTargets, Toy.env_decoders,
    ⟨Toy.boot, [], .inr ⟨[1], by decide +kernel⟩, rfl⟩, toy_serves _ _ _ _ fun _ _ => rfl,
    fun _ _ _ _ => rfl, ?_, by decide +kernel, ?_, ⟨fun _ _ h => (by cases h), fun _ h => (by cases h),
      fun _ h => (by cases h)⟩,
    fun _ _ => (by decide : (100 : Int) < 1000), fun _ _ => (by decide : (100 : Int) < 500),
    fun _ _ => (by decide : (100 : Int) < 500), fun _ _ => (by decide : (100 : Int) < 500)⟩
  · refine .next _ (Toy.root 2 1000) _ [2] (by decide +kernel)
      ⟨by decide, fun n h => by cases h; decide⟩ ((verifySignatures_ok_iff ..).1 (by decide +kernel))
      ((verifySignatures_ok_iff ..).1 (by decide +kernel)) rfl ?_
    exact .last _ (by decide +kernel) (by decide +kernel)
  · refine ⟨⟨[10], by decide +kernel, ⟨by decide, fun n h => by cases h; decide⟩,
        (verifySignatures_ok_iff ..).1 (by decide +kernel)⟩,
      ⟨[20], by decide +kernel, ⟨⟨by decide, fun n h => by cases h; decide⟩, .sha256, by decide +kernel,
        .inr ⟨rfl, by decide +kernel⟩⟩, (verifySignatures_ok_iff ..).1 (by decide +kernel)⟩, rfl,
      ⟨[30], Toy.descr 1, by decide +kernel, rfl, by decide +kernel,
        ⟨⟨by decide, fun n h => by cases h; decide⟩, .sha256, by decide +kernel,
        .inr ⟨rfl, by decide +kernel⟩⟩, (verifySignatures_ok_iff ..).1 (by decide +kernel)⟩⟩

/-! ### C74 -/

/-- A complete stream with the right content passes the reader's checks unchanged. -/
theorem delivered_polls {D : Digest} {max : Nat} {a : HashAlg} {v : HashValue} (evs : List Ev) :
    ∀ (s : SafeReader) (acc bs : Bytes), s.At max (some (a, v)) acc → delivered evs = (bs, .eof) →
      (acc ++ bs).length ≤ max → (acc ++ bs).length ≤ u64Max → D a (acc ++ bs) = v →
      delivered (s.polls D (evs ++ [.data []])) = (bs, .eof) := by
  have fin : ∀ (s : SafeReader) (acc : Bytes) (rest : List Ev), s.At max (some (a, v)) acc →
      D a acc = v → delivered (s.polls D (.data [] :: rest)) = ([], .eof) := by
    intro s acc rest hs hd
    simp only [SafeReader.polls, SafeReader.poll, hs.2.2, Option.map_some, hd]
    simp [delivered]
  induction evs with
  | nil =>
    intro s acc bs hs h _ _ hd
    cases h
    rw [List.append_nil] at hd
    exact fin s acc [] hs hd
  | cons ev evs ih =>
    intro s acc bs hs h h1 h2 hd
    cases ev with
    | pending => exact ih s acc bs hs h h1 h2 hd
    | err k => cases h
    | data b =>
      simp only [delivered] at h
      split at h
      · rename_i hb; subst hb; cases h
        rw [List.append_nil] at hd
        exact fin s acc _ hs hd
      · rename_i hb
        injection h with e1 e2
        subst e1
        cases b with
        | nil => exact absurd rfl hb
        | cons x xs =>
          rw [← List.append_assoc] at h1 h2 hd
          have hc : s.bytesRead + (x :: xs).length ≤ u64Max ∧
              s.bytesRead + (x :: xs).length ≤ s.maxSize := by
            rw [hs.2.1, hs.1]
            rw [List.length_append, List.length_append] at h1 h2
            omega
          simp only [List.cons_append, SafeReader.polls, SafeReader.poll_cons, hc, and_self, if_true,
            delivered, reduceCtorEq, if_false]
          have := ih _ _ _ (hs.push x xs) (Prod.ext rfl e2) h1 h2 hd
          simp only [List.cons_append] at this
          rw [this]

theorem copyToWriter_ok {R : World W} (h : Accepts R) (stream : List Ev) : ∀ (io : Io W) (bs : Bytes),
    delivered stream = (bs, .eof) → (copyToWriter R stream io).1 = .ok () := by
  have fl : ∀ io : Io W, (copyToWriter R [] io).1 = .ok () := by
    intro io
    have := h.2 io.w
    simp only [copyToWriter]
    cases hq : R.flush io.w with
    | mk r w' => rw [hq] at this; cases this; rfl
  induction stream with
  | nil => intro io bs _; exact fl io
  | cons ev evs ih =>
    intro io bs hd
    cases ev with
    | pending => exact ih io bs hd
    | err k => cases hd
    | data b =>
      simp only [delivered] at hd
      simp only [copyToWriter]
      split at hd
      · rename_i hb; rw [if_pos hb]; exact fl io
      · rename_i hb
        rw [if_neg hb]
        have hw := h.1 b io.w
        cases hq : R.write b io.w with
        | mk r w' =>
          rw [hq] at hw; cases hw
          injection hd with _ e2
          exact ih _ _ (Prod.ext rfl e2)

/-- The reader for a published target delivers its content. -/
theorem fetchTargetReader_honest {E : Env} {D : Digest} {R : World W} {cfg : Config}
    {path name : TargetPath} {content : Bytes} {a : HashAlg} {d : TargetDescription} {s : St W}
    (hnew : TargetPath.new path = .ok path) (hsn : s.tuf.snapshot ≠ none)
    (htop : TopEntry cfg s.tuf path d) (hpref : Preferred d.hashes a (D a content))
    (hlen : content.length ≤ d.length) (hmax : content.length ≤ 18446744073709551615)
    (hname : TargetFile s.tuf.root (D a content) path name)
    (hserve : ∃ evs, (R.remote.fetchTarget name d s.io.w).1 = .ok evs ∧ delivered evs = (content, .eof)) :
    ∃ stream s', fetchTargetReader E D R cfg path s = (.ok stream, s') ∧ s'.tuf = s.tuf ∧
      delivered stream = (content, .eof) ∧ s'.io.w = (R.remote.fetchTarget name d s.io.w).2 := by
  obtain ⟨virt, ta, h1, h2, h3⟩ := htop
  obtain ⟨sn, hsn⟩ := Option.ne_none_iff_exists'.1 hsn
  have hdesc : fetchTargetDescription E D R cfg path s = (.ok d, s) := by
    show M.bind _ _ s = _
    simp only [M.bind, M.ofExcept, h1, Bind.bind, getTuf, hsn, h2, Client.lookupIn, h3]
    rfl
  have hpr := hashPreference_of hpref
  have hstream : ∃ stream s', lift (fetchTargetStream D R name d) s = (.ok stream, s') ∧
      s'.tuf = s.tuf ∧ delivered stream = (content, .eof) ∧
      s'.io.w = (R.remote.fetchTarget name d s.io.w).2 := by
    obtain ⟨evs, he, hd⟩ := hserve
    have hn : ∃ rd, SafeReader.new d.length (some (a, D a content)) = .ok rd := by
      rcases hpref.2 with rfl | ⟨rfl, _⟩ <;> exact ⟨_, rfl⟩
    obtain ⟨rd, hrd⟩ := hn
    refine ⟨rd.polls D (evs ++ [.data []]), ⟨s.tuf, ⟨(R.remote.fetchTarget name d s.io.w).2,
      s.io.log ++ [.fetchTarget name]⟩⟩, ?_, rfl, ?_, rfl⟩
    · have : fetchTargetStream D R name d s.io = (.ok (rd.polls D (evs ++ [.data []])),
          ⟨(R.remote.fetchTarget name d s.io.w).2, s.io.log ++ [.fetchTarget name]⟩) := by
        show M.bind _ _ _ = _
        simp only [M.bind, M.ofExcept, hpr, Bind.bind, Io.note, Io.call]
        cases hq : R.remote.fetchTarget name d s.io.w with
        | mk r w' =>
          rw [hq] at he
          simp only at he
          subst he
          have hq' : R.remote.2 name d s.io.w = (.ok evs, w') := hq
          simp only [hrd, hq']
          rfl
      simp only [lift, this]
    · exact delivered_polls evs rd [] content (SafeReader.new_at hrd) hd (by simpa using hlen)
        (by simpa [u64Max] using hmax) (by simp)
  obtain ⟨stream, s', g1, g2, g3⟩ := hstream
  refine ⟨stream, s', ?_, g2, g3⟩
  show M.bind _ _ s = _
  simp only [M.bind, hdesc, Bind.bind, getTuf]
  unfold TargetFile at hname
  split at hname
  · rename_i hc
    obtain ⟨hne, dirs, file, p1, p2⟩ := hname
    obtain ⟨q, dirs', file', q1, _, q2, q3⟩ := C46_hash_prefix_accepted path path hnew (D a content) hne
    have hq : q = name := by
      rw [p1] at q2
      obtain ⟨rfl, e⟩ := List.append_inj' q2 rfl
      cases e
      rw [← p2] at q3
      unfold pieces at q3
      have := congrArg (List.intercalate ['/']) q3
      rwa [List.intercalate_splitOn, List.intercalate_splitOn] at this
    subst hq
    simp only [hc, if_true, M.bind, M.ofExcept, hpr, q1]
    exact g1
  · rename_i hc
    subst hname
    simp only [hc]
    exact g1

/-- What the remote repository answers now reaches the caller's writer. -/
theorem written_now (E : Env) (D : Digest) (R : World W) (cfg : Config)
    (path name : TargetPath) (content : Bytes) (a : HashAlg) (d : TargetDescription) (s : St W)
    (hnew : TargetPath.new path = .ok path) (hsn : s.tuf.snapshot ≠ none)
    (htop : TopEntry cfg s.tuf path d) (hpref : Preferred d.hashes a (D a content))
    (hlen : content.length ≤ d.length) (hmax : content.length ≤ 18446744073709551615)
    (hname : TargetFile s.tuf.root (D a content) path name)
    (hserve : ∃ evs, (R.remote.fetchTarget name d s.io.w).1 = .ok evs ∧ delivered evs = (content, .eof))
    (hwrite : Accepts R) :
    ∃ s' l, exec E D R cfg (.fetchTargetToWriter path) s = (.ok .done, s') ∧ s'.tuf = s.tuf ∧
      s'.io.log = s.io.log ++ l ∧ written l = content := by
  obtain ⟨stream, s1, h1, h2, h3, -⟩ := fetchTargetReader_honest (E := E) hnew hsn htop hpref hlen hmax
    hname hserve
  obtain ⟨l1, k1, k2⟩ := fetchTargetReader_noWrite (E := E) (D := D) (R := R) (cfg := cfg) path s
  rw [h1] at k1
  obtain ⟨l2, k3, _, k5⟩ := copyToWriter_written (R := R) stream s1.io
  have hok := copyToWriter_ok hwrite stream s1.io content h3
  have hd := k5 () hok
  rw [h3] at hd
  refine ⟨⟨s1.tuf, (copyToWriter R stream s1.io).2⟩, l1 ++ l2, ?_, h2, ?_, ?_⟩
  · show M.bind (fetchTargetToWriter E D R cfg path) _ s = _
    have : fetchTargetToWriter E D R cfg path s = (.ok (), ⟨s1.tuf, (copyToWriter R stream s1.io).2⟩) := by
      show M.bind _ _ s = _
      simp only [M.bind, h1, lift]
      cases hc : copyToWriter R stream s1.io with
      | mk r io' => rw [hc] at hok; simp only at hok; rw [hok]
    simp only [M.bind, this]
    rfl
  · rw [k3]; simp only at k1; rw [k1]; simp
  · rw [written_append, written_noWrite k2, List.nil_append]
    exact (congrArg Prod.fst hd).symm

/-- **C74.** A published target that the trusted top-level targets metadata lists is delivered: the
caller's writer gets exactly its bytes. -/
theorem C74_published_target_is_written (E : Env) (D : Digest) (R : World W) (cfg : Config)
    (path name : TargetPath) (content : Bytes) (a : HashAlg) (d : TargetDescription) (s : St W)
    (hnew : TargetPath.new path = .ok path) (hsn : s.tuf.snapshot ≠ none)
    (htop : TopEntry cfg s.tuf path d) (hpref : Preferred d.hashes a (D a content))
    (hlen : content.length ≤ d.length) (hmax : content.length ≤ 18446744073709551615)
    (hname : TargetFile s.tuf.root (D a content) path name) (hserve : ServesTarget R name content)
    (hwrite : Accepts R) :
    ∃ s' l, exec E D R cfg (.fetchTargetToWriter path) s = (.ok .done, s') ∧ s'.tuf = s.tuf ∧
      s'.io.log = s.io.log ++ l ∧ written l = content :=
  written_now E D R cfg path name content a d s hnew hsn htop hpref hlen hmax hname (hserve d s.io.w) hwrite

/-- **C74.** The same in one hypothesis. -/
theorem C74_listed_target_is_written (E : Env) (D : Digest) (R : World W) (cfg : Config)
    (path name : TargetPath) (content : Bytes) (s : St W) (hnew : TargetPath.new path = .ok path)
    (hl : Available D cfg s.tuf path name content) (hserve : ServesTarget R name content)
    (hwrite : Accepts R) :
    ∃ s' l, exec E D R cfg (.fetchTargetToWriter path) s = (.ok .done, s') ∧ s'.tuf = s.tuf ∧
      s'.io.log = s.io.log ++ l ∧ written l = content := by
  obtain ⟨h1, d, a, h2, h3, h4, h5, h6⟩ := hl
  exact C74_published_target_is_written E D R cfg path name content a d s hnew h1 h2 h3 h4 h5 h6 hserve
    hwrite

/-- What the remote repository answers now is stored. -/
theorem stored_now (E : Env) (D : Digest) (R : World W) (cfg : Config)
    (get : W → TargetPath → Option Bytes) (hR : KeepsTargets R get)
    (path name : TargetPath) (content : Bytes) (a : HashAlg) (d : TargetDescription) (s : St W)
    (hnew : TargetPath.new path = .ok path) (hsn : s.tuf.snapshot ≠ none)
    (htop : TopEntry cfg s.tuf path d) (hpref : Preferred d.hashes a (D a content))
    (hlen : content.length ≤ d.length) (hmax : content.length ≤ 18446744073709551615)
    (hname : TargetFile s.tuf.root (D a content) path name)
    (hserve : ∃ evs, (R.remote.fetchTarget name d s.io.w).1 = .ok evs ∧ delivered evs = (content, .eof))
    (hstore : AcceptsTargets R) :
    ∃ s', exec E D R cfg (.fetchTarget path) s = (.ok .done, s') ∧ s'.tuf = s.tuf ∧
      get s'.io.w path = some content := by
  obtain ⟨stream, s1, h1, h2, h3, -⟩ := fetchTargetReader_honest (E := E) hnew hsn htop hpref hlen hmax
    hname hserve
  have hok := hstore stream content path s1.io.w h3
  cases hq : R.storeTarget stream path s1.io.w with
  | mk r w' =>
    rw [hq] at hok
    simp only at hok
    subst hok
    obtain ⟨bs, e1, e2, _⟩ := hR.ok stream path s1.io.w w' hq
    rw [h3] at e1
    cases e1
    refine ⟨⟨s1.tuf, ⟨w', s1.io.log ++ [.storeTarget path]⟩⟩, ?_, h2, e2⟩
    show M.bind (fetchTarget E D R cfg path) _ s = _
    have : fetchTarget E D R cfg path s = (.ok (), ⟨s1.tuf, ⟨w', s1.io.log ++ [.storeTarget path]⟩⟩) := by
      show M.bind _ _ s = _
      simp only [M.bind, h1, lift, storeTarget, Bind.bind, Io.note, Io.call, hq]
    simp only [M.bind, this]
    rfl

/-- **C74.** The same for downloads into a faithful local repository. -/
theorem C74_published_target_is_stored (E : Env) (D : Digest) (R : World W) (cfg : Config)
    (get : W → TargetPath → Option Bytes) (hR : KeepsTargets R get)
    (path name : TargetPath) (content : Bytes) (a : HashAlg) (d : TargetDescription) (s : St W)
    (hnew : TargetPath.new path = .ok path) (hsn : s.tuf.snapshot ≠ none)
    (htop : TopEntry cfg s.tuf path d) (hpref : Preferred d.hashes a (D a content))
    (hlen : content.length ≤ d.length) (hmax : content.length ≤ 18446744073709551615)
    (hname : TargetFile s.tuf.root (D a content) path name) (hserve : ServesTarget R name content)
    (hstore : AcceptsTargets R) :
    ∃ s', exec E D R cfg (.fetchTarget path) s = (.ok .done, s') ∧ s'.tuf = s.tuf ∧
      get s'.io.w path = some content :=
  stored_now E D R cfg get hR path name content a d s hnew hsn htop hpref hlen hmax hname (hserve d s.io.w)
    hstore

/-- The toy repository meets the hypotheses of C74 after an update. -/
example :
    let R := Toy.remoteRepo
    let s := execAll Toy.env Toy.digest R Toy.config Toy.client0 [.update]
    TargetPath.new "x".toList = .ok "x".toList ∧ s.tuf.snapshot ≠ none ∧
    TopEntry Toy.config s.tuf "x".toList (Toy.target 1) ∧
    Preferred (Toy.target 1).hashes .sha256 (Toy.digest .sha256 [9]) ∧
    TargetFile s.tuf.root (Toy.digest .sha256 [9]) "x".toList "x".toList ∧
    ServesTarget R "x".toList [9] ∧ Accepts R ∧ AcceptsTargets R := by
  refine ⟨by decide +kernel, by decide +kernel, ⟨"x".toList, Toy.topTargets, by decide +kernel,
    by decide +kernel, by decide +kernel⟩, ⟨by decide +kernel, .inr ⟨rfl, by decide +kernel⟩⟩, ?_,
    fun _ _ => ⟨[.data [9]], rfl, rfl⟩, ⟨fun _ _ => rfl, fun _ => rfl⟩, ?_⟩
  · unfold TargetFile
    rw [if_neg (by decide +kernel)]
  · intro evs bs p w h
    simp only [Toy.remoteRepo, Toy.repos, toy_content, h]

/-- With consistent snapshots the name carries the digest. -/
example : TargetFile { Toy.root 1 1000 with consistentSnapshot := true } [4, 5] "p/y".toList
    "p/0405.y".toList := by
  unfold TargetFile
  rw [if_pos rfl]
  exact ⟨by decide, ["p".toList], "y".toList, by decide +kernel, by decide +kernel⟩

end RustTuf.Props
