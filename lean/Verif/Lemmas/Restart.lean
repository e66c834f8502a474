import Verif.Spec.Restart
import Verif.Lemmas.Client
import Verif.Lemmas.Keeps

/-!
# Reads and writes of a faithful local repository
-/

namespace RustTuf
open Client Spec

/-- A limit beyond `u64::MAX` has no further effect. -/
theorem readToEnd_min (D : Digest) (evs : List Ev) : ∀ (s : SafeReader) (acc : Bytes),
    SafeReader.readToEnd D { s with maxSize := min s.maxSize u64Max } evs acc =
      s.readToEnd D evs acc := by
  have poll : ∀ (s : SafeReader) (ev : Ev),
      SafeReader.poll D { s with maxSize := min s.maxSize u64Max } ev =
        ((s.poll D ev).1, { (s.poll D ev).2 with maxSize := min (s.poll D ev).2.maxSize u64Max }) := by
    intro s ev
    cases ev with
    | pending => rfl
    | err k => rfl
    | data bs =>
      cases bs with
      | nil =>
        simp only [SafeReader.poll]
        split
        · split <;> rfl
        · rfl
      | cons b bs =>
        simp only [SafeReader.poll]
        by_cases h : s.bytesRead + (b :: bs).length ≤ u64Max ∧ s.bytesRead + (b :: bs).length ≤ s.maxSize
        · rw [if_pos h, if_pos ⟨h.1, by omega⟩]
        · rw [if_neg h, if_neg (by omega)]
  induction evs with
  | nil =>
    intro s acc
    simp only [SafeReader.readToEnd, poll]
    cases hp : s.poll D (.data []) with
    | mk e s' => cases e <;> rfl
  | cons ev evs ih =>
    intro s acc
    simp only [SafeReader.readToEnd, poll]
    cases hp : s.poll D ev with
    | mk e s' =>
      cases e with
      | pending => exact ih s' acc
      | err k => rfl
      | data bs =>
        cases bs with
        | nil => rfl
        | cons b bs => exact ih s' _

theorem readChecked_min (D : Digest) (max : Nat) (hash : HashData) (evs : List Ev) :
    readChecked D (min max u64Max) hash evs = readChecked D max hash evs := by
  unfold readChecked
  cases hn : SafeReader.new max hash with
  | error e =>
    have : SafeReader.new (min max u64Max) hash = .error e := by
      unfold SafeReader.new at hn ⊢
      split at hn
      · cases hn
      · split at hn <;> cases hn
        simp [*]
    rw [this]
  | ok s =>
    have : SafeReader.new (min max u64Max) hash = .ok { s with maxSize := min s.maxSize u64Max } := by
      unfold SafeReader.new at hn ⊢
      split at hn
      · cases hn; rfl
      · split at hn <;> cases hn
        simp [*]
    rw [this]
    simp only [readToEnd_min]

/-- The limit that is really enforced. -/
def limit (m : Option Nat) : Nat := min (m.getD usizeMax) u64Max

/-- What a document must satisfy to be read with these checks. -/
def Readable (D : Digest) (m : Option Nat) (h : HashData) (raw : Bytes) : Prop :=
  raw.length ≤ limit m ∧ ∀ a v, h = some (a, v) → D a raw = v

/-- A digest check that can be done. -/
def Usable (h : HashData) : Prop := ∀ a v, h = some (a, v) → a = .sha512 ∨ a = .sha256

theorem readChecked_ok {D : Digest} {m : Option Nat} {h : HashData} {evs : List Ev} {raw : Bytes}
    (hr : readChecked D (m.getD usizeMax) h evs = .ok raw) :
    Readable D m h raw ∧ delivered evs = (raw, .eof) := by
  rw [← readChecked_min] at hr
  obtain ⟨h1, h2, h3⟩ := readChecked_fits hr
  exact ⟨⟨h1, h2⟩, h3⟩

theorem readChecked_of_readable {D : Digest} {m : Option Nat} {h : HashData} {evs : List Ev}
    {raw : Bytes} (hu : Usable h) (hr : Readable D m h raw) (hd : delivered evs = (raw, .eof)) :
    readChecked D (m.getD usizeMax) h evs = .ok raw := by
  rw [← readChecked_min]
  unfold readChecked
  have hn : ∃ s, SafeReader.new (min (m.getD usizeMax) u64Max) h = .ok s := by
    unfold SafeReader.new
    cases h with
    | none => exact ⟨_, rfl⟩
    | some p =>
      obtain ⟨a, v⟩ := p
      rcases hu a v rfl with rfl | rfl <;> exact ⟨_, rfl⟩
  obtain ⟨s, hs⟩ := hn
  rw [hs]
  simp only []
  rw [readToEnd_eq D _ (Nat.min_le_right _ _) h evs s hs, hd]
  unfold checkedRead
  have : ¬ raw.length > min (m.getD usizeMax) u64Max := by have := hr.1; unfold limit at this; omega
  simp only [this, if_false]
  cases h with
  | none => rfl
  | some p => simp [hr.2 p.1 p.2 rfl]

variable {W : Type} {D : Digest} {R : World W} {file : W → Files}

/-- One request of metadata in the local repository: a file that is there and passes the checks. -/
theorem cacheFetch_present (hR : Reads R file) {role : Role} {p : MetadataPath} {v : MetadataVersion}
    {m : Option Nat} {h : HashData} {io : Io W} {raw : Bytes} (hc : checkRole role p = .ok ())
    (hf : file io.w p v = some raw) (hu : Usable h) (hr : Readable D m h raw) :
    ∃ io', fetchMetadata D R .cache role p v m h io = (.ok raw, io') ∧ file io'.w = file io.w ∧
      io'.log = io.log ++ [.fetch .cache p v m h, .got .cache p raw] := by
  obtain ⟨evs, he, hd⟩ := hR.present p v m h io.w raw hf
  have hk := hR.cacheFetch p v m h io.w
  cases hq : R.cache.fetchMetadata p v m h io.w with
  | mk r w' =>
    rw [hq] at he hk
    cases he
    refine ⟨⟨w', io.log ++ [.fetch .cache p v m h, .got .cache p raw]⟩, ?_, hk, rfl⟩
    show M.bind _ _ io = _
    simp only [M.bind, M.ofExcept, hc, Io.note, Io.call, World.provider, hq, bind,
      readChecked_of_readable hu hr hd, pure, M.pure, List.append_assoc, List.cons_append,
      List.nil_append]

/-- A file that is not there. -/
theorem cacheFetch_absent (hR : Reads R file) {role : Role} {p : MetadataPath} {v : MetadataVersion}
    {m : Option Nat} {h : HashData} {io : Io W} (hc : checkRole role p = .ok ())
    (hf : file io.w p v = none) :
    ∃ io', fetchMetadata D R .cache role p v m h io = (.error .notFound, io') ∧
      file io'.w = file io.w ∧ io'.log = io.log ++ [.fetch .cache p v m h] := by
  have he := hR.absent p v m h io.w hf
  have hk := hR.cacheFetch p v m h io.w
  cases hq : R.cache.fetchMetadata p v m h io.w with
  | mk r w' =>
    rw [hq] at he hk
    cases he
    refine ⟨⟨w', io.log ++ [.fetch .cache p v m h]⟩, ?_, hk, rfl⟩
    show M.bind _ _ io = _
    simp only [M.bind, M.ofExcept, hc, Io.note, Io.call, World.provider, hq, bind]

/-- Any request: files stay as they are, the record grows, and a document read from the local
repository is the file. -/
theorem fetch_files (hR : Reads R file) (src : Source) (role : Role) (p : MetadataPath)
    (v : MetadataVersion) (m : Option Nat) (h : HashData) (F : Files) (L : List LogEntry) :
    Tri (fun io : Io W => file io.w = F ∧ L <+: io.log) (fetchMetadata D R src role p v m h)
      (fun raw io => (Readable D m h raw ∧ (src = .cache → F p v = some raw)) ∧
        file io.w = F ∧ L <+: io.log)
      (fun _ io => file io.w = F ∧ L <+: io.log) := by
  unfold fetchMetadata
  refine Tri.bind (Q := fun _ io => file io.w = F ∧ L <+: io.log)
    (Tri.ofExcept (fun _ _ _ hs => hs) (fun _ _ _ hs => hs)) fun _ => ?_
  refine Tri.bind (Q := fun _ io => file io.w = F ∧ L <+: io.log)
    (fun io hs => ⟨hs.1, hs.2.trans (List.prefix_append _ _)⟩) fun _ => ?_
  refine Tri.bind (Q := fun evs io => (src = .cache → ∀ b, delivered evs = (b, .eof) → F p v = some b) ∧
    file io.w = F ∧ L <+: io.log) (fun io hs => ?_) fun evs => ?_
  · obtain ⟨hs1, hs2⟩ := hs
    unfold Io.call
    have hk : file ((R.provider src).fetchMetadata p v m h io.w).2 = file io.w := by
      cases src with
      | cache => exact hR.cacheFetch p v m h io.w
      | remote => exact hR.remoteFetch p v m h io.w
    cases hq : (R.provider src).fetchMetadata p v m h io.w with
    | mk r w' =>
      rw [hq] at hk
      have hk' : file w' = F := hk.trans hs1
      cases r with
      | error e => exact ⟨hk', hs2⟩
      | ok evs =>
        refine ⟨?_, hk', hs2⟩
        rintro rfl b hb
        rw [← hs1]
        cases hfile : file io.w p v with
        | none =>
          have := hR.absent p v m h io.w hfile
          rw [show R.cache.fetchMetadata p v m h io.w = (.ok evs, w') from hq] at this
          cases this
        | some b' =>
          obtain ⟨evs', he, hd⟩ := hR.present p v m h io.w b' hfile
          rw [show R.cache.fetchMetadata p v m h io.w = (.ok evs, w') from hq] at he
          cases he
          rw [hb] at hd; cases hd; rfl
  · refine Tri.assume fun hsrc => ?_
    refine Tri.bind (Q := fun raw io => (Readable D m h raw ∧ (src = .cache → F p v = some raw)) ∧
        file io.w = F ∧ L <+: io.log) (Tri.ofExcept ?_ (fun _ _ _ hs => hs)) fun raw => ?_
    · intro raw io hr hs
      obtain ⟨h1, h2⟩ := readChecked_ok hr
      exact ⟨⟨h1, fun e => hsrc e raw h2⟩, hs⟩
    · refine Tri.bind (Q := fun _ io => (Readable D m h raw ∧ (src = .cache → F p v = some raw)) ∧
        file io.w = F ∧ L <+: io.log)
        (fun io hs => ⟨hs.1, hs.2.1, hs.2.2.trans (List.prefix_append _ _)⟩) fun _ => ?_
      exact Tri.ret fun io hs => hs

/-- A write in a lossy repository. -/
theorem store_files (hR : Lossy R file) (role : Role) (p : MetadataPath) (v : MetadataVersion)
    (raw : Bytes) (F : Files) (L : List LogEntry) :
    Tri (fun io : Io W => file io.w = F ∧ L <+: io.log) (storeMetadata R role p v raw)
      (fun _ io => role.fuzzyMatchesPath p = true ∧ file io.w = F.put p v raw ∧ L <+: io.log)
      (fun _ io => (Faithful R file → role.fuzzyMatchesPath p = false) ∧ file io.w = F ∧
        L <+: io.log) := by
  unfold storeMetadata
  refine Tri.bind (Q := fun _ io => role.fuzzyMatchesPath p = true ∧ file io.w = F ∧ L <+: io.log)
    (Tri.ofExcept (fun _ _ h hs => ⟨checkRole_ok h, hs⟩) (fun _ _ h hs => ⟨fun _ => ?_, hs⟩))
    fun _ => ?_
  · unfold checkRole at h
    split at h
    · rename_i h'; simpa using h'
    · cases h
  refine Tri.assume fun hrole => ?_
  refine Tri.bind (Q := fun _ io => file io.w = F ∧ L <+: io.log)
    (fun io hs => ⟨hs.1, hs.2.trans (List.prefix_append _ _)⟩) fun _ => ?_
  rintro io ⟨h1, h2⟩
  unfold Io.call
  have := hR.store p v raw io.w
  cases hq : R.storeMetadata p v raw io.w with
  | mk r w' =>
    rw [hq] at this
    rcases this with ⟨h3, h4⟩ | ⟨⟨e, h3⟩, h4⟩
    · cases h3; exact ⟨hrole, by rw [← h1]; exact h4, h2⟩
    · cases h3
      refine ⟨fun hF => ?_, by rw [← h1]; exact h4, h2⟩
      have := (hF.store p v raw io.w).1
      rw [hq] at this; cases this

/-- Requests for targets, writes of targets and the caller's writer change no metadata file. -/
theorem fetchTargetStream_files (hR : Reads R file) (path : TargetPath) (d : TargetDescription)
    (F : Files) (L : List LogEntry) :
    Keeps (fun io : Io W => file io.w = F ∧ L <+: io.log) (fetchTargetStream D R path d) := by
  unfold fetchTargetStream
  refine (Keeps.ofExcept _).bind fun p => ?_
  obtain ⟨a, v⟩ := p
  refine Keeps.bind (fun io hs => ⟨hs.1, hs.2.trans (List.prefix_append _ _)⟩) fun _ => ?_
  refine Keeps.bind (fun io hs => ?_) fun evs => (Keeps.ofExcept _).bind fun s => Keeps.ret _
  unfold Io.call
  have := hR.targetFetch path d io.w
  cases hq : R.remote.fetchTarget path d io.w with
  | mk r w' => rw [hq] at this; cases r <;> exact ⟨this.trans hs.1, hs.2⟩

theorem storeTarget_files (hR : Reads R file) (stream : List Ev) (path : TargetPath)
    (F : Files) (L : List LogEntry) :
    Keeps (fun io : Io W => file io.w = F ∧ L <+: io.log) (storeTarget R stream path) := by
  unfold storeTarget
  refine Keeps.bind (fun io hs => ⟨hs.1, hs.2.trans (List.prefix_append _ _)⟩) fun _ => ?_
  intro io hs
  unfold Io.call
  have := hR.targetStore stream path io.w
  cases hq : R.storeTarget stream path io.w with
  | mk r w' => rw [hq] at this; cases r <;> exact ⟨this.trans hs.1, hs.2⟩

theorem copyToWriter_files (hR : Reads R file) (stream : List Ev) (F : Files) (L : List LogEntry) :
    Keeps (fun io : Io W => file io.w = F ∧ L <+: io.log) (copyToWriter R stream) := by
  have fl : Keeps (fun io : Io W => file io.w = F ∧ L <+: io.log) (copyToWriter R []) := by
    intro io hs
    have := hR.flush io.w
    simp only [copyToWriter]
    cases hq : R.flush io.w with
    | mk r w' => rw [hq] at this; cases r <;> exact ⟨this.trans hs.1, hs.2⟩
  induction stream with
  | nil => exact fl
  | cons ev evs ih =>
    cases ev with
    | pending => exact ih
    | err k => exact Keeps.fail _
    | data bs =>
      intro io hs
      by_cases hb : bs = []
      · subst hb
        have e : copyToWriter R (.data [] :: evs) io = copyToWriter R [] io := by
          simp [copyToWriter]
        rw [e]; exact fl io hs
      · have hw := hR.write bs io.w
        cases hq : R.write bs io.w with
        | mk r w' =>
          rw [hq] at hw
          cases r with
          | ok u =>
            simp only [copyToWriter, hb, if_false, hq]
            exact ih _ ⟨hw.trans hs.1, hs.2.trans (List.prefix_append _ _)⟩
          | error k =>
            simp only [copyToWriter, hb, if_false, hq]
            exact ⟨hw.trans hs.1, hs.2⟩

end RustTuf
