import Verif.Lemmas.Sim
import Verif.Spec.Storage
import Verif.Spec.ClientTargets
import Verif.Props.Ephemeral
import Verif.Props.Paths
import Verif.Props.ClientRestart

/-!
# C86: local repositories are maps, and clients cannot tell them apart
-/

namespace RustTuf.Props
open Spec RustTuf Client

/-! ### One store -/

theorem blocked_iff (t : Tree) (n : FileName) :
    t.Blocked n ↔ ∃ d, d <+: n ∧ d ≠ n ∧ ∃ b, t d = some (.file b) := by
  constructor
  · rintro ⟨k, hk, b, hb⟩
    refine ⟨n.take k, List.take_prefix _ _, fun e => ?_, b, hb⟩
    have := congrArg List.length e
    rw [List.length_take] at this
    omega
  · rintro ⟨d, ⟨s, rfl⟩, hne, b, hb⟩
    refine ⟨d.length, ?_, b, by rw [List.take_left]; exact hb⟩
    rw [List.length_append]
    have : s ≠ [] := by rintro rfl; exact hne (by simp)
    have := List.length_pos_iff.2 this
    omega

theorem createDirs_file {t : Tree} {dir n : FileName} {d : Nat} {b : Bytes} :
    t.createDirs dir d n = some (.file b) ↔ t n = some (.file b) := by
  unfold Tree.createDirs
  split
  · rename_i h
    rw [h.2.2]
    simp
  · rfl

theorem createDirs_dir {t : Tree} {dir n : FileName} {d : Nat} (h : t n = some .dir) :
    t.createDirs dir d n = some .dir := by
  unfold Tree.createDirs
  split
  · rfl
  · exact h

theorem createDirs_blocked {t : Tree} {dir n : FileName} {d : Nat} :
    (t.createDirs dir d).Blocked n ↔ t.Blocked n := by
  unfold Tree.Blocked
  simp only [createDirs_file]

section apart
variable {name : MemKey → FileName} {ok : MemKey → Prop} (ha : Apart name ok)
include ha

theorem not_prefix_parent {k k' : MemKey} (hk : ok k) (hk' : ok k') :
    ¬ name k' <+: (name k).dropLast := by
  intro h
  have := ha.distinct k' k hk' hk (h.trans (List.dropLast_prefix _))
  subst this
  have := h.length_le
  rw [List.length_dropLast] at this
  have := List.length_pos_iff.2 (ha.proper _ hk)
  omega

theorem holds_createDirs {t : Tree} {m : Contents} (h : Holds name ok t m) {k : MemKey} (hk : ok k)
    (d : Nat) : Holds name ok (t.createDirs (name k).dropLast d) m where
  file k' hk' := by
    unfold Tree.createDirs
    rw [if_neg fun hh => not_prefix_parent ha hk hk' hh.1]
    exact h.file k' hk'
  dirs k' hk' := by
    rw [createDirs_blocked]
    exact h.dirs k' hk'

theorem holds_put {t : Tree} {m : Contents} (h : Holds name ok t m) {k : MemKey} (hk : ok k)
    (bs : Bytes) :
    Holds name ok (fun n => if n = name k then some (.file bs) else t n) (m.put k bs) where
  file k' hk' := by
    unfold Contents.put
    by_cases e : k' = k
    · subst e; simp
    · rw [if_neg e, if_neg fun e' : name k' = name k =>
        e (ha.distinct k' k hk' hk (e' ▸ List.prefix_refl _))]
      exact h.file k' hk'
  dirs k' hk' := by
    rw [blocked_iff]
    rintro ⟨d, hd, hne, b, hb⟩
    by_cases e : d = name k
    · subst e
      exact hne (congrArg name (ha.distinct k k' hk hk' hd))
    · rw [if_neg e] at hb
      exact h.dirs k' hk' ((blocked_iff _ _).2 ⟨d, hd, hne, b, hb⟩)

theorem holds_store {t : Tree} {m : Contents} (h : Holds name ok t m) {k : MemKey} (hk : ok k)
    (fault : Option Nat) (src : List Ev) :
    (t.storeFile fault (name k) src).1 = (m.store fault k src).1 ∧
      Holds name ok (t.storeFile fault (name k) src).2 (m.store fault k src).2 := by
  unfold Tree.storeFile Contents.store
  rw [if_neg (h.dirs k hk)]
  cases fault with
  | some d => exact ⟨rfl, holds_createDirs ha h hk d⟩
  | none =>
    dsimp only
    rw [readToEnd_eq]
    have hd := holds_createDirs ha h hk (name k).length
    cases delivered src with
    | mk bs en =>
      cases en with
      | error e => exact ⟨rfl, hd⟩
      | eof =>
        dsimp only
        have hf := hd.file k hk
        rw [List.nil_append]
        cases hm : m k with
        | none =>
          rw [hm] at hf
          simp only [hf, Option.map_none]
          exact ⟨trivial, holds_put ha hd hk bs⟩
        | some b =>
          rw [hm] at hf
          simp only [hf, Option.map_some]
          exact ⟨trivial, holds_put ha hd hk bs⟩

omit ha in
theorem holds_open {t : Tree} {m : Contents} (h : Holds name ok t m) {k : MemKey} (hk : ok k) :
    t.openFile (name k) = m.get k := by
  unfold Tree.openFile Contents.get
  rw [if_neg (h.dirs k hk), h.file k hk]
  cases m k <;> rfl

omit ha in
theorem holds_exists {t : Tree} {m : Contents} (h : Holds name ok t m) {k : MemKey} (hk : ok k) :
    t.pathExists (name k) = (m k).isSome := by
  unfold Tree.pathExists
  rw [if_neg (h.dirs k hk), h.file k hk]
  cases m k <;> rfl

end apart

/-! ### Repositories that agree -/

/-- Two local repositories give the same answers to calls about the given keys. -/
structure AgreeStorage {L L' : Type} (rel : L → L' → Prop) (ok : MemKey → Prop) (S : Storage L)
    (S' : Storage L') (faults : Option Nat → Prop) : Prop where
  fetchMetadata : ∀ p v l l', ok (.metadata p v) → rel l l' → S.fetchMetadata p v l = S'.fetchMetadata p v l'
  fetchTarget : ∀ p l l', ok (.target p) → rel l l' → S.fetchTarget p l = S'.fetchTarget p l'
  storeMetadata : ∀ x p v src l l', faults x → ok (.metadata p v) → rel l l' →
    Same rel (S.storeMetadata x p v src l) (S'.storeMetadata x p v src l')
  storeTarget : ∀ x src p l l', faults x → ok (.target p) → rel l l' →
    Same rel (S.storeTarget x src p l) (S'.storeTarget x src p l')

theorem fileSystem_agree (f : FileSystem) {ok : MemKey → Prop} (ha : Apart f.name ok) :
    AgreeStorage (Holds f.name ok) ok f.storage mapStorage (fun _ => True) where
  fetchMetadata _ _ _ _ hk h := holds_open h hk
  fetchTarget p t m hk h := by
    show (if !t.pathExists (f.name (.target p)) then _ else _) = _
    rw [holds_exists h hk, holds_open h hk]
    show _ = m.get (.target p)
    unfold Contents.get
    cases m (.target p) <;> rfl
  storeMetadata x p v src t m _ hk h := holds_store ha h hk x src
  storeTarget x src p t m _ hk h := holds_store ha h hk x src

/-- The content of the in-memory repository. -/
def ephemeralRel (r : Ephemeral) (m : Contents) : Prop := ∀ k, MemState.lookup r k = m k

theorem ephemeralRel_insert {r : Ephemeral} {m : Contents} (h : ephemeralRel r m) (k : MemKey)
    (bs : Bytes) : ephemeralRel (MemState.insert r bs k) (m.put k bs) := by
  intro k'
  rw [lookup_insert]
  unfold Contents.put
  by_cases e : k' = k
  · rw [if_pos e, if_pos e]
  · rw [if_neg e, if_neg e]; exact h k'

theorem ephemeral_agree (ok : MemKey → Prop) :
    AgreeStorage ephemeralRel ok Ephemeral.storage mapStorage (· = none) where
  fetchMetadata p v r m _ h := by
    show r.fetchMetadata p v = m.get _
    unfold Ephemeral.fetchMetadata Contents.get
    rw [← h]
    rfl
  fetchTarget p r m _ h := by
    show r.fetchTarget p = m.get _
    unfold Ephemeral.fetchTarget Contents.get
    rw [← h]
    rfl
  storeMetadata x p v src r m hx _ h := by
    subst hx
    show Same _ (r.storeMetadata p v src) (m.store none _ src)
    unfold Ephemeral.storeMetadata Contents.store
    rw [readToEnd_eq]
    cases delivered src with
    | mk bs en =>
      cases en with
      | error e => exact ⟨rfl, h⟩
      | eof => exact ⟨rfl, ephemeralRel_insert h (.metadata p v) bs⟩
  storeTarget x src p r m hx _ h := by
    subst hx
    show Same _ (r.storeTarget src p) (m.store none _ src)
    unfold Ephemeral.storeTarget Contents.store
    rw [readToEnd_eq]
    cases delivered src with
    | mk bs en =>
      cases en with
      | error e => exact ⟨rfl, h⟩
      | eof => exact ⟨rfl, ephemeralRel_insert h (.target p) bs⟩

theorem AgreeStorage.call {L L' : Type} {rel : L → L' → Prop} {ok : MemKey → Prop} {S : Storage L}
    {S' : Storage L'} {faults : Option Nat → Prop} (h : AgreeStorage rel ok S S' faults) {l : L} {l' : L'}
    (hr : rel l l') (c : StorageCall) (hk : ok c.key) (hf : ∀ x k src, c = .store x k src → faults x) :
    Same rel (S.call l c) (S'.call l' c) := by
  cases c with
  | fetch k =>
    cases k with
    | metadata p v =>
      exact ⟨by show Sum.inl _ = Sum.inl _; rw [h.fetchMetadata p v l l' hk hr], hr⟩
    | target p => exact ⟨by show Sum.inl _ = Sum.inl _; rw [h.fetchTarget p l l' hk hr], hr⟩
  | store x k src =>
    cases k with
    | metadata p v =>
      obtain ⟨h1, h2⟩ := h.storeMetadata x p v src l l' (hf _ _ _ rfl) hk hr
      exact ⟨by show Sum.inr _ = Sum.inr _; rw [h1], h2⟩
    | target p =>
      obtain ⟨h1, h2⟩ := h.storeTarget x src p l l' (hf _ _ _ rfl) hk hr
      exact ⟨by show Sum.inr _ = Sum.inr _; rw [h1], h2⟩

theorem AgreeStorage.calls {L L' : Type} {rel : L → L' → Prop} {ok : MemKey → Prop} {S : Storage L}
    {S' : Storage L'} {faults : Option Nat → Prop} (h : AgreeStorage rel ok S S' faults)
    (cs : List StorageCall) : ∀ {l : L} {l' : L'}, rel l l' → (∀ c ∈ cs, ok c.key) →
    (∀ x k src, .store x k src ∈ cs → faults x) → Same rel (S.calls l cs) (S'.calls l' cs) := by
  induction cs with
  | nil => intro l l' hr _ _; exact ⟨rfl, hr⟩
  | cons c cs ih =>
    intro l l' hr hk hf
    obtain ⟨h1, h2⟩ := h.call hr c (hk c (by simp)) fun x k src e => hf x k src (by simp [e])
    obtain ⟨h3, h4⟩ := ih h2 (fun c hc => hk c (by simp [hc])) fun x k src hm => hf x k src (by simp [hm])
    have e : ∀ {K : Type} (T : Storage K) (k : K), T.calls k (c :: cs) =
        ((T.call k c).1 :: (T.calls (T.call k c).2 cs).1, (T.calls (T.call k c).2 cs).2) :=
      fun _ _ => rfl
    rw [e, e]
    exact ⟨congrArg₂ _ h1 h3, h4⟩

/-! ### Names -/

theorem prefix_total {α : Type} {a b l : List α} (ha : a <+: l) (hb : b <+: l) : a <+: b ∨ b <+: a :=
  List.prefix_or_prefix_of_prefix ha hb

theorem filter_nonempty {l : List Str} (h : [] ∉ l) : l.filter (· ≠ []) = l := by
  rw [List.filter_eq_self]
  intro a ha
  simp only [decide_eq_true_eq]
  rintro rfl
  exact h ha

theorem pieces_no_dot {p : Str} (h : '.' ∉ p) : ∀ c ∈ pieces p, '.' ∉ c := by
  intro c hc hm
  rw [pieces_eq] at hc
  exact h (mem_splitOn_subset '/' p c hc _ hm)

/-- The directory a key belongs to. -/
def baseOf (cwd : List Str) (f : FileSystem) : MemKey → FileName
  | .metadata _ _ => resolve cwd f.metadataPath
  | .target _ => resolve cwd f.targetsPath

/-- **C86.** If the directories for metadata and for targets are separate, then plain metadata paths (at
any versions) and plain target paths have different files, none of which is a directory of another. -/
theorem C86_names_apart (cwd : List Str) (f : FileSystem) (hres : f.resolve = resolve cwd)
    (hsep : Separate (resolve cwd f.metadataPath) (resolve cwd f.targetsPath))
    (ps : TargetPath → Prop) (hps : PlainTargets ps) : Apart f.name (PlainKey ps) := by
  have inside : ∀ k, PlainKey ps k → ∃ names, names ≠ [] ∧ f.name k = baseOf cwd f k ++ names := by
    intro k hk
    cases k with
    | metadata p v =>
      obtain ⟨dirs, last, file, -, -, -, e⟩ := metadata_inside p p hk.1 v cwd f.metadataPath
      refine ⟨dirs.filter (· ≠ []) ++ [file], by simp, ?_⟩
      rw [FileSystem.name, hres, e, List.append_assoc]
      rfl
    | target p =>
      obtain ⟨names, h1, -, -, e⟩ := C42_target_inside p p (hps.accepted p hk).1 cwd f.targetsPath
      exact ⟨names, h1, by rw [FileSystem.name, hres, e]; rfl⟩
  constructor
  · intro k hk
    obtain ⟨names, h1, e⟩ := inside k hk
    rw [e]
    simp [h1]
  · intro k k' hk hk' hpre
    have below : baseOf cwd f k <+: f.name k' := by
      obtain ⟨names, -, e⟩ := inside k hk
      exact (e ▸ List.prefix_append _ _ : baseOf cwd f k <+: f.name k).trans hpre
    have below' : baseOf cwd f k' <+: f.name k' := by
      obtain ⟨names, -, e⟩ := inside k' hk'
      rw [e]
      exact List.prefix_append _ _
    cases k with
    | metadata p v =>
      cases k' with
      | target q =>
        exfalso
        rcases prefix_total below below' with h | h
        · exact hsep.1 h
        · exact hsep.2 h
      | metadata q v' =>
        obtain ⟨d1, l1, f1, s1, t1, -, e1⟩ := metadata_inside p p hk.1 v cwd f.metadataPath
        obtain ⟨d2, l2, f2, s2, t2, -, e2⟩ := metadata_inside q q hk'.1 v' cwd f.metadataPath
        have n1 := hk.2.2
        have n2 := hk'.2.2
        rw [s1, List.dropLast_concat] at n1
        rw [s2, List.dropLast_concat] at n2
        have hdot : '.' ∈ f1 := by rw [t1]; simp
        rw [FileSystem.name, FileSystem.name, hres, e1, e2, filter_nonempty n1, filter_nonempty n2,
          List.append_assoc, List.append_assoc, List.prefix_append_right_inj] at hpre
        have same : f.name (.metadata p v) = f.name (.metadata q v') := by
          rw [FileSystem.name, FileSystem.name, hres, e1, e2, filter_nonempty n1, filter_nonempty n2,
            List.append_assoc, List.append_assoc]
          congr 1
          rcases List.prefix_concat_iff.1 hpre with h | h
          · exact h
          · exfalso
            have : f1 ∈ d2 := h.subset (by simp)
            refine pieces_no_dot hk'.2.1 f1 ?_ hdot
            rw [s2]
            simp [this]
        rw [FileSystem.name, FileSystem.name, hres] at same
        rcases C44_metadata_partial p q v v' hk.1 hk'.1 hk.2.2 hk'.2.2 cwd f.metadataPath same with
          ⟨rfl, rfl⟩ | ⟨n, dirs, last, -, -, -, e⟩ | ⟨n, dirs, last, -, -, -, e⟩
        · rfl
        · exact absurd (by simp) (pieces_no_dot hk.2.1 (numberText n ++ '.' :: last) (by rw [e]; simp))
        · exact absurd (by simp) (pieces_no_dot hk'.2.1 (numberText n ++ '.' :: last) (by rw [e]; simp))
    | target p =>
      cases k' with
      | metadata q v' =>
        exfalso
        rcases prefix_total below below' with h | h
        · exact hsep.2 h
        · exact hsep.1 h
      | target q =>
        obtain ⟨a1, n1⟩ := hps.accepted p hk
        obtain ⟨a2, n2⟩ := hps.accepted q hk'
        obtain ⟨x1, -, -, g1, e1⟩ := C42_target_inside p p a1 cwd f.targetsPath
        obtain ⟨x2, -, -, g2, e2⟩ := C42_target_inside q q a2 cwd f.targetsPath
        rw [FileSystem.name, FileSystem.name, hres, e1, e2, List.prefix_append_right_inj, g1, g2,
          filter_nonempty n1, filter_nonempty n2] at hpre
        rw [hps.flat p q hk hk' hpre]

theorem names_apart_new (cwd : List Str) (f : FileSystem) (hres : f.resolve = resolve cwd) (path : Str)
    (h : (f.metadataPath, f.targetsPath) = defaultDirs path) (ps : TargetPath → Prop)
    (hps : PlainTargets ps) : Apart f.name (PlainKey ps) := by
  refine C86_names_apart cwd f hres ?_ ps hps
  have e : ∀ c : Str, '/' ∉ c → c ≠ ['.'] → c ≠ ['.', '.'] → c ≠ [] →
      resolve cwd (pathPush path c) = resolve cwd path ++ [c] := by
    intro c h1 h2 h3 h4
    have := resolve_extend cwd [c] path (by intro d hd; rw [List.mem_singleton] at hd; subst hd; exact ⟨h1, h2, h3⟩)
    rw [filter_nonempty (by simpa using h4.symm)] at this
    exact this
  have h1 : f.metadataPath = pathPush path "metadata".toList := congrArg Prod.fst h
  have h2 : f.targetsPath = pathPush path "targets".toList := congrArg Prod.snd h
  rw [h1, h2, e _ (by decide) (by decide) (by decide) (by decide),
    e _ (by decide) (by decide) (by decide) (by decide)]
  constructor <;>
  · rw [List.prefix_append_right_inj]
    decide

/-! ### Sequences of calls -/

/-- **C86.** Any sequence of fetches and stores about keys that are apart has the same results in a file
system repository as in a map, whatever goes wrong on the way, and afterwards the files are again
the contents of the map. -/
theorem C86_file_system_is_a_map (f : FileSystem) (ok : MemKey → Prop) (ha : Apart f.name ok) (t : Tree)
    (m : Contents) (h : Holds f.name ok t m) (cs : List StorageCall) (hk : ∀ c ∈ cs, ok c.key) :
    (f.storage.calls t cs).1 = (mapStorage.calls m cs).1 ∧
      Holds f.name ok (f.storage.calls t cs).2 (mapStorage.calls m cs).2 :=
  (fileSystem_agree f ha).calls cs h hk fun _ _ _ _ => trivial

/-- **C86.** The same for the in-memory repository, for all keys. -/
theorem C86_memory_is_a_map (cs : List StorageCall) (hf : ∀ x k src, .store x k src ∈ cs → x = none) :
    (Ephemeral.storage.calls Ephemeral.new cs).1 = (mapStorage.calls (fun _ => none) cs).1 :=
  ((ephemeral_agree fun _ => True).calls cs (l := Ephemeral.new) (l' := fun _ => none)
    (fun k => by cases k <;> rfl) (fun _ _ => trivial) hf).1

/-! ### Clients -/

section clients
variable {O L L' : Type} {rel : L → L' → Prop} {ok : MemKey → Prop} {S : Storage L} {S' : Storage L'}
  {faults : Option Nat → Prop}

/-- Related local repositories and the same outside. -/
def PairRel (rel : L → L' → Prop) (w : O × L) (w' : O × L') : Prop := w.1 = w'.1 ∧ rel w.2 w'.2

theorem AgreeStorage.world (h : AgreeStorage rel ok S S' faults) (X : Outside O)
    (hf : ∀ o, faults (X.fault o).1) (hf' : ∀ o, faults (X.targetFault o).1) :
    Agree (PairRel rel) (fun p v => ok (.metadata p v)) (fun p => ok (.target p)) (X.world S)
      (X.world S') where
  cache p v m hash w w' hk hr := ⟨h.fetchMetadata p v w.2 w'.2 hk hr.2, hr⟩
  remote p v m hash w w' hr := by
    obtain ⟨o, l⟩ := w
    obtain ⟨o', l'⟩ := w'
    obtain ⟨rfl, hr⟩ := hr
    exact ⟨rfl, rfl, hr⟩
  target p d w w' hr := by
    obtain ⟨o, l⟩ := w
    obtain ⟨o', l'⟩ := w'
    obtain ⟨rfl, hr⟩ := hr
    exact ⟨rfl, rfl, hr⟩
  store p v b w w' hk hr := by
    obtain ⟨o, l⟩ := w
    obtain ⟨o', l'⟩ := w'
    obtain ⟨rfl, hr⟩ := hr
    obtain ⟨h1, h2⟩ := h.storeMetadata (X.fault o).1 p v (cursorEvents b) l l' (hf o) hk hr
    exact ⟨h1, rfl, h2⟩
  storeTarget evs p w w' hk hr := by
    obtain ⟨o, l⟩ := w
    obtain ⟨o', l'⟩ := w'
    obtain ⟨rfl, hr⟩ := hr
    obtain ⟨h1, h2⟩ := h.storeTarget (X.targetFault o).1 evs p l l' (hf' o) hk hr
    exact ⟨h1, rfl, h2⟩
  write b w w' hr := by
    obtain ⟨o, l⟩ := w
    obtain ⟨o', l'⟩ := w'
    obtain ⟨rfl, hr⟩ := hr
    exact ⟨rfl, rfl, hr⟩
  flush w w' hr := by
    obtain ⟨o, l⟩ := w
    obtain ⟨o', l'⟩ := w'
    obtain ⟨rfl, hr⟩ := hr
    exact ⟨rfl, rfl, hr⟩
  clock w w' hr := by
    obtain ⟨o, l⟩ := w
    obtain ⟨o', l'⟩ := w'
    obtain ⟨rfl, hr⟩ := hr
    exact ⟨rfl, rfl, hr⟩

end clients

theorem plainLog_allowed {ps : TargetPath → Prop} {log : List LogEntry} (h : PlainLog ps log) :
    ∀ e ∈ log, Allowed (fun p v => PlainKey ps (.metadata p v)) (fun p => PlainKey ps (.target p)) e := by
  intro e he
  cases e with
  | fetch src p v m hash =>
    cases src with
    | remote => trivial
    | cache => exact h.1 p v m hash he
  | store p v raw => exact h.2.1 p v raw he
  | storeTarget p => exact h.2.2 p he
  | _ => trivial

/-- Sessions in two worlds that agree. -/
theorem replies_same {W W' : Type} {rel : W → W' → Prop} {okName : MetadataPath → MetadataVersion → Prop}
    {okTarget : TargetPath → Prop} {R : World W} {R' : World W'} (h : Agree rel okName okTarget R R')
    (E : Env) (D : Digest) (cfg : Config) (cs : List Call) : ∀ {s : St W} {s' : St W'}, StRel rel s s' →
    (∀ e ∈ (replies E D R cfg s cs).2.io.log, Allowed okName okTarget e) →
    Same (StRel rel) (replies E D R cfg s cs) (replies E D R' cfg s' cs) := by
  induction cs with
  | nil => intro s s' hr _; exact ⟨rfl, hr⟩
  | cons c cs ih =>
    intro s s' hr hlog
    have e : ∀ {V : Type} (Q : World V) (s : St V), replies E D Q cfg s (c :: cs) =
        ((exec E D Q cfg c s).1 :: (replies E D Q cfg (exec E D Q cfg c s).2 cs).1,
          (replies E D Q cfg (exec E D Q cfg c s).2 cs).2) := fun _ _ => rfl
    rw [e] at hlog ⊢
    rw [e]
    have hg : ∀ (cs : List Call) (s : St W), s.io.log <+: (replies E D R cfg s cs).2.io.log := by
      intro cs
      induction cs with
      | nil => intro s; exact List.prefix_refl _
      | cons c cs ih =>
        intro s
        exact ((h.exec D (ok := fun _ => False) E cfg (fun _ he => he.elim) c).grows s).trans (ih _)
    obtain ⟨h2, h3⟩ := (h.exec D E cfg (fun _ he => he) c).same s s' hr
      fun x hx => hlog x ((hg cs _).subset hx)
    obtain ⟨h4, h5⟩ := ih h3 hlog
    exact ⟨congrArg₂ _ h2 h4, h5⟩

theorem session_same {W W' : Type} {rel : W → W' → Prop} {okName : MetadataPath → MetadataVersion → Prop}
    {okTarget : TargetPath → Prop} {R : World W} {R' : World W'} (h : Agree rel okName okTarget R R')
    (E : Env) (D : Digest) (cfg : Config) (start : Start) (cs : List Call) {io : Io W} {io' : Io W'}
    (hr : IoRel rel io io')
    (hlog : ∀ e ∈ (session E D R cfg start cs io).2.log, Allowed okName okTarget e) :
    Same (IoRel rel) (session E D R cfg start cs io) (session E D R' cfg start cs io') := by
  have hg : ∀ (cs : List Call) (s : St W), s.io.log <+: (replies E D R cfg s cs).2.io.log := by
    intro cs
    induction cs with
    | nil => intro s; exact List.prefix_refl _
    | cons c cs ih =>
      intro s
      exact ((h.exec D (ok := fun _ => False) E cfg (fun _ he => he.elim) c).grows s).trans (ih _)
  have hc := (h.construct D E cfg (fun _ _ he => he) start).same io io' hr
  unfold session at hlog ⊢
  cases h1 : construct E D R cfg start io with
  | mk r io1 =>
    cases h2 : construct E D R' cfg start io' with
    | mk r' io1' =>
      rw [h1] at hlog hc
      rw [h2] at hc
      cases r with
      | error e =>
        obtain ⟨e1, hr⟩ := hc hlog
        cases e1
        exact ⟨rfl, hr⟩
      | ok t =>
        obtain ⟨e1, hr⟩ := hc fun x hx => hlog x ((hg cs ⟨t, io1⟩).subset hx)
        cases e1
        obtain ⟨e2, e3⟩ := replies_same h E D cfg cs (s := ⟨t, io1⟩) (s' := ⟨t, io1'⟩) ⟨rfl, hr⟩ hlog
        refine ⟨?_, e3.2⟩
        show Except.ok (_, _) = Except.ok (_, _)
        rw [e2, e3.1]

/-- **C86.** A client with an in-memory repository and a client with a map do the same, for all names. -/
theorem C86_memory_clients_cannot_tell {O : Type} (E : Env) (D : Digest) (cfg : Config) (X : Outside O)
    (hf : ∀ o, (X.fault o).1 = none ∧ (X.targetFault o).1 = none) (start : Start) (cs : List Call)
    (o : O) (log : List LogEntry) :
    (session E D (X.world Ephemeral.storage) cfg start cs ⟨(o, Ephemeral.new), log⟩).1 =
      (session E D (X.world mapStorage) cfg start cs ⟨(o, fun _ => none), log⟩).1 ∧
    (session E D (X.world Ephemeral.storage) cfg start cs ⟨(o, Ephemeral.new), log⟩).2.log =
      (session E D (X.world mapStorage) cfg start cs ⟨(o, fun _ => none), log⟩).2.log := by
  have := session_same ((ephemeral_agree fun _ => True).world X (fun o => (hf o).1) (fun o => (hf o).2))
    E D cfg start cs (io := ⟨(o, Ephemeral.new), log⟩) (io' := ⟨(o, fun _ => none), log⟩)
    ⟨rfl, rfl, fun k => by cases k <;> rfl⟩ (by
      intro e _
      cases e with
      | fetch src => cases src <;> trivial
      | _ => trivial)
  exact ⟨this.1, this.2.1⟩

section fs
variable {O : Type} (E : Env) (D : Digest) (cfg : Config) (X : Outside O) (f : FileSystem)
  (ps : TargetPath → Prop) (ha : Apart f.name (PlainKey ps))
include ha

theorem fs_agree : Agree (PairRel (Holds f.name (PlainKey ps)))
    (fun p v => PlainKey ps (.metadata p v)) (fun p => PlainKey ps (.target p))
    (X.world f.storage) (X.world mapStorage) :=
  (fileSystem_agree f ha).world X (fun _ => trivial) (fun _ => trivial)

/-- The constructor of a client only uses plain names. -/
theorem fs_construct (start : Start) {io : Io (O × Tree)} {io' : Io (O × Contents)}
    (h : IoRel (PairRel (Holds f.name (PlainKey ps))) io io') :
    Same (IoRel (PairRel (Holds f.name (PlainKey ps))))
      (construct E D (X.world f.storage) cfg start io) (construct E D (X.world mapStorage) cfg start io') := by
  refine ((fs_agree X f ps ha).construct D (ok := fun _ => True) E cfg ?_ start).same io io' h
    fun _ _ => trivial
  have plain : ∀ r : Role, PlainName (MetadataPath.fromRole r) := by
    intro r
    cases r <;> exact ⟨by decide, by decide, by decide⟩
  intro e he _
  cases e with
  | fetch src p v m hash =>
    obtain ⟨r, rfl⟩ := he
    cases src with
    | remote => trivial
    | cache => exact plain r
  | store p v raw =>
    obtain ⟨r, rfl⟩ := he
    exact plain r
  | storeTarget p => exact he.elim
  | _ => trivial

theorem fs_exec (c : Call) {s : St (O × Tree)} {s' : St (O × Contents)}
    (h : StRel (PairRel (Holds f.name (PlainKey ps))) s s')
    (hlog : PlainLog ps (exec E D (X.world f.storage) cfg c s).2.io.log) :
    Same (StRel (PairRel (Holds f.name (PlainKey ps))))
      (exec E D (X.world f.storage) cfg c s) (exec E D (X.world mapStorage) cfg c s') :=
  ((fs_agree X f ps ha).exec D E cfg (fun _ he => he) c).same s s' h (plainLog_allowed hlog)

/-- **C86.** A client with a file system repository and a client with a map do the same. Whatever the
remote repository, the clock and the caller do and whatever goes wrong when files are written: if the
files hold the contents of the map, then construction and all calls return the same, the same metadata
is trusted at the end, and the files again hold the contents of the map, as long as all delegated roles
and targets that the client touches have plain names. -/
theorem C86_clients_cannot_tell (start : Start) (cs : List Call) (o : O) (t : Tree) (m : Contents)
    (h : Holds f.name (PlainKey ps) t m) (log : List LogEntry)
    (hlog : PlainLog ps (session E D (X.world f.storage) cfg start cs ⟨(o, t), log⟩).2.log) :
    (session E D (X.world f.storage) cfg start cs ⟨(o, t), log⟩).1 =
      (session E D (X.world mapStorage) cfg start cs ⟨(o, m), log⟩).1 ∧
    (session E D (X.world f.storage) cfg start cs ⟨(o, t), log⟩).2.log =
      (session E D (X.world mapStorage) cfg start cs ⟨(o, m), log⟩).2.log ∧
    Holds f.name (PlainKey ps) (session E D (X.world f.storage) cfg start cs ⟨(o, t), log⟩).2.w.2
      (session E D (X.world mapStorage) cfg start cs ⟨(o, m), log⟩).2.w.2 := by
  have := session_same (fs_agree X f ps ha) E D cfg start cs (io := ⟨(o, t), log⟩)
    (io' := ⟨(o, m), log⟩) ⟨rfl, rfl, h⟩ (plainLog_allowed hlog)
  exact ⟨this.1, this.2.1, this.2.2.2⟩

end fs

/-! ### The map is a faithful local repository -/

section map
variable {O : Type} (X : Outside O)

theorem map_reads : Reads (X.world mapStorage) (mapFiles (O := O)) where
  present p v m h w b hb := ⟨cursorEvents b, by
    show Contents.get w.2 _ = _
    unfold Contents.get
    rw [show w.2 (.metadata p v) = some b from hb], delivered_cursor b⟩
  absent p v m h w hb := by
    show Contents.get w.2 _ = _
    unfold Contents.get
    rw [show w.2 (.metadata p v) = none from hb]
  cacheFetch _ _ _ _ _ := rfl
  remoteFetch _ _ _ _ _ := rfl
  targetFetch _ _ _ := rfl
  targetStore evs p w := by
    show mapFiles (_, (Contents.store w.2 (X.targetFault w.1).1 (.target p) evs).2) = _
    unfold Contents.store mapFiles
    cases (X.targetFault w.1).1 with
    | some _ => rfl
    | none =>
      cases delivered evs with
      | mk bs en =>
        cases en with
        | error e => rfl
        | eof =>
          funext p' v'
          show (w.2.put (.target p) bs) (.metadata p' v') = w.2 _
          unfold Contents.put
          rw [if_neg (by simp)]
  write _ _ := rfl
  flush _ := rfl
  clock _ := rfl

theorem map_put (w : O × Contents) (p : MetadataPath) (v : MetadataVersion) (b : Bytes) (o : O) :
    mapFiles (o, w.2.put (.metadata p v) b) = (mapFiles w).put p v b := by
  funext p' v'
  show (if MemKey.metadata p' v' = .metadata p v then some b else w.2 (.metadata p' v')) =
    if p' = p ∧ v' = v then some b else w.2 (.metadata p' v')
  by_cases h : p' = p ∧ v' = v
  · rw [if_pos h, if_pos (by rw [h.1, h.2])]
  · rw [if_neg h, if_neg (by simpa using h)]

/-- A map in which writes may fail. -/
theorem map_lossy : Lossy (X.world mapStorage) (mapFiles (O := O)) where
  toReads := map_reads X
  store p v raw w := by
    have e : (X.world mapStorage).storeMetadata p v raw w =
        ((Contents.store w.2 (X.fault w.1).1 (.metadata p v) (cursorEvents raw)).1,
          ((X.fault w.1).2, (Contents.store w.2 (X.fault w.1).1 (.metadata p v) (cursorEvents raw)).2)) := rfl
    rw [e]
    unfold Contents.store
    rw [delivered_cursor]
    cases (X.fault w.1).1 with
    | some _ => exact .inr ⟨⟨_, rfl⟩, rfl⟩
    | none => exact .inl ⟨rfl, map_put w p v raw _⟩

/-- A map in which all writes of metadata work. -/
theorem map_faithful (h : X.Reliable) : Faithful (X.world mapStorage) (mapFiles (O := O)) where
  toReads := map_reads X
  store p v raw w := by
    have e : (X.world mapStorage).storeMetadata p v raw w =
        ((Contents.store w.2 (X.fault w.1).1 (.metadata p v) (cursorEvents raw)).1,
          ((X.fault w.1).2, (Contents.store w.2 (X.fault w.1).1 (.metadata p v) (cursorEvents raw)).2)) := rfl
    rw [e]
    unfold Contents.store
    rw [delivered_cursor, h w.1]
    exact ⟨rfl, map_put w p v raw _⟩

end map

/-! ### Restarts and crashes with files -/

section restart
variable {O : Type} {E : Env} {D : Digest} {cfg : Config} {f : FileSystem} {ps : TargetPath → Prop}
  {raw : Bytes} {t0 : Tree} {m0 : Contents}

theorem lives_map (ha : Apart f.name (PlainKey ps)) (h0 : Holds f.name (PlainKey ps) t0 m0) {t : Tuf}
    {io : Io (O × Tree)} (hl : LivesWith E D cfg f.storage raw t0 t io) : PlainLog ps io.log →
    ∃ io', Lives E D cfg mapFiles raw t io' ∧ IoRel (PairRel (Holds f.name (PlainKey ps))) io io' := by
  have plainRoot : PlainName "root".toList := ⟨by decide, by decide, by decide⟩
  have sub : ∀ {l l' : List LogEntry}, l <+: l' → PlainLog ps l' → PlainLog ps l := fun hp h =>
    ⟨fun p v m hash he => h.1 p v m hash (hp.subset he), fun p v raw he => h.2.1 p v raw (hp.subset he),
      fun p he => h.2.2 p (hp.subset he)⟩
  have growsC : ∀ (X : Outside O) (start : Start) (io : Io (O × Tree)),
      io.log <+: (construct E D (X.world f.storage) cfg start io).2.log := fun X start io =>
    ((fs_agree X f ps ha).construct D (ok := fun _ => False) E cfg (fun _ _ h => h.elim) start).grows io
  have growsX : ∀ (X : Outside O) (c : Call) (s : St (O × Tree)),
      s.io.log <+: (exec E D (X.world f.storage) cfg c s).2.io.log := fun X c s =>
    ((fs_agree X f ps ha).exec D (ok := fun _ => False) E cfg (fun _ h => h.elim) c).grows s
  induction hl with
  | start X o log r0 t io' hX hr0 hnone hcon =>
    intro _
    have := fs_construct E D cfg X f ps ha (.trustedRoot raw) (io := ⟨(o, t0), log⟩)
      (io' := ⟨(o, m0), log⟩) ⟨rfl, rfl, h0⟩
    rw [hcon] at this
    obtain ⟨e1, e2⟩ := this
    refine ⟨_, .start (X.world mapStorage) r0 t ⟨(o, m0), log⟩ _ (map_faithful X hX) hr0 ?_
      (Prod.ext e1.symm rfl), e2⟩
    intro n hn
    have h1 := hnone n hn
    rw [(fileSystem_agree f ha).fetchMetadata "root".toList (.number n) t0 m0 plainRoot h0] at h1
    have h1 : Contents.get m0 (.metadata "root".toList (.number n)) = .error .notFound := h1
    unfold Contents.get at h1
    show m0 _ = none
    cases hm : m0 (.metadata "root".toList (.number n)) with
    | none => rfl
    | some b => rw [hm] at h1; cases h1
  | call X t t' io io' c r _ hX hex ih =>
    intro hlog
    have hg := growsX X c ⟨t, io⟩
    rw [hex] at hg
    obtain ⟨io1, h1, h2⟩ := ih (sub hg hlog)
    have := fs_exec E D cfg X f ps ha c (s := ⟨t, io⟩) (s' := ⟨t, io1⟩) ⟨rfl, h2⟩ (by rw [hex]; exact hlog)
    rw [hex] at this
    obtain ⟨e1, e2, e3⟩ := this
    refine ⟨_, .call (X.world mapStorage) t t' io1 _ c r h1 (map_faithful X hX)
      (Prod.ext e1.symm ?_), e3⟩
    have e2 : t' = (exec E D (X.world mapStorage) cfg c ⟨t, io1⟩).2.tuf := e2
    rw [e2]
  | restart X t t' io io' _ hX hcon ih =>
    intro hlog
    have hg := growsC X (.trustedRoot raw) io
    rw [hcon] at hg
    obtain ⟨io1, h1, h2⟩ := ih (sub hg hlog)
    have := fs_construct E D cfg X f ps ha (.trustedRoot raw) h2
    rw [hcon] at this
    obtain ⟨e1, e2⟩ := this
    exact ⟨_, .restart (X.world mapStorage) t t' io1 _ h1 (map_faithful X hX) (Prod.ext e1.symm rfl), e2⟩
  | crash Xc X t t' io io' c r s _ hex hX hcon ih =>
    intro hlog
    have hg' := growsC X (.trustedRoot raw) s.io
    rw [hcon] at hg'
    have hg := growsX Xc c ⟨t, io⟩
    rw [hex] at hg
    obtain ⟨io1, h1, h2⟩ := ih (sub hg (sub hg' hlog))
    have := fs_exec E D cfg Xc f ps ha c (s := ⟨t, io⟩) (s' := ⟨t, io1⟩) ⟨rfl, h2⟩
      (by rw [hex]; exact sub hg' hlog)
    rw [hex] at this
    obtain ⟨e1, -, e3⟩ := this
    have := fs_construct E D cfg X f ps ha (.trustedRoot raw) e3
    rw [hcon] at this
    obtain ⟨e4, e5⟩ := this
    exact ⟨_, .crash (Xc.world mapStorage) (X.world mapStorage) t t' io1 _ c _ _ h1 (map_lossy Xc)
      (Prod.ext e1.symm rfl) (map_faithful X hX) (Prod.ext e4.symm rfl), e5⟩

/-- **C86.** A client that keeps its metadata in files and has updated successfully is restored from
the files after a restart: same root, timestamp, snapshot and targets. The conditions are those of C31,
and all local names in the record are plain. -/
theorem C86_restart_with_files (hE : Decoders E) (ha : Apart f.name (PlainKey ps))
    (h0 : Holds f.name (PlainKey ps) t0 m0) {t : Tuf} {io : Io (O × Tree)}
    (hl : LivesWith E D cfg f.storage raw t0 t io) (X : Outside O) (hX : X.Reliable) (x : Bool)
    (s : St (O × Tree)) (h : update E D (X.world f.storage) cfg ⟨t, io⟩ = (.ok x, s))
    (hmax : s.tuf.root.version < 4294967295) (hsteady : Steady E s.io.log)
    (hnames : ProperNames s.io.log) (hplain : PlainLog ps s.io.log)
    (X' : Outside O) (hX' : X'.Reliable) (hcur : ∀ o, Current s.tuf (X'.clock o).1) :
    ∃ t' io', construct E D (X'.world f.storage) cfg (.trustedRoot raw) s.io = (.ok t', io') ∧
      t'.root = s.tuf.root ∧ t'.timestamp = s.tuf.timestamp ∧ t'.snapshot = s.tuf.snapshot ∧
      t'.targets = s.tuf.targets := by
  have he : exec E D (X.world f.storage) cfg .update ⟨t, io⟩ = (.ok (.updated x), s) := by
    show M.bind _ _ _ = _
    unfold M.bind; rw [h]; rfl
  have hg := ((fs_agree X f ps ha).exec D (ok := fun _ => False) E cfg (fun _ h => h.elim) .update).grows
    ⟨t, io⟩
  rw [he] at hg
  obtain ⟨io1, h1, h2⟩ := lives_map ha h0 hl ⟨fun p v m hash he => hplain.1 p v m hash (hg.subset he),
    fun p v raw he => hplain.2.1 p v raw (hg.subset he), fun p he => hplain.2.2 p (hg.subset he)⟩
  have hu := ((fs_agree X f ps ha).update D E cfg (fun _ _ he => he)).same ⟨t, io⟩ ⟨t, io1⟩ ⟨rfl, h2⟩
    (by rw [h]; exact plainLog_allowed hplain)
  rw [h] at hu
  cases hm : update E D (X.world mapStorage) cfg ⟨t, io1⟩ with
  | mk r s1 =>
    rw [hm] at hu
    obtain ⟨e1, e2, e3⟩ := hu
    cases e1
    have e2 : s.tuf = s1.tuf := e2
    have e3l : s.io.log = s1.io.log := e3.1
    rw [e2] at hmax hcur
    rw [e3l] at hsteady hnames
    obtain ⟨t', io', l, c1, c2, c3, c4, c5, -⟩ := C31_restart_partial hE h1 (X.world mapStorage)
      (map_faithful X hX) x s1 hm hmax hsteady hnames (X'.world mapStorage) (map_faithful X' hX')
      (fun w => hcur w.1)
    have hc := fs_construct E D cfg X' f ps ha (.trustedRoot raw) e3
    rw [c1] at hc
    refine ⟨t', _, Prod.ext hc.1 rfl, ?_⟩
    rw [e2]
    exact ⟨c2, c3, c4, c5⟩

/-- **C86.** A client that keeps its metadata in files and is stopped during a call (or whose writes
fail from some moment on) can be constructed again from the files, with a root that is not older than
before the call, and not newer than the one it had when it stopped. -/
theorem C86_crash_with_files (ha : Apart f.name (PlainKey ps)) (h0 : Holds f.name (PlainKey ps) t0 m0)
    {t : Tuf} {io : Io (O × Tree)} (hl : LivesWith E D cfg f.storage raw t0 t io) (Xc : Outside O)
    (c : Call) (r : Except Err Reply) (s : St (O × Tree))
    (h : exec E D (Xc.world f.storage) cfg c ⟨t, io⟩ = (r, s))
    (hmax : s.tuf.root.version < 4294967295) (hplain : PlainLog ps s.io.log)
    (X : Outside O) (hX : X.Reliable) (q : Quiet E (X.world f.storage) cfg) :
    ∃ t' io', construct E D (X.world f.storage) cfg (.trustedRoot raw) s.io = (.ok t', io') ∧
      t.root.version ≤ t'.root.version ∧ t'.root.version ≤ s.tuf.root.version := by
  have hg := ((fs_agree Xc f ps ha).exec D (ok := fun _ => False) E cfg (fun _ h => h.elim) c).grows
    ⟨t, io⟩
  rw [h] at hg
  obtain ⟨io1, h1, h2⟩ := lives_map ha h0 hl ⟨fun p v m hash he => hplain.1 p v m hash (hg.subset he),
    fun p v raw he => hplain.2.1 p v raw (hg.subset he), fun p he => hplain.2.2 p (hg.subset he)⟩
  have hu := fs_exec E D cfg Xc f ps ha c (s := ⟨t, io⟩) (s' := ⟨t, io1⟩) ⟨rfl, h2⟩
    (by rw [h]; exact hplain)
  rw [h] at hu
  have qm : Quiet E (X.world mapStorage) cfg :=
    { q with
      fetch := by
        intro src p v m hash w e he
        cases src with
        | remote => exact q.fetch .remote p v m hash (w.1, fun _ => none) e he
        | cache =>
          have he : Contents.get w.2 (.metadata p v) = .error e := he
          unfold Contents.get at he
          split at he <;> cases he
          exact ⟨by simp, by simp⟩
      store := by
        intro p v b w e he
        rw [((map_faithful X hX).store p v b w).1] at he
        cases he
      fetchTarget := fun p d w e he => q.fetchTarget p d (w.1, fun _ => none) e he
      storeTarget := by
        intro evs p w e he
        have he : (Contents.store w.2 (X.targetFault w.1).1 (.target p) evs).1 = .error e := he
        unfold Contents.store at he
        cases hx : (X.targetFault w.1).1 with
        | some _ => rw [hx] at he; cases he; exact ⟨by simp, by simp⟩
        | none =>
          rw [hx] at he
          cases hd : delivered evs with
          | mk bs en =>
            rw [hd] at he
            cases en with
            | eof => cases he
            | error k => cases he; cases k <;> exact ⟨by simp [IoKind.toErr], by simp [IoKind.toErr]⟩ }
  cases hm : exec E D (Xc.world mapStorage) cfg c ⟨t, io1⟩ with
  | mk r1 s1 =>
    rw [hm] at hu
    obtain ⟨e1, e2, e3⟩ := hu
    have e2 : s.tuf = s1.tuf := e2
    rw [e2] at hmax
    obtain ⟨t', io', c1, c2, c3, -⟩ := C32_crash_safe h1 (Xc.world mapStorage) (map_lossy Xc) c r1 s1 hm
      hmax (X.world mapStorage) (map_faithful X hX) qm
    have hc := fs_construct E D cfg X f ps ha (.trustedRoot raw) e3
    rw [c1] at hc
    exact ⟨t', _, Prod.ext hc.1 rfl, c2, by rw [e2]; exact c3⟩

end restart

/-! ### Opening a repository -/

theorem storeFile_dir {t : Tree} {fault : Option Nat} {n d : FileName} {src : List Ev}
    (h : t d = some .dir) : (t.storeFile fault n src).2 d = some .dir := by
  unfold Tree.storeFile
  split
  · exact h
  · split
    · exact createDirs_dir h
    · dsimp only
      have h' : t.createDirs n.dropLast n.length d = some .dir := createDirs_dir h
      split
      · exact h'
      · split
        · exact h'
        · rename_i hne
          show (if d = n then _ else _) = _
          rw [if_neg fun e : d = n => hne (e ▸ h')]
          exact h'

theorem call_dir (f : FileSystem) {t : Tree} {d : FileName} (h : t d = some .dir) (c : StorageCall) :
    (f.storage.call t c).2 d = some .dir := by
  cases c with
  | fetch k => cases k <;> exact h
  | store x k src => cases k <;> exact storeFile_dir h

theorem calls_dir (f : FileSystem) {d : FileName} (cs : List StorageCall) : ∀ {t : Tree},
    t d = some .dir → (f.storage.calls t cs).2 d = some .dir := by
  induction cs with
  | nil => exact fun h => h
  | cons c cs ih => exact fun h => ih (call_dir f h c)

theorem createAll_dirs {t t' : Tree} {dir : FileName} (h : t.createAll dir = .ok t') :
    ∀ d, d <+: dir → t' d = some .dir := by
  unfold Tree.createAll at h
  split at h
  · cases h
  · rename_i hb
    have key : ∀ d, d <+: dir → t d ≠ some .dir → t d = none ∨ ∃ b, d = dir ∧ t d = some (.file b) := by
      intro d hd hne
      cases ht : t d with
      | none => exact .inl rfl
      | some x =>
        cases x with
        | dir => exact absurd ht hne
        | file b =>
          by_cases e : d = dir
          · exact .inr ⟨b, e, rfl⟩
          · exact absurd ((blocked_iff _ _).2 ⟨d, hd, e, b, ht⟩) hb
    intro d hd
    split at h
    · cases h
    · rename_i hf
      cases h
      by_cases e : t d = some .dir
      · exact createDirs_dir e
      · rcases key d hd e with e' | ⟨b, rfl, e'⟩
        · unfold Tree.createDirs
          rw [if_pos ⟨hd, hd.length_le, e'⟩]
        · exact absurd e' (hf b)

theorem createAll_idle {t : Tree} {dir : FileName} (h : ∀ d, d <+: dir → t d = some .dir) :
    t.createAll dir = .ok t := by
  unfold Tree.createAll
  rw [if_neg, h dir (List.prefix_refl _)]
  · show Except.ok _ = _
    congr 1
    funext n
    unfold Tree.createDirs
    rw [if_neg]
    rintro ⟨h1, -, h2⟩
    rw [h n h1] at h2
    cases h2
  · rw [blocked_iff]
    rintro ⟨d, hd, -, b, hb⟩
    rw [h d hd] at hb
    cases hb

theorem build_split {res : Str → FileName} {path : Str} {a b : Option Str} {t t' : Tree} {f : FileSystem}
    (h : FileSystem.build res path a b t = .ok (f, t')) :
    f = ⟨(buildDirs path a b).1, (buildDirs path a b).2, res⟩ ∧
      ∃ t1, t.createAll (res (buildDirs path a b).1) = .ok t1 ∧
        t1.createAll (res (buildDirs path a b).2) = .ok t' := by
  unfold FileSystem.build at h
  dsimp only [bind, Except.bind] at h
  cases h1 : t.createAll (res (buildDirs path a b).1) with
  | error e => rw [h1] at h; cases h
  | ok t1 =>
    rw [h1] at h
    dsimp only at h
    cases h2 : t1.createAll (res (buildDirs path a b).2) with
    | error e => rw [h2] at h; cases h
    | ok t2 =>
      rw [h2] at h
      cases h
      exact ⟨rfl, t1, rfl, h2⟩

/-- **C86.** Without separate directories (`FileSystemRepositoryBuilder` without prefixes), the target
`timestamp.json` is stored in the file of the timestamp metadata. -/
theorem C86_shared_directory (cwd : List Str) (path : Str) (f : FileSystem) (t t' : Tree)
    (h : FileSystem.build (resolve cwd) path none none t = .ok (f, t')) :
    TargetPath.new "timestamp.json".toList = .ok "timestamp.json".toList ∧
      f.name (.target "timestamp.json".toList) = f.name (.metadata "timestamp".toList .none) := by
  obtain ⟨rfl, -⟩ := build_split h
  refine ⟨by decide, ?_⟩
  show resolve cwd (pathExtend path (TargetPath.components _)) =
    resolve cwd (pathExtend path (MetadataPath.components _ _))
  rw [show TargetPath.components "timestamp.json".toList =
    MetadataPath.components "timestamp".toList .none by decide]

/-- **C86.** Opening a repository again, after any calls, gives the same repository and changes
nothing on the disk. -/
theorem C86_reopen (res : Str → FileName) (path : Str) (a b : Option Str) (t t' : Tree) (f : FileSystem)
    (h : FileSystem.build res path a b t = .ok (f, t')) (cs : List StorageCall) :
    FileSystem.build res path a b (f.storage.calls t' cs).2 = .ok (f, (f.storage.calls t' cs).2) := by
  obtain ⟨rfl, t1, h1, h2⟩ := build_split h
  have d1 := createAll_dirs h1
  have d2 := createAll_dirs h2
  have keep : ∀ d, t1 d = some .dir → t' d = some .dir := by
    intro d hd
    unfold Tree.createAll at h2
    split at h2
    · cases h2
    · split at h2 <;> cases h2
      exact createDirs_dir hd
  unfold FileSystem.build
  dsimp only [bind, Except.bind]
  rw [createAll_idle fun d hd => calls_dir _ cs (keep d (d1 d hd))]
  dsimp only
  rw [createAll_idle fun d hd => calls_dir _ cs (d2 d hd)]
  rfl

/-- **C86.** A repository that is opened where there is nothing yet holds nothing, and plain names are
apart in it. -/
theorem C86_new_is_empty (cwd : List Str) (path : Str) (t t' : Tree) (f : FileSystem)
    (h : FileSystem.new (resolve cwd) path t = .ok (f, t'))
    (hnone : ∀ n, resolve cwd path <+: n → n ≠ resolve cwd path → t n = none)
    (ps : TargetPath → Prop) (hps : PlainTargets ps) :
    Apart f.name (PlainKey ps) ∧ Holds f.name (PlainKey ps) t' (fun _ => none) := by
  obtain ⟨rfl, t1, h1, h2⟩ := build_split h
  have ha : Apart (FileSystem.name ⟨(defaultDirs path).1, (defaultDirs path).2, resolve cwd⟩) (PlainKey ps) :=
    names_apart_new cwd _ rfl path rfl ps hps
  refine ⟨ha, ?_⟩
  have e : ∀ c : Str, '/' ∉ c → c ≠ ['.'] → c ≠ ['.', '.'] → c ≠ [] →
      resolve cwd (pathPush path c) = resolve cwd path ++ [c] := by
    intro c h1 h2 h3 h4
    have := resolve_extend cwd [c] path (by intro d hd; rw [List.mem_singleton] at hd; subst hd; exact ⟨h1, h2, h3⟩)
    rw [filter_nonempty (by simpa using h4.symm)] at this
    exact this
  have em : resolve cwd (buildDirs path (some "metadata".toList) (some "targets".toList)).1 =
      resolve cwd path ++ ["metadata".toList] :=
    e "metadata".toList (by decide) (by decide) (by decide) (by decide)
  have et : resolve cwd (buildDirs path (some "metadata".toList) (some "targets".toList)).2 =
      resolve cwd path ++ ["targets".toList] :=
    e "targets".toList (by decide) (by decide) (by decide) (by decide)
  rw [em] at h1
  rw [et] at h2
  have dm := createAll_dirs h1
  have dt := createAll_dirs h2
  have form : ∀ {t t' : Tree} {dir : FileName}, t.createAll dir = .ok t' →
      t' = t.createDirs dir dir.length := by
    intro t t' dir h
    unfold Tree.createAll at h
    split at h
    · cases h
    · split at h <;> cases h
      rfl
  have f1 := form h1
  have f2 := form h2
  have dm' : ∀ d, d <+: resolve cwd path ++ ["metadata".toList] → t' d = some .dir := by
    intro d hd
    rw [f2]
    exact createDirs_dir (dm d hd)
  have deep : ∀ (c : Str) (names : List Str), names ≠ [] →
      t' (resolve cwd path ++ [c] ++ names) = none := by
    intro c names hne
    have np : ∀ c' : Str, ¬ (resolve cwd path ++ [c] ++ names <+: resolve cwd path ++ [c']) := by
      intro c' hp
      have h1 := hp.length_le
      have h2 := List.length_pos_iff.2 hne
      simp only [List.length_append, List.length_singleton] at h1
      omega
    have n0 : t (resolve cwd path ++ [c] ++ names) = none := by
      refine hnone _ (by rw [List.append_assoc]; exact List.prefix_append _ _) fun e => ?_
      have := congrArg List.length e
      simp at this
    have n1 : t1 (resolve cwd path ++ [c] ++ names) = none := by
      rw [f1]
      unfold Tree.createDirs
      rw [if_neg fun hh => np _ hh.1]
      exact n0
    rw [f2]
    unfold Tree.createDirs
    rw [if_neg fun hh => np _ hh.1]
    exact n1
  have place : ∀ k, PlainKey ps k → ∃ (c : Str) (names : List Str), names ≠ [] ∧
      (∀ d, d <+: resolve cwd path ++ [c] → t' d = some .dir) ∧
      FileSystem.name ⟨(defaultDirs path).1, (defaultDirs path).2, resolve cwd⟩ k =
        resolve cwd path ++ [c] ++ names := by
    intro k hk
    cases k with
    | metadata p v =>
      obtain ⟨dirs, last, file, -, -, -, e⟩ := metadata_inside p p hk.1 v cwd (defaultDirs path).1
      refine ⟨"metadata".toList, dirs.filter (· ≠ []) ++ [file], by simp, dm', ?_⟩
      show resolve cwd (metadataFile _ _ _) = _
      rw [e, List.append_assoc _ _ [file]]
      congr 1
    | target p =>
      obtain ⟨names, hne, -, -, e⟩ := C42_target_inside p p (hps.accepted p hk).1 cwd (defaultDirs path).2
      refine ⟨"targets".toList, names, hne, dt, ?_⟩
      show resolve cwd (targetFile _ _) = _
      rw [e]
      congr 1
  constructor
  · intro k hk
    obtain ⟨c, names, hne, -, e⟩ := place k hk
    show t' (FileSystem.name ⟨(defaultDirs path).1, (defaultDirs path).2, resolve cwd⟩ k) = _
    rw [e, deep c names hne]
    rfl
  · intro k hk
    obtain ⟨c, names, hne, hdir, e⟩ := place k hk
    show ¬ t'.Blocked (FileSystem.name ⟨(defaultDirs path).1, (defaultDirs path).2, resolve cwd⟩ k)
    rw [e, blocked_iff]
    rintro ⟨d, hd, -, b, hb⟩
    rcases prefix_total hd (List.prefix_append (resolve cwd path ++ [c]) names) with hp | ⟨s, rfl⟩
    · rw [hdir d hp] at hb
      cases hb
    · by_cases hs : s = []
      · subst hs
        rw [hdir _ (by simp)] at hb
        cases hb
      · rw [deep c s hs] at hb
        cases hb

end RustTuf.Props
