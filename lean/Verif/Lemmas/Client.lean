import Verif.Lemmas.Hoare
import Verif.Lemmas.Readers
import Verif.Lemmas.Tuf
import Verif.Spec.Client
import Mathlib.Data.List.Induction

/-! # Records of client runs -/

namespace RustTuf
open Client Spec

/-- A successful checked read gives a document as announced. -/
theorem readToEnd_fits (D : Digest) (max : Nat) (hash : HashData) (evs : List Ev) :
    ∀ (s : SafeReader) (acc bs : Bytes), s.At max hash acc → acc.length ≤ max →
      s.readToEnd D evs acc = .ok bs →
      bs.length ≤ max ∧ (∀ a v, hash = some (a, v) → D a bs = v) ∧
        acc ++ (delivered evs).1 = bs ∧ (delivered evs).2 = .eof := by
  have finish : ∀ (s : SafeReader) (acc bs : Bytes), s.At max hash acc → acc.length ≤ max →
      (match s.poll D (.data []) with
        | (.err k, _) => .error k
        | _ => .ok acc : Except IoKind Bytes) = .ok bs →
      bs.length ≤ max ∧ (∀ a v, hash = some (a, v) → D a bs = v) ∧ acc = bs := by
    rintro s acc bs ⟨h1, h2, h3⟩ hl h
    cases hash with
    | none =>
      simp only [Option.map_none] at h3
      simp only [SafeReader.poll, h3] at h
      cases h
      exact ⟨hl, by simp, rfl⟩
    | some p =>
      obtain ⟨a, v⟩ := p
      simp only [Option.map_some] at h3
      simp only [SafeReader.poll, h3] at h
      by_cases hd : D a acc = v
      · simp [hd] at h
        subst h
        exact ⟨hl, by rintro a' v' h; cases h; exact hd, rfl⟩
      · simp [hd] at h
  induction evs with
  | nil =>
    intro s acc bs hs hl h
    obtain ⟨h1, h2, h3⟩ := finish s acc bs hs hl h
    exact ⟨h1, h2, by simp [delivered, h3], rfl⟩
  | cons ev evs ih =>
    intro s acc bs hs hl h
    cases ev with
    | pending =>
      have e : s.readToEnd D (.pending :: evs) acc = s.readToEnd D evs acc := rfl
      rw [e] at h
      simpa [delivered] using ih s acc bs hs hl h
    | err k =>
      have e : s.readToEnd D (.err k :: evs) acc = .error k := rfl
      rw [e] at h; cases h
    | data b =>
      cases b with
      | nil =>
        have e : s.readToEnd D (.data [] :: evs) acc = (match s.poll D (.data []) with
          | (.err k, _) => .error k
          | _ => .ok acc : Except IoKind Bytes) := by
          simp only [SafeReader.readToEnd]
          rcases hp : s.poll D (.data []) with ⟨r, s'⟩
          have : r = .data [] ∨ ∃ k, r = .err k := by
            simp only [SafeReader.poll] at hp
            split at hp
            · split at hp <;> cases hp <;> simp
            · cases hp; simp
          rcases this with rfl | ⟨k, rfl⟩ <;> rfl
        rw [e] at h
        obtain ⟨h1, h2, h3⟩ := finish s acc bs hs hl h
        exact ⟨h1, h2, by simp [delivered, h3], by simp [delivered]⟩
      | cons x xs =>
        have hp := SafeReader.poll_cons D s x xs
        split at hp
        · rename_i hb
          have e : s.readToEnd D (.data (x :: xs) :: evs) acc =
              SafeReader.readToEnd D { s with
                bytesRead := s.bytesRead + (x :: xs).length
                hasher := s.hasher.map fun (alg, ctx, v) => (alg, ctx ++ (x :: xs), v) } evs
                (acc ++ x :: xs) := by
            simp only [SafeReader.readToEnd, hp]
          rw [e] at h
          have hs' := hs.push x xs
          have := ih _ _ bs hs' (by
            obtain ⟨h1, h2, _⟩ := hs
            rw [h1, h2] at hb
            simpa using hb.2) h
          simpa [delivered] using this
        · have e : s.readToEnd D (.data (x :: xs) :: evs) acc = .error .invalidData := by
            simp only [SafeReader.readToEnd, hp]
          rw [e] at h; cases h

theorem readChecked_fits {D : Digest} {max : Nat} {hash : HashData} {evs : List Ev} {raw : Bytes}
    (h : readChecked D max hash evs = .ok raw) :
    raw.length ≤ max ∧ (∀ a v, hash = some (a, v) → D a raw = v) ∧ delivered evs = (raw, .eof) := by
  unfold readChecked at h
  split at h
  · cases h
  · rename_i s hs
    split at h
    · cases h
    · rename_i bs hb
      cases h
      obtain ⟨h1, h2, h3, h4⟩ := readToEnd_fits D max hash evs s [] raw (SafeReader.new_at hs)
        (by simp) hb
      exact ⟨h1, h2, Prod.ext (by simpa using h3) h4⟩

section io
variable {W : Type} {D : Digest} {R : World W}

theorem note_tri {P : Io W → Prop} {Q : Unit → Io W → Prop} {X : Err → Io W → Prop} (e : LogEntry)
    (h : ∀ s, P s → Q () { s with log := s.log ++ [e] }) : Tri P (Io.note e) Q X := fun s hs => h s hs

theorem call_log {α : Type} (f : W → Except Err α × W) (L : List LogEntry) :
    Tri (fun s : Io W => s.log = L) (Io.call f) (fun _ s => s.log = L) (fun _ s => s.log = L) := by
  intro s hs
  unfold Io.call
  cases f s.w with
  | mk r w' => cases r <;> exact hs

theorem checkRole_ok {role : Role} {path : MetadataPath} {u : Unit} (h : checkRole role path = .ok u) :
    role.fuzzyMatchesPath path = true := by
  unfold checkRole at h
  split at h
  · cases h
  · rename_i h'; simpa using h'

theorem fetchMetadata_log (src : Source) (role : Role) (path : MetadataPath) (ver : MetadataVersion)
    (max : Option Nat) (hash : HashData) (L : List LogEntry) :
    Tri (fun s : Io W => s.log = L) (fetchMetadata D R src role path ver max hash)
      (fun raw s => role.fuzzyMatchesPath path = true ∧ Fits D raw max hash ∧
        s.log = L ++ [.fetch src path ver max hash, .got src path raw])
      (fun _ s => s.log = L ∨ s.log = L ++ [.fetch src path ver max hash]) := by
  unfold fetchMetadata
  refine Tri.bind (Q := fun _ s => role.fuzzyMatchesPath path = true ∧ s.log = L)
    (Tri.ofExcept (fun a s h hs => ⟨checkRole_ok h, hs⟩) (fun e s _ hs => .inl hs)) fun _ => ?_
  refine Tri.assume fun hrole => ?_
  refine Tri.bind (Q := fun _ s => s.log = L ++ [.fetch src path ver max hash])
    (note_tri _ (fun s hs => by simp [hs])) fun _ => ?_
  refine Tri.bind ((call_log _ _).conseq (fun _ h => h) (fun _ _ h => h) (fun _ _ h => .inr h))
    fun evs => ?_
  refine Tri.bind (Q := fun raw s => Fits D raw max hash ∧ s.log = L ++ [.fetch src path ver max hash])
    (Tri.ofExcept ?_ (fun e s _ hs => .inr hs)) fun raw => ?_
  · intro raw s h hs
    obtain ⟨h1, h2, _⟩ := readChecked_fits h
    exact ⟨⟨fun n hn => by subst hn; exact h1, h2⟩, hs⟩
  · refine Tri.bind (Q := fun _ s => Fits D raw max hash ∧
      s.log = L ++ [.fetch src path ver max hash, .got src path raw])
      (note_tri _ (fun s hs => ⟨hs.1, by simp [hs.2]⟩)) fun _ => ?_
    exact Tri.ret fun s hs => ⟨hrole, hs⟩

theorem storeMetadata_log (role : Role) (path : MetadataPath) (ver : MetadataVersion)
    (raw : Bytes) (L : List LogEntry) :
    Tri (fun s : Io W => s.log = L) (storeMetadata R role path ver raw)
      (fun _ s => s.log = L ++ [.store path ver raw])
      (fun _ s => s.log = L ∨ s.log = L ++ [.store path ver raw]) := by
  unfold storeMetadata
  refine Tri.bind (Q := fun _ s => s.log = L)
    (Tri.ofExcept (fun a s h hs => hs) (fun e s _ hs => .inl hs)) fun _ => ?_
  refine Tri.bind (Q := fun _ s => s.log = L ++ [.store path ver raw])
    (note_tri _ (fun s hs => by simp [hs])) fun _ => ?_
  exact (call_log _ _).conseq (fun _ h => h) (fun _ _ h => h) (fun _ _ h => .inr h)

end io

theorem opsOf_append (a b : List LogEntry) : opsOf (a ++ b) = opsOf a ++ opsOf b := by
  induction a with
  | nil => rfl
  | cons e a ih => cases e <;> simp [opsOf, ih]

theorem after_nil (E : Env) (t : Tuf) : after E t [] = t := rfl

theorem after_append (E : Env) (t : Tuf) (a b : List LogEntry) :
    after E t (a ++ b) = after E (after E t a) b := by
  simp [after, opsOf_append, Tuf.run, List.foldl_append]

theorem after_op (E : Env) (t : Tuf) (l : List LogEntry) (o : Tuf.Op) (out : Tuf.Outcome) :
    after E t (l ++ [.op o out]) = (Tuf.step E (after E t l) o).2 := by
  rw [after_append]; rfl

/-- Entries other than update calls do not change the trusted metadata. -/
theorem after_fetch (E : Env) (t : Tuf) (l : List LogEntry) (src p v m h) :
    after E t (l ++ [.fetch src p v m h]) = after E t l := by rw [after_append]; rfl
theorem after_got (E : Env) (t : Tuf) (l : List LogEntry) (src p v m h raw) :
    after E t (l ++ [.fetch src p v m h, .got src p raw]) = after E t l := by rw [after_append]; rfl
theorem after_store (E : Env) (t : Tuf) (l : List LogEntry) (p v raw) :
    after E t (l ++ [.store p v raw]) = after E t l := by rw [after_append]; rfl

section good
variable {E : Env} {D : Digest} {cfg : Config} {t : Tuf}

theorem Spec.Good.nil : Good E D cfg t [] := by
  intro pre e post h
  cases pre <;> cases h

theorem Spec.Good.snoc {l : List LogEntry} {e : LogEntry} (h : Good E D cfg t l)
    (hn : Next E D cfg t l e) : Good E D cfg t (l ++ [e]) := by
  intro pre x post heq
  rcases List.eq_nil_or_concat post with rfl | ⟨post', y, rfl⟩
  · have := List.append_inj' heq (by simp)
    obtain ⟨rfl, h2⟩ := this
    cases h2
    exact hn
  · rw [List.concat_eq_append, ← List.cons_append, ← List.append_assoc] at heq
    have := List.append_inj' heq (by simp)
    exact h pre x post' this.1

theorem Spec.Good.fetch {l : List LogEntry} (h : Good E D cfg t l) {k : Kind} {src v m hd}
    (hr : Request cfg (after E t l) k src v m hd) :
    Good E D cfg t (l ++ [.fetch src k.path v m hd]) := h.snoc ⟨k, rfl, hr⟩

theorem Spec.Good.got {l : List LogEntry} (h : Good E D cfg t l) {k : Kind} {src v m hd raw}
    (hr : Request cfg (after E t l) k src v m hd) (hf : Fits D raw m hd) :
    Good E D cfg t (l ++ [.fetch src k.path v m hd, .got src k.path raw]) := by
  have e : l ++ [.fetch src k.path v m hd, .got src k.path raw] =
      (l ++ [.fetch src k.path v m hd]) ++ [.got src k.path raw] := by simp
  rw [e]
  exact (h.fetch hr).snoc ⟨l, v, m, hd, rfl, hf⟩

theorem Spec.Good.op {l : List LogEntry} (h : Good E D cfg t l) {k : Kind} {src v m hd raw o out}
    (hr : Request cfg (after E t l) k src v m hd) (hf : Fits D raw m hd) (hs : Submits o k raw)
    (ho : (Tuf.step E (after E t l) o).1 = out) :
    Good E D cfg t (l ++ [.fetch src k.path v m hd, .got src k.path raw, .op o out]) := by
  have e : l ++ [.fetch src k.path v m hd, .got src k.path raw, .op o out] =
      (l ++ [.fetch src k.path v m hd, .got src k.path raw]) ++ [.op o out] := by simp
  rw [e]
  refine (h.got hr hf).snoc ⟨?_, k, raw, l, src, v, m, hd, hs, rfl, ?_⟩
  · rw [after_got]; exact ho
  · rw [after_got]; exact hr

end good

/-- The assertion used in all proofs about client functions: since the start (trusted metadata `t0`,
record `L0`) the record has grown by a good list. -/
def Tr {W : Type} (E : Env) (D : Digest) (cfg : Config) (t0 : Tuf) (L0 : List LogEntry) (s : St W) :
    Prop :=
  ∃ l, s.io.log = L0 ++ l ∧ Good E D cfg t0 l ∧ s.tuf = after E t0 l

/-- The same, and the last entry is an accepting update call followed by stores of its document. -/
def TrOp {W : Type} (E : Env) (D : Digest) (cfg : Config) (t0 : Tuf) (L0 : List LogEntry) (k : Kind)
    (raw : Bytes) (s : St W) : Prop :=
  ∃ l o out mid, s.io.log = L0 ++ (l ++ .op o out :: mid) ∧
    Good E D cfg t0 (l ++ .op o out :: mid) ∧ s.tuf = after E t0 (l ++ .op o out :: mid) ∧
    (∀ e ∈ mid, ∃ v, e = .store k.path v raw) ∧ Submits o k raw ∧ Accepted o out

section client
variable {W : Type} {E : Env} {D : Digest} {R : World W} {cfg : Config} {t0 : Tuf}
  {L0 : List LogEntry}

theorem TrOp.tr {k : Kind} {raw : Bytes} {s : St W} (h : TrOp E D cfg t0 L0 k raw s) :
    Tr E D cfg t0 L0 s := by
  obtain ⟨l, o, out, mid, h1, h2, h3, _⟩ := h
  exact ⟨_, h1, h2, h3⟩

theorem store_tr (role : Role) (k : Kind) (ver : MetadataVersion) (raw : Bytes) (t : Tuf)
    (hv : StoredAs t k ver) :
    Tri (fun s : St W => s.tuf = t ∧ TrOp E D cfg t0 L0 k raw s)
      (lift (storeMetadata R role k.path ver raw))
      (fun _ s => s.tuf = t ∧ TrOp E D cfg t0 L0 k raw s)
      (fun _ s => s.tuf = t ∧ TrOp E D cfg t0 L0 k raw s) := by
  refine Tri.fix fun s0 hs0 => ?_
  obtain ⟨ht, l, o, out, mid, h1, h2, h3, h4, h5, h6⟩ := hs0
  have grown : ∀ s : St W, s.tuf = s0.tuf → s.io.log = s0.io.log ++ [.store k.path ver raw] →
      s.tuf = t ∧ TrOp E D cfg t0 L0 k raw s := by
    intro s e1 e2
    refine ⟨e1.trans ht, l, o, out, mid ++ [.store k.path ver raw], ?_, ?_, ?_, ?_, h5, h6⟩
    · rw [e2, h1]; simp
    · rw [← List.cons_append, ← List.append_assoc]
      refine h2.snoc ⟨k, o, out, l, mid, rfl, h4, h5, rfl, h6, ?_⟩
      rw [← h3, ht]; exact hv
    · rw [e1, h3, ← List.cons_append, ← List.append_assoc, after_store]
    · intro e he
      rcases List.mem_append.1 he with he | he
      · exact h4 e he
      · simp only [List.mem_singleton] at he; exact ⟨ver, he⟩
  have same : ∀ s : St W, s.tuf = s0.tuf → s.io.log = s0.io.log →
      s.tuf = t ∧ TrOp E D cfg t0 L0 k raw s := by
    intro s e1 e2
    exact ⟨e1.trans ht, l, o, out, mid, by rw [e2, h1], h2, by rw [e1, h3], h4, h5, h6⟩
  refine ((storeMetadata_log (R := R) role k.path ver raw s0.io.log).lift s0.tuf).conseq ?_ ?_ ?_
  · rintro s rfl; exact ⟨rfl, rfl⟩
  · rintro _ s ⟨e1, e2⟩; exact grown s e1 e2
  · rintro _ s ⟨e1, e2 | e2⟩
    · exact same s e1 e2
    · exact grown s e1 e2

/-- State after a successful download, waiting for verification. -/
def TrGot {W : Type} (E : Env) (D : Digest) (cfg : Config) (t0 : Tuf) (L0 : List LogEntry) (k : Kind)
    (raw : Bytes) (t : Tuf) (s : St W) : Prop :=
  s.tuf = t ∧ ∃ l src v m h, s.io.log = L0 ++ (l ++ [.fetch src k.path v m h, .got src k.path raw]) ∧
    Good E D cfg t0 l ∧ s.tuf = after E t0 l ∧ Fits D raw m h ∧ Request cfg s.tuf k src v m h

theorem fetch_tr (src : Source) (role : Role) (k : Kind) (ver : MetadataVersion) (max : Option Nat)
    (hash : HashData) (t : Tuf) (hr : Request cfg t k src ver max hash) :
    Tri (fun s : St W => s.tuf = t ∧ Tr E D cfg t0 L0 s)
      (lift (fetchMetadata D R src role k.path ver max hash))
      (fun raw s => role.fuzzyMatchesPath k.path = true ∧ TrGot E D cfg t0 L0 k raw t s)
      (fun _ s => s.tuf = t ∧ Tr E D cfg t0 L0 s) := by
  refine Tri.fix fun s0 hs0 => ?_
  obtain ⟨ht, l, h1, h2, h3⟩ := hs0
  refine ((fetchMetadata_log (D := D) (R := R) src role k.path ver max hash s0.io.log).lift
    s0.tuf).conseq ?_ ?_ ?_
  · rintro s rfl; exact ⟨rfl, rfl⟩
  · rintro raw s ⟨e1, e2, e3, e4⟩
    refine ⟨e2, e1.trans ht, l, src, ver, max, hash, ?_, h2, ?_, e3, ?_⟩
    · rw [e4, h1]; simp
    · rw [e1, h3]
    · rw [e1, ht]; exact hr
  · rintro _ s ⟨e1, e2 | e2⟩
    · exact ⟨e1.trans ht, l, by rw [e2, h1], h2, by rw [e1, h3]⟩
    · refine ⟨e1.trans ht, l ++ [.fetch src k.path ver max hash], by rw [e2, h1]; simp, ?_, ?_⟩
      · refine h2.fetch ?_
        rw [← h3, ht]; exact hr
      · rw [after_fetch, e1, h3]

theorem clock_got (k : Kind) (raw : Bytes) (t : Tuf) {X : Err → St W → Prop} :
    Tri (fun s : St W => TrGot E D cfg t0 L0 k raw t s) (getClock R)
      (fun _ s => TrGot E D cfg t0 L0 k raw t s) X :=
  Tri.getClock fun _ hs => hs

theorem clock_tr {X : Err → St W → Prop} :
    Tri (fun s : St W => Tr E D cfg t0 L0 s) (getClock R) (fun _ s => Tr E D cfg t0 L0 s) X :=
  Tri.getClock fun _ hs => hs

theorem submit_tr (o : Tuf.Op) (k : Kind) (raw : Bytes) (t : Tuf) (hs : Submits o k raw) :
    Tri (fun s : St W => TrGot E D cfg t0 L0 k raw t s) (updateTuf E o)
      (fun out s => (∀ e, out ≠ .failed e) ∧ Tuf.step E t o = (out, s.tuf) ∧ Tr E D cfg t0 L0 s ∧
        (Accepted o out → TrOp E D cfg t0 L0 k raw s))
      (fun e s => Tuf.step E t o = (.failed e, s.tuf) ∧ Tr E D cfg t0 L0 s) := by
  refine Tri.updateTuf ?_
  rintro s out t' ⟨ht, l, src, v, m, h, h1, h2, h3, h4, h5⟩ hstep
  have ho : (Tuf.step E (after E t0 l) o).1 = out := by rw [← h3, hstep]
  have hg := h2.op (h3 ▸ h5) h4 hs ho
  have ht' : t' = after E t0 (l ++ [.fetch src k.path v m h, .got src k.path raw, .op o out]) := by
    have e : l ++ [.fetch src k.path v m h, .got src k.path raw, .op o out] =
      (l ++ [.fetch src k.path v m h, .got src k.path raw]) ++ [.op o out] := by simp
    rw [e, after_op, after_got, ← h3, hstep]
  have hlog : s.io.log ++ [.op o out] =
      L0 ++ (l ++ [.fetch src k.path v m h, .got src k.path raw, .op o out]) := by
    rw [h1]; simp
  have htr : Tr E D cfg t0 L0 (⟨t', { s.io with log := s.io.log ++ [.op o out] }⟩ : St W) :=
    ⟨_, hlog, hg, ht'⟩
  have hop : Accepted o out →
      TrOp E D cfg t0 L0 k raw (⟨t', { s.io with log := s.io.log ++ [.op o out] }⟩ : St W) := by
    intro ha
    have e : l ++ [.fetch src k.path v m h, .got src k.path raw, .op o out] =
      (l ++ [.fetch src k.path v m h, .got src k.path raw]) ++ [.op o out] := by simp
    rw [e] at hlog hg ht'
    exact ⟨_, o, out, [], hlog, hg, ht', by simp, hs, ha⟩
  rw [ht] at hstep
  cases out with
  | failed e => exact ⟨hstep, htr⟩
  | unchanged => exact ⟨by simp, hstep, htr, hop⟩
  | changed => exact ⟨by simp, hstep, htr, hop⟩

/-- A step with no effect on record and trusted metadata. -/
theorem getTuf_tr {X : Err → St W → Prop} :
    Tri (fun s : St W => Tr E D cfg t0 L0 s) getTuf
      (fun t s => s.tuf = t ∧ Tr E D cfg t0 L0 s) X := fun _ hs => ⟨rfl, hs⟩

theorem preferred_of {hs : Map HashAlg HashValue} {a : HashAlg} {v : HashValue}
    (h : hashPreference hs = .ok (a, v)) : Preferred hs a v := by
  simp only [hashPreference, hashAlgPrefs, hashPreferenceIn] at h
  split at h
  · rename_i h1; cases h; exact ⟨h1, .inl rfl⟩
  · rename_i h0
    split at h
    · rename_i h1; cases h; exact ⟨h1, .inr ⟨rfl, h0⟩⟩
    · cases h

/-- Postcondition of all client functions as far as the record is concerned. -/
abbrev TrQ {W α : Type} (E : Env) (D : Digest) (cfg : Config) (t0 : Tuf) (L0 : List LogEntry) :
    α → St W → Prop := fun _ s => Tr E D cfg t0 L0 s

theorem rootLoop_tr (src : Source) (persist : Bool) (fuel : Nat) : ∀ updated : Bool,
    Tri (fun s : St W => Tr E D cfg t0 L0 s) (rootLoop E D R cfg src persist fuel updated)
      (TrQ E D cfg t0 L0) (TrQ E D cfg t0 L0) := by
  induction fuel with
  | zero => intro updated; exact Tri.fail fun s hs => hs
  | succ fuel ih =>
    intro updated
    unfold rootLoop
    refine Tri.bind getTuf_tr fun t => ?_
    refine Tri.bind (Q := fun next s =>
        (Request cfg t (.top .root) src (.number next) cfg.maxRootLength none ∧
          (next = t.root.version + 1 ∨ u32Max ≤ t.root.version)) ∧
        s.tuf = t ∧ Tr E D cfg t0 L0 s)
      (Tri.ofExcept ?_ (fun _ _ _ hs => hs.2)) fun next => Tri.assume fun hnext => ?_
    · intro next s hn hs
      refine ⟨?_, hs⟩
      unfold nextRootVersion at hn
      split at hn
      · rename_i hv
        split at hn
        · cases hn
        · rename_i hc
          cases hn
          exact ⟨.rootWrapped src hv (by simpa using hc), .inr hv⟩
      · rename_i hv
        cases hn
        exact ⟨.root src (by simpa [u32Max] using hv), .inl rfl⟩
    · obtain ⟨hreq, hnum⟩ := hnext
      refine Tri.bind (Tri.attempt (fetch_tr src .root (.top .root) _ _ _ t hreq)) fun r => ?_
      cases r with
      | error e =>
        have base : Tri (fun s : St W => s.tuf = t ∧ Tr E D cfg t0 L0 s) (M.fail e : M (St W) Bool)
          (TrQ E D cfg t0 L0) (TrQ E D cfg t0 L0) := Tri.fail fun s hs => hs.2
        cases e <;> exact base
      | ok raw =>
        refine Tri.bind ((submit_tr (.root raw) (.top .root) raw t (.root raw)).conseq (fun _ h => h.2)
            (fun _ s h => h) (fun _ _ h => h.2)) fun out => ?_
        refine Tri.assume fun hnf => ?_
        refine Tri.fix ?_
        rintro s1 ⟨hstep, htr, hop⟩
        have hout : out = .changed := by
          simp only [Tuf.step] at hstep
          split at hstep <;> cases hstep
          · exact absurd rfl (hnf _)
          · rfl
        subst hout
        generalize ht' : s1.tuf = t' at hstep
        have hver : t'.root.version = t.root.version + 1 ∧ t.root.version + 1 ≤ u32Max := by
          simp only [Tuf.step] at hstep
          split at hstep
          · cases hstep
          · rename_i t'' hu
            cases hstep
            obtain ⟨new, h1, rfl⟩ := (Tuf.updateRoot_ok_iff E t _ raw).1 hu
            exact ⟨h1.nextVersion, h1.noOverflow⟩
        have hn : next = t'.root.version := by omega
        refine Tri.bind (Q := TrQ E D cfg t0 L0) ?_ fun _ => ih true
        refine Tri.pre (P := fun s => s.tuf = t' ∧ TrOp E D cfg t0 L0 (.top .root) raw s) ?_ ?_
        · refine Tri.when (fun _ => ?_) (fun _ s hs => hs.2.tr)
          refine Tri.bind (Tri.conseq (store_tr .root (.top .root) .none raw t' (.inl rfl))
            (fun _ h => h) (fun _ _ h => h) (fun _ _ h => h.2.tr)) fun _ => ?_
          exact (store_tr .root (.top .root) (.number next) raw t' (.inr ⟨rfl, by rw [hn]⟩)).conseq
            (fun _ h => h) (fun _ _ h => h.2.tr) (fun _ _ h => h.2.tr)
        · rintro s rfl
          exact ⟨ht', hop (.inl rfl)⟩

theorem updateRoot_tr (src : Source) (persist : Bool) :
    Tri (fun s : St W => Tr E D cfg t0 L0 s) (updateRootWithRepos E D R cfg src persist)
      (TrQ E D cfg t0 L0) (TrQ E D cfg t0 L0) := by
  unfold updateRootWithRepos
  refine Tri.bind (rootLoop_tr src persist _ _) fun b => ?_
  refine Tri.bind clock_tr fun clk => ?_
  refine Tri.bind getTuf_tr fun t => ?_
  exact Tri.ite (fun _ => Tri.fail fun s hs => hs.2) (fun _ => Tri.ret fun s hs => hs.2)

/-- The last part of the three other update functions: verify, store, report. -/
theorem finish_tr (o : Tuf.Op) (role : Role) (k : Kind) (raw : Bytes) (t : Tuf)
    (hs : Submits o k raw) (persist : Bool) :
    Tri (fun s : St W => TrGot E D cfg t0 L0 k raw t s)
      (do match ← updateTuf E o with
          | .changed =>
            M.when persist (lift (storeMetadata R role k.path .none raw))
            return true
          | _ => return false)
      (TrQ E D cfg t0 L0) (TrQ E D cfg t0 L0) := by
  refine Tri.bind ((submit_tr o k raw t hs).conseq (fun _ h => h) (fun _ s h => h)
    (fun _ _ h => h.2)) fun out => ?_
  refine Tri.fix ?_
  rintro s1 ⟨hnf, hstep, htr, hop⟩
  have base : Tri (fun s => s = s1) (pure false : M (St W) Bool) (TrQ E D cfg t0 L0)
    (TrQ E D cfg t0 L0) := Tri.ret fun s hs => hs ▸ htr
  cases out with
  | failed e => exact absurd rfl (hnf e)
  | unchanged => exact base
  | changed =>
    refine Tri.bind (Q := TrQ E D cfg t0 L0) ?_ fun _ => Tri.ret fun s hs => hs
    refine Tri.when (fun _ => ?_) (fun _ s hs => hs ▸ htr)
    refine (store_tr role k .none raw s1.tuf (.inl rfl)).conseq ?_ (fun _ _ h => h.2.tr)
      (fun _ _ h => h.2.tr)
    rintro s rfl
    exact ⟨rfl, hop (.inl rfl)⟩

theorem updateTimestamp_tr (src : Source) (persist : Bool) :
    Tri (fun s : St W => Tr E D cfg t0 L0 s) (updateTimestampWithRepos E D R cfg src persist)
      (TrQ E D cfg t0 L0) (TrQ E D cfg t0 L0) := by
  refine Tri.fix fun s0 hs0 => ?_
  unfold updateTimestampWithRepos
  refine Tri.bind ((fetch_tr src .timestamp (.top .timestamp) _ _ _ s0.tuf (.timestamp src)).conseq
    (fun s hs => by subst hs; exact ⟨rfl, hs0⟩) (fun _ _ h => h.2) (fun _ _ h => h.2)) fun raw => ?_
  refine Tri.bind (clock_got _ _ _) fun clk => ?_
  exact finish_tr (.timestamp clk raw) .timestamp (.top .timestamp) raw s0.tuf (.timestamp clk raw) persist

/-- How the caller chooses between versioned and unversioned files. -/
def Chooses (t : Tuf) (src : Source) (consistent : Bool) : Prop :=
  (src = .cache ∧ consistent = false) ∨ (src = .remote ∧ consistent = t.root.consistentSnapshot)

theorem versionFor_eq {t : Tuf} {src : Source} {consistent : Bool} (h : Chooses t src consistent)
    (v : Nat) : versionFor consistent v = fileVersion t v src := by
  rcases h with ⟨rfl, rfl⟩ | ⟨rfl, rfl⟩ <;> rfl

theorem updateSnapshot_tr (src : Source) (persist consistent : Bool) :
    Tri (fun s : St W => Chooses s.tuf src consistent ∧ Tr E D cfg t0 L0 s)
      (updateSnapshotWithRepos E D R src persist consistent)
      (TrQ E D cfg t0 L0) (TrQ E D cfg t0 L0) := by
  refine Tri.fix fun s0 hs0 => ?_
  obtain ⟨hc, hs0⟩ := hs0
  unfold updateSnapshotWithRepos
  refine Tri.bind (Q := fun t s => t = s0.tuf ∧ s = s0) (fun s hs => by subst hs; exact ⟨rfl, rfl⟩)
    fun t => Tri.assume fun ht => ?_
  subst ht
  cases hts : s0.tuf.timestamp with
  | none => exact Tri.fail fun s hs => hs ▸ hs0
  | some ts =>
    refine Tri.ite (fun _ => Tri.ret fun s hs => hs ▸ hs0) fun hv => ?_
    refine Tri.bind (Q := fun p s => hashPreference ts.snapshot.hashes = .ok p ∧ s = s0)
      (Tri.ofExcept (fun p s hp hs => ⟨hp, hs⟩) (fun _ s _ hs => hs ▸ hs0)) fun p =>
      Tri.assume fun hp => ?_
    obtain ⟨a, v⟩ := p
    refine Tri.bind ((fetch_tr src .snapshot (.top .snapshot) _ _ _ s0.tuf ?_).conseq
      (fun s hs => by subst hs; exact ⟨rfl, hs0⟩) (fun _ _ h => h.2) (fun _ _ h => h.2)) fun raw => ?_
    · rw [versionFor_eq hc]
      refine .snapshot src ts a v hts ?_ (preferred_of hp)
      rw [← Tuf.snapshotVersion_eq]; omega
    · refine Tri.bind (clock_got _ _ _) fun clk => ?_
      exact finish_tr (.snapshot clk raw) .snapshot (.top .snapshot) raw s0.tuf (.snapshot clk raw)
        persist

theorem updateTargets_tr (src : Source) (persist consistent : Bool) :
    Tri (fun s : St W => Chooses s.tuf src consistent ∧ Tr E D cfg t0 L0 s)
      (updateTargetsWithRepos E D R src persist consistent)
      (TrQ E D cfg t0 L0) (TrQ E D cfg t0 L0) := by
  refine Tri.fix fun s0 hs0 => ?_
  obtain ⟨hc, hs0⟩ := hs0
  unfold updateTargetsWithRepos
  refine Tri.bind (Q := fun t s => t = s0.tuf ∧ s = s0) (fun s hs => by subst hs; exact ⟨rfl, rfl⟩)
    fun t => Tri.assume fun ht => ?_
  subst ht
  cases hsn : s0.tuf.snapshot with
  | none => exact Tri.fail fun s hs => hs ▸ hs0
  | some sn =>
    dsimp only
    cases hm : sn.metas.get? (MetadataPath.fromRole .targets) with
    | none => exact Tri.fail fun s hs => hs ▸ hs0
    | some m =>
      refine Tri.ite (fun _ => Tri.ret fun s hs => hs ▸ hs0) fun hv => ?_
      refine Tri.bind (Q := fun p s => hashPreference m.hashes = .ok p ∧ s = s0)
        (Tri.ofExcept (fun p s hp hs => ⟨hp, hs⟩) (fun _ s _ hs => hs ▸ hs0)) fun p =>
        Tri.assume fun hp => ?_
      obtain ⟨a, v⟩ := p
      refine Tri.bind ((fetch_tr src .targets (.top .targets) _ _ _ s0.tuf ?_).conseq
        (fun s hs => by subst hs; exact ⟨rfl, hs0⟩) (fun _ _ h => h.2) (fun _ _ h => h.2)) fun raw => ?_
      · rw [versionFor_eq hc]
        refine .targets src sn m a v hsn hm ?_ (preferred_of hp)
        rw [← Tuf.targetsVersion_eq]; omega
      · refine Tri.bind (clock_got _ _ _) fun clk => ?_
        exact finish_tr (.targets clk raw) .targets (.top .targets) raw s0.tuf (.targets clk raw)
          persist

theorem update_tr :
    Tri (fun s : St W => Tr E D cfg t0 L0 s) (update E D R cfg)
      (TrQ E D cfg t0 L0) (TrQ E D cfg t0 L0) := by
  unfold update
  refine Tri.bind (updateRoot_tr .remote true) fun r => ?_
  refine Tri.bind (updateTimestamp_tr .remote true) fun ts => ?_
  refine Tri.bind getTuf_tr fun t => ?_
  refine Tri.bind ((updateSnapshot_tr .remote true t.root.consistentSnapshot).pre
    (fun s hs => ⟨.inr ⟨rfl, by rw [hs.1]⟩, hs.2⟩)) fun sn => ?_
  refine Tri.bind getTuf_tr fun t => ?_
  refine Tri.bind ((updateTargets_tr .remote true t.root.consistentSnapshot).pre
    (fun s hs => ⟨.inr ⟨rfl, by rw [hs.1]⟩, hs.2⟩)) fun ta => ?_
  exact Tri.ret fun s hs => hs

theorem loadLocal_tr :
    Tri (fun s : St W => Tr E D cfg t0 L0 s) (loadLocal E D R cfg)
      (TrQ E D cfg t0 L0) (TrQ E D cfg t0 L0) := by
  unfold loadLocal
  refine Tri.bind (updateRoot_tr .cache false) fun r => ?_
  refine Tri.bind (updateTimestamp_tr .cache false) fun ts => ?_
  refine Tri.bind ((updateSnapshot_tr .cache false false).pre
    (fun s hs => ⟨.inl ⟨rfl, rfl⟩, hs⟩)) fun sn => ?_
  refine Tri.bind ((updateTargets_tr .cache false false).pre
    (fun s hs => ⟨.inl ⟨rfl, rfl⟩, hs⟩)) fun ta => ?_
  exact Tri.ret fun s hs => hs

/-- Assertion for lookups: the snapshot (and so the announced descriptions) stays the same. -/
abbrev TrS (E : Env) (D : Digest) (cfg : Config) (t0 : Tuf) (L0 : List LogEntry)
    (sn : SnapshotMetadata) (s : St W) : Prop := s.tuf.snapshot = some sn ∧ Tr E D cfg t0 L0 s

theorem delegation_keeps (E : Env) (t t' : Tuf) (clk : Clock) (parent role : MetadataPath)
    (raw : Bytes) (out : Tuf.Outcome) (h : Tuf.step E t (.delegation clk parent role raw) = (out, t')) :
    t'.root = t.root ∧ t'.timestamp = t.timestamp ∧ t'.snapshot = t.snapshot ∧
      t'.targets = t.targets := by
  simp only [Tuf.step] at h
  split at h <;> cases h <;> rename_i h
  · rw [Tuf.updateDelegation_error_state E clk _ _ _ _ _ _ h]; simp
  · obtain ⟨rfl, _⟩ := (Tuf.updateDelegation_false_iff ..).1 h; simp
  · obtain ⟨new, _, rfl⟩ := (Tuf.updateDelegation_true_iff ..).1 h; simp

theorem lookupLoop_tr (rec : Bool → TargetsMetadata → MetadataPath → M (St W) Found)
    (target : VirtualTargetPath) (sn : SnapshotMetadata)
    (hrec : ∀ b m r, Tri (fun s : St W => TrS E D cfg t0 L0 sn s) (rec b m r)
      (fun _ s => TrS E D cfg t0 L0 sn s) (fun _ s => TrS E D cfg t0 L0 sn s))
    (dflt : Bool) (parent : MetadataPath) (ds : List Delegation) :
    Tri (fun s : St W => TrS E D cfg t0 L0 sn s)
      (Client.lookupLoop E D R rec dflt target sn parent ds)
      (fun _ s => TrS E D cfg t0 L0 sn s) (fun _ s => TrS E D cfg t0 L0 sn s) := by
  induction ds with
  | nil => exact Tri.ret fun s hs => hs
  | cons d ds ih =>
    unfold Client.lookupLoop
    have stop : ∀ (x : Found), Tri (fun s : St W => TrS E D cfg t0 L0 sn s) (pure x : M (St W) Found)
        (fun _ s => TrS E D cfg t0 L0 sn s) (fun _ s => TrS E D cfg t0 L0 sn s) :=
      fun x => Tri.ret fun s hs => hs
    refine Tri.ite (fun _ => Tri.ite (fun _ => stop _) (fun _ => ih)) fun _ => ?_
    cases hm : sn.metas.get? d.role with
    | none => exact Tri.ite (fun _ => ih) (fun _ => stop _)
    | some m =>
      dsimp only
      cases hp : hashPreference m.hashes with
      | error e => exact stop _
      | ok p =>
        obtain ⟨a, v⟩ := p
        dsimp only
        refine Tri.bind (Q := fun t s => s.tuf = t ∧ TrS E D cfg t0 L0 sn s)
          (fun s hs => ⟨rfl, hs⟩) fun t => ?_
        refine Tri.fix fun s0 hs0 => ?_
        obtain ⟨rfl, hsn, hs0⟩ := hs0
        have hver : versionFor s0.tuf.root.consistentSnapshot m.version =
          fileVersion s0.tuf m.version .remote := rfl
        have tail : ∀ raw, Tri (fun s : St W => TrGot E D cfg t0 L0 (.delegated d.role) raw s0.tuf s)
            (do
              let clk ← getClock R
              match ← M.attempt (updateTuf E (.delegation clk parent d.role raw)) with
              | .ok _ =>
                let _ ← M.attempt (lift (storeMetadata R .targets d.role .none raw))
                let t ← getTuf
                match t.delegations.get? d.role with
                | none => M.fail .panic
                | some m =>
                  let (term, res) ← rec d.terminating m d.role
                  match res with
                  | .error e =>
                    if term then return (true, .error e)
                    else Client.lookupLoop E D R rec dflt target sn parent ds
                  | .ok _ => Client.lookupLoop E D R rec dflt target sn parent ds
              | .error e =>
                if !d.terminating then Client.lookupLoop E D R rec dflt target sn parent ds
                else return (true, .error e))
            (fun _ s => TrS E D cfg t0 L0 sn s) (fun _ s => TrS E D cfg t0 L0 sn s) := by
          intro raw
          refine Tri.bind (clock_got _ _ _) fun clk => ?_
          refine Tri.bind (Tri.attempt (submit_tr (.delegation clk parent d.role raw)
            (.delegated d.role) raw s0.tuf (.delegation clk parent d.role raw))
            (fun s h => ⟨(delegation_keeps E _ _ _ _ _ _ _ h.1).2.2.1.trans hsn, h.2⟩)) fun r => ?_
          cases r with
          | error e =>
            have keep : ∀ s : St W, (Tuf.step E s0.tuf (.delegation clk parent d.role raw) =
                (.failed e, s.tuf) ∧ Tr E D cfg t0 L0 s) → TrS E D cfg t0 L0 sn s := by
              rintro s ⟨h1, h2⟩
              exact ⟨(delegation_keeps E _ _ _ _ _ _ _ h1).2.2.1.trans hsn, h2⟩
            refine Tri.pre ?_ keep
            exact Tri.ite (fun _ => ih) (fun _ => stop _)
          | ok out =>
            refine Tri.fix ?_
            rintro s1 ⟨hnf, hstep, htr, hop⟩
            have hsn1 : s1.tuf.snapshot = some sn :=
              (delegation_keeps E _ _ _ _ _ _ _ hstep).2.2.1.trans hsn
            have hacc : Accepted (.delegation clk parent d.role raw) out := by
              cases out with
              | failed e => exact absurd rfl (hnf e)
              | changed => exact .inl rfl
              | unchanged => exact .inr ⟨rfl, _, _, _, _, rfl⟩
            have hst := store_tr (E := E) (D := D) (R := R) (cfg := cfg) (t0 := t0) (L0 := L0)
              .targets (.delegated d.role) .none raw s1.tuf (.inl rfl)
            refine Tri.bind (Q := fun _ s => TrS E D cfg t0 L0 sn s)
              ((Tri.attempt (hst.pre (P' := fun s => s = s1) ?_)
                (fun s h => ⟨by rw [h.1]; exact hsn1, h.2.tr⟩)).post ?_) fun _ => ?_
            · rintro s rfl; exact ⟨rfl, hop hacc⟩
            · intro r s h
              cases r <;> exact ⟨by rw [h.1]; exact hsn1, h.2.tr⟩
            · refine Tri.bind (Q := fun t s => TrS E D cfg t0 L0 sn s) (fun s hs => hs) fun t => ?_
              cases t.delegations.get? d.role with
              | none => exact Tri.fail fun s hs => hs
              | some md =>
                dsimp only
                refine Tri.bind (hrec _ _ _) fun x => ?_
                obtain ⟨term, res⟩ := x
                cases res with
                | error e => exact Tri.ite (fun _ => stop _) (fun _ => ih)
                | ok _ => exact ih
        refine Tri.bind (Tri.attempt ((fetch_tr .cache .targets (.delegated d.role) .none
          (some m.length) (some (a, v)) s0.tuf
          (.delegated .cache d.role sn m a v hsn hm (preferred_of hp))).pre
          (P' := fun s => s = s0) (by rintro s rfl; exact ⟨rfl, hs0⟩))
          (fun s hs => ⟨by rw [hs.1]; exact hsn, hs.2⟩)) fun r => ?_
        cases r with
        | ok raw =>
          refine Tri.bind (Q := fun r s => r = .ok raw ∧ TrGot E D cfg t0 L0 (.delegated d.role) raw s0.tuf s)
            (Tri.ret' fun s hs => ⟨rfl, hs.2⟩) fun r => Tri.assume ?_
          rintro rfl
          exact tail raw
        | error e =>
          dsimp only
          refine Tri.bind (Tri.attempt (fetch_tr .remote .targets (.delegated d.role) _
            (some m.length) (some (a, v)) s0.tuf
            (.delegated .remote d.role sn m a v hsn hm (preferred_of hp)))
            (fun s hs => ⟨by rw [hs.1]; exact hsn, hs.2⟩)) fun r => ?_
          cases r with
          | ok raw => exact (tail raw).pre fun s hs => hs.2
          | error e =>
            refine Tri.pre (P := fun s => TrS E D cfg t0 L0 sn s) ?_
              (fun s hs => ⟨by rw [hs.1]; exact hsn, hs.2⟩)
            exact Tri.ite (fun _ => ih) (fun _ => stop _)

theorem lookupIn_tr (target : VirtualTargetPath) (sn : SnapshotMetadata) (rem : Nat) :
    ∀ b m r, Tri (fun s : St W => TrS E D cfg t0 L0 sn s) (lookupIn E D R target sn rem b m r)
      (fun _ s => TrS E D cfg t0 L0 sn s) (fun _ s => TrS E D cfg t0 L0 sn s) := by
  induction rem with
  | zero => intro b m r; exact Tri.ret fun s hs => hs
  | succ rem ih =>
    intro b m r
    unfold lookupIn
    split
    · exact Tri.ret fun s hs => hs
    · split
      · exact Tri.ret fun s hs => hs
      · exact lookupLoop_tr _ target sn ih _ _ _

theorem fetchTargetDescription_tr (target : TargetPath) :
    Tri (fun s : St W => Tr E D cfg t0 L0 s) (fetchTargetDescription E D R cfg target)
      (TrQ E D cfg t0 L0) (TrQ E D cfg t0 L0) := by
  unfold fetchTargetDescription
  refine Tri.bind (Q := fun _ s => Tr E D cfg t0 L0 s)
    (Tri.ofExcept (fun _ _ _ hs => hs) (fun _ _ _ hs => hs)) fun virt => ?_
  refine Tri.bind getTuf_tr fun t => ?_
  cases hsn : t.snapshot with
  | none => exact Tri.fail fun s hs => hs.2
  | some sn =>
    cases t.targets with
    | none => exact Tri.fail fun s hs => hs.2
    | some ta =>
      dsimp only
      refine Tri.bind ((lookupIn_tr virt sn _ _ _ _).conseq
        (fun s hs => ⟨by rw [hs.1]; exact hsn, hs.2⟩) (fun _ _ h => h.2) (fun _ _ h => h.2)) fun x => ?_
      exact Tri.ofExcept (fun _ _ _ hs => hs) (fun _ _ _ hs => hs)

theorem note_tr (e : LogEntry) (he : ∀ t pre, Next E D cfg t pre e) (hop : opsOf [e] = []) (t : Tuf) :
    Tri (fun s : St W => s.tuf = t ∧ Tr E D cfg t0 L0 s) (lift (Io.note e))
      (fun _ s => s.tuf = t ∧ Tr E D cfg t0 L0 s) (fun _ s => s.tuf = t ∧ Tr E D cfg t0 L0 s) := by
  rintro s ⟨ht, l, h1, h2, h3⟩
  refine ⟨ht, l ++ [e], ?_, h2.snoc (he _ _), ?_⟩
  · show s.io.log ++ [e] = _
    rw [h1]; simp
  · show s.tuf = _
    rw [after_append, ← h3]
    simp [after, hop, Tuf.run]

/-- Entries about targets say nothing about metadata. -/
theorem Tr.grow {s s' : St W} (h : Tr E D cfg t0 L0 s) (es : List LogEntry)
    (hes : ∀ e ∈ es, (∃ p, e = .fetchTarget p) ∨ (∃ p, e = .storeTarget p) ∨ ∃ b, e = .wrote b)
    (h1 : s'.tuf = s.tuf) (h2 : s'.io.log = s.io.log ++ es) : Tr E D cfg t0 L0 s' := by
  obtain ⟨l, e1, e2, e3⟩ := h
  refine ⟨l ++ es, by rw [h2, e1, List.append_assoc], ?_, ?_⟩
  · clear h1 h2 e1 e3
    induction es using List.reverseRecOn with
    | nil => simpa using e2
    | append_singleton es e ih =>
      rw [← List.append_assoc]
      refine (ih fun x hx => hes x (by simp [hx])).snoc ?_
      rcases hes e (by simp) with ⟨p, rfl⟩ | ⟨p, rfl⟩ | ⟨b, rfl⟩ <;> trivial
  · rw [h1, e3, after_append]
    have : opsOf es = [] := by
      clear h1 h2
      induction es with
      | nil => rfl
      | cons e es ih =>
        have := ih fun x hx => hes x (by simp [hx])
        rcases hes e (by simp) with ⟨p, rfl⟩ | ⟨p, rfl⟩ | ⟨b, rfl⟩ <;> simpa [opsOf] using this
    show _ = Tuf.run E _ (opsOf es)
    rw [this]; rfl

/-- Code of the outside world that only adds entries about targets. -/
theorem grow_tr {α : Type} (m : M (Io W) α)
    (hm : ∀ io, ∃ es, (m io).2.log = io.log ++ es ∧
      ∀ e ∈ es, (∃ p, e = .fetchTarget p) ∨ (∃ p, e = .storeTarget p) ∨ ∃ b, e = .wrote b) (t : Tuf) :
    Tri (fun s : St W => s.tuf = t ∧ Tr E D cfg t0 L0 s) (lift m)
      (fun _ s => s.tuf = t ∧ Tr E D cfg t0 L0 s) (fun _ s => s.tuf = t ∧ Tr E D cfg t0 L0 s) := by
  rintro s ⟨h1, h2⟩
  obtain ⟨es, h3, h4⟩ := hm s.io
  unfold lift
  cases hms : m s.io with
  | mk r io' =>
    rw [hms] at h3
    have : s.tuf = t ∧ Tr E D cfg t0 L0 ({ s with io := io' } : St W) :=
      ⟨h1, h2.grow es h4 rfl h3⟩
    cases r <;> exact this

theorem fetchTargetStream_grow (path : TargetPath) (descr : TargetDescription) (io : Io W) :
    ∃ es, (fetchTargetStream D R path descr io).2.log = io.log ++ es ∧
      ∀ e ∈ es, (∃ p, e = .fetchTarget p) ∨ (∃ p, e = .storeTarget p) ∨ ∃ b, e = .wrote b := by
  have key : Tri (fun s : Io W => s.log = io.log) (fetchTargetStream D R path descr)
      (fun _ s => s.log = io.log ++ [.fetchTarget path])
      (fun _ s => s.log = io.log ∨ s.log = io.log ++ [.fetchTarget path]) := by
    unfold fetchTargetStream
    refine Tri.bind (Q := fun _ s => s.log = io.log)
      (Tri.ofExcept (fun _ _ _ hs => hs) (fun _ _ _ hs => .inl hs)) fun p => ?_
    obtain ⟨a, v⟩ := p
    refine Tri.bind (Q := fun _ s => s.log = io.log ++ [.fetchTarget path])
      (note_tri _ (fun s hs => by simp [hs])) fun _ => ?_
    refine Tri.bind ((call_log _ _).conseq (fun _ h => h) (fun _ _ h => h) (fun _ _ h => .inr h))
      fun evs => ?_
    refine Tri.bind (Q := fun _ s => s.log = io.log ++ [.fetchTarget path])
      (Tri.ofExcept (fun _ _ _ hs => hs) (fun _ _ _ hs => .inr hs)) fun p => ?_
    exact Tri.ret fun s hs => hs
  have := key io rfl
  cases h : fetchTargetStream D R path descr io with
  | mk r io' =>
    rw [h] at this
    cases r with
    | ok _ => exact ⟨_, this, by simp⟩
    | error _ =>
      rcases this with this | this
      · exact ⟨[], by simpa using this, by simp⟩
      · exact ⟨_, this, by simp⟩

theorem storeTarget_grow (stream : List Ev) (path : TargetPath) (io : Io W) :
    ∃ es, (storeTarget R stream path io).2.log = io.log ++ es ∧
      ∀ e ∈ es, (∃ p, e = .fetchTarget p) ∨ (∃ p, e = .storeTarget p) ∨ ∃ b, e = .wrote b := by
  refine ⟨[.storeTarget path], ?_, by simp⟩
  have key : Tri (fun s : Io W => s.log = io.log) (storeTarget R stream path)
      (fun _ s => s.log = io.log ++ [.storeTarget path])
      (fun _ s => s.log = io.log ++ [.storeTarget path]) := by
    unfold storeTarget
    refine Tri.bind (Q := fun _ s => s.log = io.log ++ [.storeTarget path])
      (note_tri _ (fun s hs => by simp [hs])) fun _ => ?_
    exact call_log _ _
  have := key io rfl
  cases h : storeTarget R stream path io with
  | mk r io' => rw [h] at this; cases r <;> exact this

theorem copyToWriter_grow (stream : List Ev) : ∀ io : Io W,
    ∃ bs : List Bytes, (copyToWriter R stream io).2.log = io.log ++ bs.map .wrote := by
  induction stream with
  | nil =>
    intro io
    refine ⟨[], ?_⟩
    simp only [copyToWriter]
    split <;> simp
  | cons ev evs ih =>
    intro io
    cases ev with
    | pending => exact ih io
    | err k => exact ⟨[], by simp [copyToWriter, M.fail]⟩
    | data bs =>
      simp only [copyToWriter]
      split
      · refine ⟨[], ?_⟩; split <;> simp
      · split
        · obtain ⟨bss, h⟩ := ih { w := _, log := io.log ++ [.wrote bs] }
          exact ⟨bs :: bss, by rw [h]; simp⟩
        · exact ⟨[], by simp⟩

theorem fetchTargetReader_tr (target : TargetPath) :
    Tri (fun s : St W => Tr E D cfg t0 L0 s) (fetchTargetReader E D R cfg target)
      (TrQ E D cfg t0 L0) (TrQ E D cfg t0 L0) := by
  unfold fetchTargetReader
  refine Tri.bind (fetchTargetDescription_tr target) fun d => ?_
  refine Tri.bind getTuf_tr fun t => ?_
  have get : ∀ p, Tri (fun s : St W => s.tuf = t ∧ Tr E D cfg t0 L0 s)
      (lift (fetchTargetStream D R p d)) (TrQ E D cfg t0 L0) (TrQ E D cfg t0 L0) := fun p =>
    (grow_tr _ (fetchTargetStream_grow p d) t).conseq (fun _ h => h) (fun _ _ h => h.2)
      (fun _ _ h => h.2)
  refine Tri.ite (fun _ => ?_) fun _ => get _
  refine Tri.bind (Q := fun _ s => s.tuf = t ∧ Tr E D cfg t0 L0 s)
    (Tri.ofExcept (fun _ _ _ hs => hs) (fun _ _ _ hs => hs.2)) fun p => ?_
  obtain ⟨a, v⟩ := p
  refine Tri.bind (Q := fun _ s => s.tuf = t ∧ Tr E D cfg t0 L0 s)
    (Tri.ofExcept (fun _ _ _ hs => hs) (fun _ _ _ hs => hs.2)) fun p => get _

theorem fetchTarget_tr (target : TargetPath) :
    Tri (fun s : St W => Tr E D cfg t0 L0 s) (fetchTarget E D R cfg target)
      (TrQ E D cfg t0 L0) (TrQ E D cfg t0 L0) := by
  unfold fetchTarget
  refine Tri.bind (fetchTargetReader_tr target) fun stream => Tri.fix fun s0 hs0 => ?_
  exact (grow_tr _ (storeTarget_grow stream target) s0.tuf).conseq
    (by rintro s rfl; exact ⟨rfl, hs0⟩) (fun _ _ h => h.2) (fun _ _ h => h.2)

theorem fetchTargetToWriter_tr (target : TargetPath) :
    Tri (fun s : St W => Tr E D cfg t0 L0 s) (fetchTargetToWriter E D R cfg target)
      (TrQ E D cfg t0 L0) (TrQ E D cfg t0 L0) := by
  unfold fetchTargetToWriter
  refine Tri.bind (fetchTargetReader_tr target) fun stream => Tri.fix fun s0 hs0 => ?_
  refine (grow_tr _ (fun io => ?_) s0.tuf).conseq
    (by rintro s rfl; exact ⟨rfl, hs0⟩) (fun _ _ h => h.2) (fun _ _ h => h.2)
  obtain ⟨bs, h⟩ := copyToWriter_grow (R := R) stream io
  exact ⟨_, h, by simp⟩

theorem exec_tr (c : Call) :
    Tri (fun s : St W => Tr E D cfg t0 L0 s) (exec E D R cfg c)
      (TrQ E D cfg t0 L0) (TrQ E D cfg t0 L0) := by
  cases c with
  | update => exact Tri.bind update_tr fun _ => Tri.ret fun s hs => hs
  | fetchTarget p => exact Tri.bind (fetchTarget_tr p) fun _ => Tri.ret fun s hs => hs
  | fetchTargetToWriter p => exact Tri.bind (fetchTargetToWriter_tr p) fun _ => Tri.ret fun s hs => hs
  | fetchTargetDescription p =>
    exact Tri.bind (fetchTargetDescription_tr p) fun _ => Tri.ret fun s hs => hs

theorem execAll_tr (calls : List Call) : ∀ s : St W, Tr E D cfg t0 L0 s →
    Tr E D cfg t0 L0 (execAll E D R cfg s calls) := by
  induction calls with
  | nil => intro s hs; exact hs
  | cons c cs ih =>
    intro s hs
    refine ih _ ?_
    have := exec_tr (R := R) c s hs
    show Tr E D cfg t0 L0 (exec E D R cfg c s).2
    cases h : exec E D R cfg c s with
    | mk r s' => rw [h] at this; cases r <;> exact this

theorem new_tr (t : Tuf) (io : Io W) (h : Tr E D cfg t0 L0 (⟨t, io⟩ : St W)) (t' : Tuf) (io' : Io W)
    (hn : Client.new E D R cfg t io = (.ok t', io')) : Tr E D cfg t0 L0 (⟨t', io'⟩ : St W) := by
  unfold Client.new at hn
  have hl := loadLocal_tr (R := R) _ h
  cases hh : loadLocal E D R cfg { tuf := t, io := io } with
  | mk r s =>
    rw [hh] at hl hn
    cases r with
    | ok _ => cases hn; exact hl
    | error e => cases e <;> cases hn <;> exact hl

end client

end RustTuf
