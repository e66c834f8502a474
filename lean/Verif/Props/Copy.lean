import Verif.Spec.Copy
import Verif.Model.Client
import Verif.Props.Chunks

/-! C117: copying to the caller's writer, however it takes the bytes. -/

namespace RustTuf.Props
open Spec Client

variable {W : Type}

/-! ## What holds in between -/

/-- What holds between two turns of the loop. -/
structure CopyInv (evs : List Ev) (rem : Bool) (c : Copying W) : Prop where
  ok : rem = true ∨ NoneAfterEnd evs
  going : c.ended = false → delivered evs = (c.got ++ c.buf ++ (delivered c.rest).1, (delivered c.rest).2) ∧
    afterEnd evs = afterEnd c.rest
  ended : c.ended = true → c.buf = [] ∧ delivered evs = (c.got, .eof) ∧ c.rest <:+ afterEnd evs

theorem CopyInv.start {evs : List Ev} {rem : Bool} (h : rem = true ∨ NoneAfterEnd evs) (w : W) :
    CopyInv evs rem (Copying.start evs w) :=
  ⟨h, fun _ => ⟨by simp [Copying.start], rfl⟩, fun h' => by simp [Copying.start] at h'⟩

theorem CopyInv.prefix {evs : List Ev} {rem : Bool} {c : Copying W} (h : CopyInv evs rem c) :
    c.got <+: (delivered evs).1 := by
  cases he : c.ended with
  | false =>
    rw [(h.going he).1, List.append_assoc]
    exact List.prefix_append ..
  | true => rw [(h.ended he).2.1]; exact List.prefix_rfl

/-- What may be said of a turn. -/
def TurnOk (P : PollWriter W) (evs : List Ev) (rem : Bool) : Option (Except IoKind Nat) × Copying W → Prop
  | (none, c) => CopyInv evs rem c
  | (some (.ok k), c) => delivered evs = (c.got, .eof) ∧ k = c.amt ∧
      ∃ w, P.pollFlush w = (.ready (.ok ()), c.w)
  | (some (.error k), c) => delivered evs = (c.got, .error k) ∨
      (rem = false ∧ delivered evs = (c.got, .eof) ∧ .err k ∈ afterEnd evs) ∨
      c.got <+: (delivered evs).1 ∧ WriterFailed P k c.w

theorem flush_ok (P : PollWriter W) {evs : List Ev} {rem : Bool} {c : Copying W}
    (h : CopyInv evs rem c) (he : c.ended = true) : TurnOk P evs rem (c.flush P) := by
  obtain ⟨hb, hd, hr⟩ := h.ended he
  unfold Copying.flush
  rcases hp : P.pollFlush c.w with ⟨a, w'⟩
  rcases a with _ | (k | u)
  · exact ⟨h.ok, fun h' => by simp [he] at h', fun _ => ⟨hb, hd, hr⟩⟩
  · exact .inr (.inr ⟨h.prefix, .flush hp⟩)
  · exact ⟨hd, rfl, _, hp⟩

theorem step_ok (P : PollWriter W) {evs : List Ev} {rem : Bool} {c : Copying W}
    (h : CopyInv evs rem c) : TurnOk P evs rem (c.step P rem) := by
  unfold Copying.step
  by_cases hb : c.buf = []
  · rw [if_pos hb]
    by_cases hm : (rem && c.ended) = true
    · rw [if_pos hm]
      simp only [Bool.and_eq_true] at hm
      exact flush_ok P h hm.2
    · rw [if_neg hm]
      have atEnd : ∀ evs', delivered evs = (c.got, .eof) → evs' <:+ afterEnd evs →
          TurnOk P evs rem (Copying.flush P { c with rest := evs', ended := true }) := fun evs' hd hr =>
        flush_ok P (c := { c with rest := evs', ended := true })
          ⟨h.ok, fun h' => by simp at h', fun _ => ⟨hb, hd, hr⟩⟩ rfl
      cases he : c.ended with
      | true =>
        obtain ⟨_, hd, hr⟩ := h.ended he
        have hm' : rem = false := by cases rem with
          | false => rfl
          | true => simp [he] at hm
        have hn : NoneAfterEnd evs := h.ok.resolve_left (by simp [hm'])
        cases hc : c.rest with
        | nil =>
          have := atEnd c.rest hd hr
          simpa only [hc] using this
        | cons e evs' =>
          rw [hc] at hr
          have hq : evs' <:+ afterEnd evs := (List.suffix_cons e evs').trans hr
          have hin : e ∈ afterEnd evs := hr.subset (List.mem_cons_self ..)
          cases e with
          | pending => exact ⟨h.ok, fun h' => by simp at h', fun _ => ⟨hb, hd, hq⟩⟩
          | err k => exact .inr (.inl ⟨hm', hd, hin⟩)
          | data bs =>
            obtain rfl := hn bs hin
            simp only [if_true]
            exact atEnd evs' hd hq
      | false =>
        obtain ⟨hd, h3⟩ := h.going he
        rw [hb, List.append_nil] at hd
        cases hc : c.rest with
        | nil =>
          simp only
          rw [hc] at hd
          have := atEnd [] (by simpa [delivered] using hd) (List.nil_suffix ..)
          simpa only [hc] using this
        | cons e evs' =>
          rw [hc] at hd h3
          cases e with
          | pending =>
            exact ⟨h.ok, fun _ => ⟨by rw [hd, hb]; simp [delivered], by rw [h3]; simp [afterEnd]⟩,
              fun h' => by simp at h'⟩
          | err k => exact .inl (by simpa [delivered] using hd)
          | data bs =>
            simp only
            by_cases hbs : bs = []
            · rw [if_pos hbs]
              subst hbs
              exact atEnd evs' (by simpa [delivered] using hd) (by rw [h3]; simp [afterEnd])
            · rw [if_neg hbs]
              exact ⟨h.ok, fun _ => ⟨by rw [hd]; simp [delivered, hbs], by rw [h3]; simp [afterEnd, hbs]⟩,
                fun h' => by simp at h'⟩
  · rw [if_neg hb]
    have he : c.ended = false := by
      cases he : c.ended with
      | false => rfl
      | true => exact absurd (h.ended he).1 hb
    obtain ⟨h1, h3⟩ := h.going he
    rcases hp : P.pollWrite c.buf c.w with ⟨a, w'⟩
    rcases a with _ | (k | (_ | n))
    · exact ⟨h.ok, fun _ => ⟨h1, h3⟩, fun h' => by simp [he] at h'⟩
    · exact .inr (.inr ⟨h.prefix, .write hb hp⟩)
    · exact .inr (.inr ⟨h.prefix, .zero hb hp⟩)
    · refine ⟨h.ok, fun _ => ⟨?_, h3⟩, fun h' => by simp [he] at h'⟩
      simp only
      rw [h1, List.append_assoc c.got (List.take _ _) (List.drop _ _), List.take_append_drop]

theorem run_ok (P : PollWriter W) {evs : List Ev} {rem : Bool} (n : Nat) : ∀ {c : Copying W},
    CopyInv evs rem c → TurnOk P evs rem (c.run P rem n) := by
  induction n with
  | zero => exact fun h => h
  | succ n ih =>
    intro c h
    have h1 := step_ok P h
    unfold Copying.run
    rcases hs : c.step P rem with ⟨r, c'⟩
    rw [hs] at h1
    cases r with
    | some r => exact h1
    | none => exact ih h1

theorem step_amt (P : PollWriter W) (hP : TruthfulWriter P) (rem : Bool) {c : Copying W}
    (h : c.amt = c.got.length) : (c.step P rem).2.amt = (c.step P rem).2.got.length := by
  have fl : ∀ c : Copying W, c.amt = c.got.length → (c.flush P).2.amt = (c.flush P).2.got.length := by
    intro c h
    unfold Copying.flush
    rcases P.pollFlush c.w with ⟨_ | (k | u), w'⟩ <;> exact h
  unfold Copying.step
  by_cases hb : c.buf = []
  · rw [if_pos hb]
    by_cases hm : (rem && c.ended) = true
    · rw [if_pos hm]; exact fl c h
    · rw [if_neg hm]
      cases hc : c.rest with
      | nil => simpa only [hc] using fl { c with ended := true } h
      | cons e evs' =>
        cases e with
        | pending => exact h
        | err k => exact h
        | data bs =>
          simp only
          by_cases hbs : bs = []
          · rw [if_pos hbs]; exact fl { c with rest := evs', ended := true } h
          · rw [if_neg hbs]; exact h
  · rw [if_neg hb]
    rcases hp : P.pollWrite c.buf c.w with ⟨a, w'⟩
    rcases a with _ | (k | (_ | n))
    · exact h
    · exact h
    · exact h
    · have := hP _ _ _ _ hp
      simp only [List.length_append, List.length_take, h]
      omega

theorem run_amt (P : PollWriter W) (hP : TruthfulWriter P) (rem : Bool) (n : Nat) : ∀ {c : Copying W},
    c.amt = c.got.length → (c.run P rem n).2.amt = (c.run P rem n).2.got.length := by
  induction n with
  | zero => exact fun h => h
  | succ n ih =>
    intro c h
    have h1 := step_amt P hP rem h
    unfold Copying.run
    rcases hs : c.step P rem with ⟨r, c'⟩
    rw [hs] at h1
    cases r with
    | some r => exact h1
    | none => exact ih h1

/-! ## The theorems -/

/-- At every moment, also when the caller drops the future or the copying fails, the bytes the writer
has taken are the first ones the reader delivers, in order, none left out and none repeated. -/
theorem C117_in_order (P : PollWriter W) (rem : Bool) (evs : List Ev)
    (hr : rem = true ∨ NoneAfterEnd evs) (w : W) (n : Nat) :
    ((Copying.start evs w).run P rem n).2.got <+: (delivered evs).1 := by
  have h := run_ok P n (CopyInv.start hr w)
  rcases hs : (Copying.start evs w).run P rem n with ⟨r, c⟩
  rw [hs] at h
  rcases r with _ | (k | k)
  · exact h.prefix
  · rcases h with h | h | h
    · rw [h]; exact List.prefix_rfl
    · rw [h.2.1]; exact List.prefix_rfl
    · exact h.1
  · rw [h.1]; exact List.prefix_rfl

/-- Copying succeeds only when the reader has delivered everything without an error, the writer has taken
all of it, however it took it, and has been flushed after the last byte. -/
theorem C117_success (P : PollWriter W) (rem : Bool) (evs : List Ev)
    (hr : rem = true ∨ NoneAfterEnd evs) (w : W) (n k : Nat) (c : Copying W)
    (h : (Copying.start evs w).run P rem n = (some (.ok k), c)) :
    delivered evs = (c.got, .eof) ∧ (TruthfulWriter P → k = c.got.length) ∧
      ∃ w', P.pollFlush w' = (.ready (.ok ()), c.w) := by
  have h1 := run_ok P n (CopyInv.start hr w)
  have h2 := fun hP => run_amt P hP rem n (c := Copying.start evs w) rfl
  rw [h] at h1 h2
  exact ⟨h1.1, fun hP => h1.2.1.trans (h2 hP), h1.2.2⟩

/-- It fails only with an error of the reader, when the writer has taken everything before the error, or
with one of the writer. If `copy` does not remember the end of the reader, the reader may also report an
error after its end, while the writer is being flushed; the writer has taken everything then. -/
theorem C117_failure (P : PollWriter W) (rem : Bool) (evs : List Ev)
    (hr : rem = true ∨ NoneAfterEnd evs) (w : W) (n : Nat) (k : IoKind) (c : Copying W)
    (h : (Copying.start evs w).run P rem n = (some (.error k), c)) :
    delivered evs = (c.got, .error k) ∨ WriterFailed P k c.w ∨
      rem = false ∧ delivered evs = (c.got, .eof) ∧ .err k ∈ afterEnd evs := by
  have h1 := run_ok P n (CopyInv.start hr w)
  rw [h] at h1
  rcases h1 with h1 | h1 | h1
  · exact .inl h1
  · exact .inr (.inr h1)
  · exact .inr (.inl h1.2)

/-! ## Large steps -/

theorem run_succ (P : PollWriter W) (rem : Bool) (n : Nat) (c : Copying W) : c.run P rem (n + 1) =
    match c.step P rem with
    | (some r, c') => (some r, c')
    | (none, c') => c'.run P rem n := rfl

theorem run_add (P : PollWriter W) (rem : Bool) (a b : Nat) : ∀ {c c' : Copying W},
    c.run P rem a = (none, c') → c.run P rem (a + b) = c'.run P rem b := by
  induction a with
  | zero =>
    intro c c' h
    simp only [Copying.run, Prod.mk.injEq, true_and] at h
    rw [Nat.zero_add, h]
  | succ a ih =>
    intro c c' h
    rw [Nat.add_right_comm, run_succ]
    rw [run_succ] at h
    rcases hs : c.step P rem with ⟨_ | r, c1⟩ <;> rw [hs] at h
    · exact ih h
    · simp at h

theorem run_more (P : PollWriter W) (rem : Bool) (a b : Nat) : ∀ {c c' : Copying W} {r : Except IoKind Nat},
    c.run P rem a = (some r, c') → c.run P rem (a + b) = (some r, c') := by
  induction a with
  | zero => intro c c' r h; simp [Copying.run] at h
  | succ a ih =>
    intro c c' r h
    rw [Nat.add_right_comm, run_succ]
    rw [run_succ] at h
    rcases hs : c.step P rem with ⟨_ | r', c1⟩ <;> rw [hs] at h
    · exact ih h
    · exact h

theorem run_unique (P : PollWriter W) (rem : Bool) {a b : Nat} {c c1 c2 : Copying W}
    {r1 r2 : Except IoKind Nat} (h1 : c.run P rem a = (some r1, c1)) (h2 : c.run P rem b = (some r2, c2)) :
    r1 = r2 ∧ c1 = c2 := by
  have e1 := run_more P rem a b h1
  have e2 := run_more P rem b a h2
  rw [Nat.add_comm] at e2
  rw [e1] at e2
  simpa using e2

/-- Copying ends with this result. -/
def Ends (P : PollWriter W) (rem : Bool) (c : Copying W) (r : Except IoKind Nat) (c' : Copying W) : Prop :=
  ∃ n, c.run P rem n = (some r, c')

theorem Ends.step {P : PollWriter W} {rem : Bool} {c c1 c' : Copying W} {r : Except IoKind Nat}
    (h : c.step P rem = (none, c1)) (h' : Ends P rem c1 r c') : Ends P rem c r c' := by
  obtain ⟨n, hn⟩ := h'
  exact ⟨n + 1, by unfold Copying.run; rw [h]; exact hn⟩

theorem Ends.last {P : PollWriter W} {rem : Bool} {c c' : Copying W} {r : Except IoKind Nat}
    (h : c.step P rem = (some r, c')) : Ends P rem c r c' :=
  ⟨1, by unfold Copying.run; rw [h]⟩

/-- After the writer has taken some bytes. -/
def _root_.RustTuf.Copying.took (c : Copying W) (n : Nat) (w' : W) : Copying W :=
  { c with w := w', buf := c.buf.drop (n + 1), amt := c.amt + (n + 1), got := c.got ++ c.buf.take (n + 1) }

/-- The writer takes the buffer. -/
theorem ends_write {P : PollWriter W} (rem : Bool) {bs : Bytes} {w w' : W} {r : Except IoKind Unit}
    (h : WritesAll P bs w r w') : ∀ c : Copying W, c.buf = bs → c.w = w →
      (r = .ok () → ∃ amt, ∀ r' c', Ends P rem { c with buf := [], w := w', amt := amt, got := c.got ++ bs } r' c' →
        Ends P rem c r' c') ∧
      (∀ k, r = .error k → ∃ c', Ends P rem c (.error k) c' ∧ c'.w = w' ∧ c.got <+: c'.got) := by
  induction h with
  | done =>
    rintro c hb rfl
    refine ⟨fun _ => ⟨c.amt, fun r' c' h => ?_⟩, fun k hk => by simp at hk⟩
    have : c = { c with buf := [], w := c.w, amt := c.amt, got := c.got ++ [] } := by
      rcases c with ⟨_, _, _, _, _, _⟩; simp_all
    rw [this]; exact h
  | @wait bs w w1 r w2 hne hp _ ih =>
    rintro c rfl rfl
    have hs : c.step P rem = (none, { c with w := w1 }) := by
      unfold Copying.step; rw [if_neg hne, hp]
    obtain ⟨i1, i2⟩ := ih { c with w := w1 } rfl rfl
    refine ⟨fun hr => ?_, fun k hk => ?_⟩
    · obtain ⟨amt, i1⟩ := i1 hr
      exact ⟨amt, fun r' c' h => .step hs (i1 r' c' h)⟩
    · obtain ⟨c', j1, j2⟩ := i2 k hk
      exact ⟨c', .step hs j1, j2⟩
  | @some bs w n w1 r w2 hne hp hn _ ih =>
    rintro c rfl rfl
    obtain ⟨n, rfl⟩ := Nat.exists_eq_succ_of_ne_zero hn
    have hs : c.step P rem = (none, c.took n w1) := by
      unfold Copying.step; rw [if_neg hne, hp]; rfl
    obtain ⟨i1, i2⟩ := ih (c.took n w1) rfl rfl
    refine ⟨fun hr => ?_, fun k hk => ?_⟩
    · obtain ⟨amt, i1⟩ := i1 hr
      refine ⟨amt, fun r' c' h => .step hs (i1 r' c' ?_)⟩
      simpa [Copying.took, List.take_append_drop] using h
    · obtain ⟨c', j1, j2, j3⟩ := i2 k hk
      exact ⟨c', .step hs j1, j2, (List.prefix_append ..).trans j3⟩
  | @zero bs w w1 hne hp =>
    rintro c rfl rfl
    refine ⟨fun h => by simp at h, fun k hk => ?_⟩
    simp only [Except.error.injEq] at hk
    subst hk
    exact ⟨{ c with w := w1 }, .last (by unfold Copying.step; rw [if_neg hne, hp]), rfl, List.prefix_rfl⟩
  | @fail bs w k w1 hne hp =>
    rintro c rfl rfl
    refine ⟨fun h => by simp at h, fun k hk => ?_⟩
    simp only [Except.error.injEq] at hk
    subst hk
    exact ⟨{ c with w := w1 }, .last (by unfold Copying.step; rw [if_neg hne, hp]), rfl, List.prefix_rfl⟩

/-- The reader is at its end and stays there. -/
structure AtEnd (rem : Bool) (c : Copying W) : Prop where
  buf : c.buf = []
  ended : c.ended = true
  quiet : rem = true ∨ ∀ e ∈ c.rest, e = .data [] ∨ e = .pending

/-- The end of copying once the writer is being flushed. -/
theorem ends_flush {P : PollWriter W} (rem : Bool) {w w' : W} {r : Except IoKind Unit}
    (h : FlushesAll P w r w') : ∀ c : Copying W, AtEnd rem c → c.w = w → ∀ c0 : Copying W,
      c0.step P rem = c.flush P →
      ∃ c', Ends P rem c0 (r.map fun _ => c.amt) c' ∧ c'.w = w' ∧ c'.got = c.got := by
  induction h with
  | @done w r w1 hp =>
    rintro c hc rfl c0 h0
    refine ⟨{ c with w := w1 }, .last ?_, rfl, rfl⟩
    rw [h0]
    unfold Copying.flush
    rw [hp]
    rcases r with k | ⟨⟩ <;> rfl
  | @wait w w1 r w2 hp _ ih =>
    rintro c hc rfl c0 h0
    have hs : c0.step P rem = (none, { c with w := w1 }) := by
      rw [h0]; unfold Copying.flush; rw [hp]
    suffices H : ∃ c', Ends P rem { c with w := w1 } (r.map fun _ => c.amt) c' ∧ c'.w = w2 ∧ c'.got = c.got by
      obtain ⟨c', j1, j2⟩ := H
      exact ⟨c', .step hs j1, j2⟩
    have go : ∀ (l : List Ev), (rem = true ∨ ∀ e ∈ l, e = .data [] ∨ e = .pending) →
        ∃ c', Ends P rem { c with w := w1, rest := l } (r.map fun _ => c.amt) c' ∧ c'.w = w2 ∧
          c'.got = c.got := by
      intro l
      induction l with
      | nil =>
        intro _
        refine ih { c with w := w1, rest := [] } ⟨hc.buf, hc.ended, .inr (by simp)⟩ rfl _ ?_
        have e : ({ c with w := w1, rest := [] } : Copying W) =
            { c with w := w1, rest := [], ended := true } := by
          rw [← hc.ended]
        unfold Copying.step
        rw [if_pos hc.buf]
        split
        · rfl
        · simp only [hc.ended]
      | cons e l ihl =>
        intro hq
        rcases hrem : rem with _ | _
        · subst hrem
          have hq' := hq.resolve_left (by simp)
          have hql : ∀ e ∈ l, e = .data [] ∨ e = .pending := fun x hx => hq' x (List.mem_cons_of_mem _ hx)
          rcases hq' e (List.mem_cons_self ..) with rfl | rfl
          · refine ih { c with w := w1, rest := l } ⟨hc.buf, hc.ended, .inr hql⟩ rfl _ ?_
            unfold Copying.step
            rw [if_pos hc.buf]
            simp [hc.ended]
          · obtain ⟨c', j1, j2⟩ := ihl (.inr hql)
            refine ⟨c', .step ?_ j1, j2⟩
            unfold Copying.step
            rw [if_pos hc.buf]
            simp
        · subst hrem
          refine ih { c with w := w1, rest := e :: l } ⟨hc.buf, hc.ended, .inl rfl⟩ rfl _ ?_
          unfold Copying.step
          rw [if_pos hc.buf]
          simp [hc.ended]
    exact go c.rest hc.quiet

/-- The result of the library's call (src/client.rs:816-817), given that of `copy`. -/
def copied : Except IoKind Nat → Except Err Unit
  | .ok _ => .ok ()
  | .error k => .error k.toErr

theorem ends_copy {R : World W} {P : PollWriter W} (hR : IsPolled R P) (rem : Bool) :
    ∀ (evs : List Ev), (rem = true ∨ StaysAtEnd evs) → ∀ (c : Copying W) (io : Io W),
      c.rest = evs → c.buf = [] → c.ended = false → c.w = io.w →
      ∃ (r : Except IoKind Nat) (c' : Copying W) (bss : List Bytes), Ends P rem c r c' ∧ (copyToWriter R evs io).1 = copied r ∧
        (copyToWriter R evs io).2.w = c'.w ∧
        (copyToWriter R evs io).2.log = io.log ++ bss.map .wrote ∧
        c.got ++ bss.flatten <+: c'.got ∧ (∀ k, r = .ok k → c'.got = c.got ++ bss.flatten) := by
  have fl : ∀ (evs : List Ev) (c : Copying W) (io : Io W), c.buf = [] → c.w = io.w →
      (rem = true ∨ ∀ e ∈ evs, e = .data [] ∨ e = .pending) →
      c.step P rem = Copying.flush P { c with rest := evs, ended := true } →
      ∃ (r : Except IoKind Nat) (c' : Copying W) (bss : List Bytes), Ends P rem c r c' ∧ (copyToWriter R [] io).1 = copied r ∧
        (copyToWriter R [] io).2.w = c'.w ∧
        (copyToWriter R [] io).2.log = io.log ++ bss.map .wrote ∧
        c.got ++ bss.flatten <+: c'.got ∧ (∀ k, r = .ok k → c'.got = c.got ++ bss.flatten) := by
    intro evs c io hb hw hq hs
    have hf := hR.flush io.w
    obtain ⟨c', j1, j2, j3⟩ := ends_flush rem hf { c with rest := evs, ended := true } ⟨hb, rfl, hq⟩ hw c hs
    refine ⟨_, c', [], j1, ?_, ?_, ?_, by simp [j3], fun _ _ => by simp [j3]⟩
    all_goals
      unfold copyToWriter
      rcases hfl : R.flush io.w with ⟨k | u, w'⟩ <;> rw [hfl] at j2 <;>
        simp [copied, Except.map, j2]
  intro evs
  induction evs with
  | nil =>
    intro _ c io hc hb he hw
    refine fl [] c io hb hw (.inr (by simp)) ?_
    unfold Copying.step
    rw [if_pos hb, if_neg (by simp [he]), hc]
  | cons e evs ih =>
    intro hq c io hc hb he hw
    cases e with
    | pending =>
      have hs : c.step P rem = (none, { c with rest := evs }) := by
        unfold Copying.step
        rw [if_pos hb, if_neg (by simp [he]), hc]
      obtain ⟨r, c', bss, j1, j2⟩ := ih (hq.imp id fun h => by simpa [StaysAtEnd, afterEnd] using h)
        { c with rest := evs } io rfl hb he hw
      exact ⟨r, c', bss, .step hs j1, j2⟩
    | err k =>
      have hs : c.step P rem = (some (.error k), { c with rest := evs }) := by
        unfold Copying.step
        rw [if_pos hb, if_neg (by simp [he]), hc]
      refine ⟨_, _, [], .last hs, rfl, hw.symm, by simp [copyToWriter, M.fail], by simp, by simp⟩
    | data bs =>
      by_cases hbs : bs = []
      · subst hbs
        have e1 : copyToWriter R (.data [] :: evs) io = copyToWriter R [] io := by simp [copyToWriter]
        rw [e1]
        refine fl evs c io hb hw (hq.imp id fun h => by simpa [StaysAtEnd, afterEnd] using h) ?_
        unfold Copying.step
        rw [if_pos hb, if_neg (by simp [he]), hc]
        simp
      · have hs : c.step P rem = (none, { c with rest := evs, buf := bs }) := by
          unfold Copying.step
          rw [if_pos hb, if_neg (by simp [he]), hc]
          simp [hbs]
        have hwr := hR.write bs io.w hbs
        obtain ⟨i1, i2⟩ := ends_write rem hwr { c with rest := evs, buf := bs } rfl hw
        rcases hr : R.write bs io.w with ⟨k | u, w'⟩
        · rw [hr] at i2
          obtain ⟨c', j1, j2, j3⟩ := i2 k rfl
          have e1 : copyToWriter R (.data bs :: evs) io = (.error k.toErr, { io with w := w' }) := by
            simp only [copyToWriter, if_neg hbs, hr]
          rw [e1]
          exact ⟨_, c', [], .step hs j1, rfl, j2.symm, by simp, by simpa using j3, by simp⟩
        · rw [hr] at i1
          obtain ⟨amt, i1⟩ := i1 rfl
          have e1 : copyToWriter R (.data bs :: evs) io =
              copyToWriter R evs { w := w', log := io.log ++ [.wrote bs] } := by
            simp only [copyToWriter, if_neg hbs, hr]
          rw [e1]
          obtain ⟨r, c', bss, j1, j2, j3, j4, j5, j6⟩ :=
            ih (hq.imp id fun h => by simpa [StaysAtEnd, afterEnd, hbs] using h)
              { c with rest := evs, buf := [], w := w', amt := amt, got := c.got ++ bs }
              { w := w', log := io.log ++ [.wrote bs] } rfl rfl he rfl
          exact ⟨r, c', bs :: bss, .step hs (i1 _ _ j1), j2, j3, by simpa using j4, by simpa using j5,
            fun k hk => by simpa using j6 k hk⟩

/-! ## Writers in large steps -/

theorem writesAll_exists {P : PollWriter W} (hP : RespondingWriter P) : ∀ (m : Nat) (bs : Bytes),
    bs.length ≤ m → ∀ w, ∃ r w', WritesAll P bs w r w' := by
  intro m
  induction m with
  | zero =>
    intro bs h w
    obtain rfl := List.length_eq_zero_iff.1 (Nat.le_zero.1 h)
    exact ⟨_, _, .done⟩
  | succ m ih =>
    intro bs h w
    by_cases hb : bs = []
    · subst hb; exact ⟨_, _, .done⟩
    · obtain ⟨n, hn⟩ := hP.write bs w hb
      have one : ∀ w, (P.pollWrite bs w).1 ≠ .pending → ∃ r w', WritesAll P bs w r w' := by
        intro w hw
        rcases hp : P.pollWrite bs w with ⟨_ | (k | (_ | n)), w'⟩
        · rw [hp] at hw; exact absurd rfl hw
        · exact ⟨_, _, .fail hb hp⟩
        · exact ⟨_, _, .zero hb hp⟩
        · obtain ⟨r, w'', h'⟩ := ih (bs.drop (n + 1)) (by rw [List.length_drop]; omega) w'
          exact ⟨r, w'', .some hb hp (by simp) h'⟩
      induction n generalizing w with
      | zero => exact one w hn
      | succ n ihn =>
        rcases hp : P.pollWrite bs w with ⟨a, w'⟩
        by_cases ha : a = .pending
        · subst ha
          obtain ⟨r, w'', h'⟩ := ihn w' (by simpa only [writePolls, hp] using hn)
          exact ⟨r, w'', .wait hb hp h'⟩
        · exact one w (by rw [hp]; exact ha)

theorem flushesAll_exists {P : PollWriter W} (hP : RespondingWriter P) (w : W) :
    ∃ r w', FlushesAll P w r w' := by
  obtain ⟨n, hn⟩ := hP.flush w
  induction n generalizing w with
  | zero =>
    rcases hp : P.pollFlush w with ⟨_ | r, w'⟩
    · simp only [flushPolls, hp] at hn; exact absurd rfl hn
    · exact ⟨_, _, .done hp⟩
  | succ n ihn =>
    rcases hp : P.pollFlush w with ⟨_ | r, w'⟩
    · obtain ⟨r, w'', h'⟩ := ihn w' (by simpa only [flushPolls, hp] using hn)
      exact ⟨r, w'', .wait hp h'⟩
    · exact ⟨_, _, .done hp⟩

/-- Every writer that does not keep its caller waiting for ever is the writer of some world: what is
proved about clients in all worlds holds with all such writers, however they take the bytes. -/
theorem C117_every_writer {P : PollWriter W} (hP : RespondingWriter P) (R : World W) :
    ∃ wr fl, IsPolled { R with write := wr, flush := fl } P := by
  have h1 : ∀ bs w, ∃ x : Except IoKind Unit × W, WritesAll P bs w x.1 x.2 := fun bs w => by
    obtain ⟨r, w', h⟩ := writesAll_exists hP _ bs (Nat.le_refl _) w
    exact ⟨(r, w'), h⟩
  have h2 : ∀ w, ∃ x : Except IoKind Unit × W, FlushesAll P w x.1 x.2 := fun w => by
    obtain ⟨r, w', h⟩ := flushesAll_exists hP w
    exact ⟨(r, w'), h⟩
  exact ⟨fun bs w => (h1 bs w).choose, fun w => (h2 w).choose, fun bs w _ => (h1 bs w).choose_spec,
    fun w => (h2 w).choose_spec⟩

theorem written_wrote (bss : List Bytes) : written (bss.map .wrote) = bss.flatten := by
  induction bss with
  | nil => rfl
  | cons b bss ih => simp [written, ih]

/-- `fetch_target_to_writer` with any such writer: the copying comes to its end, and the call returns
what it returned, leaves the writer as it left it, and trusts the same metadata as before. The record
of what was written, which the other theorems speak of, is what the writer has taken if the call
succeeds, and the beginning of it if it fails. -/
theorem C117_downloads {R : World W} {P : PollWriter W} (hR : IsPolled R P) (E : Env) (D : Digest)
    (cfg : Config) (p : TargetPath) (s s1 : St W) (evs : List Ev) (rem : Bool)
    (hf : fetchTargetReader E D R cfg p s = (.ok evs, s1)) (hr : rem = true ∨ StaysAtEnd evs) :
    (∃ n r c, (Copying.start evs s1.io.w).run P rem n = (some r, c)) ∧
    ∀ n r c, (Copying.start evs s1.io.w).run P rem n = (some r, c) →
      (exec E D R cfg (.fetchTargetToWriter p) s).1 = (copied r).map (fun _ => .done) ∧
      (exec E D R cfg (.fetchTargetToWriter p) s).2.tuf = s1.tuf ∧
      (exec E D R cfg (.fetchTargetToWriter p) s).2.io.w = c.w ∧
      ∃ bs, written (exec E D R cfg (.fetchTargetToWriter p) s).2.io.log = written s1.io.log ++ bs ∧
        bs <+: c.got ∧ (∀ k, r = .ok k → c.got = bs) := by
  obtain ⟨r, c, bss, ⟨n, hn⟩, h1, h2, h3, h4, h5⟩ :=
    ends_copy hR rem evs hr (Copying.start evs s1.io.w) s1.io rfl rfl rfl rfl
  refine ⟨⟨n, r, c, hn⟩, fun n' r' c' hn' => ?_⟩
  obtain ⟨rfl, rfl⟩ := run_unique P rem hn hn'
  have e : exec E D R cfg (.fetchTargetToWriter p) s =
      ((copyToWriter R evs s1.io).1.map (fun _ => .done), ⟨s1.tuf, (copyToWriter R evs s1.io).2⟩) := by
    simp only [exec, fetchTargetToWriter, bind, M.bind, hf, lift]
    rcases copyToWriter R evs s1.io with ⟨k | u, io'⟩ <;> rfl
  rw [e]
  refine ⟨by simp only [h1], rfl, h2, bss.flatten, ?_, by simpa [Copying.start] using h4,
    fun k hk => by simpa [Copying.start] using h5 k hk⟩
  simp only [h3, written_append, written_wrote]

/-- Whatever the writer does, at every moment of the copying the trusted top-level targets list a
description for the target, and the writer has taken no more bytes than it says. When the copying
succeeds, the bytes it has taken match the description. -/
theorem C117_gets_the_target (E : Env) (D : Digest) (R : World W) (P : PollWriter W) (cfg : Config)
    (p : TargetPath) (s s1 : St W) (evs : List Ev) (rem : Bool)
    (hf : fetchTargetReader E D R cfg p s = (.ok evs, s1)) (hr : rem = true ∨ NoneAfterEnd evs) (w : W)
    (n : Nat) :
    ∃ d, TopEntry cfg s.tuf p d ∧ ((Copying.start evs w).run P rem n).2.got.length ≤ d.length ∧
      ∀ k, ((Copying.start evs w).run P rem n).1 = some (.ok k) →
        Matches D d ((Copying.start evs w).run P rem n).2.got := by
  obtain ⟨d, a, v, g1, g2, g3, g4⟩ := fetchTargetReader_ok hf
  refine ⟨d, g1, Nat.le_trans (C117_in_order P rem evs hr w n).length_le g3, fun k hk => ?_⟩
  have h := (C117_success P rem evs hr w n k _ (Prod.ext hk rfl)).1
  exact ⟨a, v, g2, Nat.le_trans (C117_in_order P rem evs hr w n).length_le g3, g4 _ h⟩

/-- A writer that does not fail gets everything, and the result is the same whatever way it takes the
bytes and however often it lets its caller wait. -/
theorem C117_any_way {P : PollWriter W} (hP : RespondingWriter P) (ht : TruthfulWriter P)
    (hn : FaultlessWriter P) (rem : Bool) (evs : List Ev) (hr : rem = true ∨ StaysAtEnd evs) (w : W) :
    ∃ n c, c.got = (delivered evs).1 ∧ (Copying.start evs w).run P rem n =
      (some (match (delivered evs).2 with
        | .eof => .ok (delivered evs).1.length
        | .error k => .error k), c) := by
  let nowhere : Provider W := ⟨fun _ _ _ _ w => (.error .notFound, w), fun _ _ w => (.error .notFound, w)⟩
  obtain ⟨wr, fl, hR⟩ := C117_every_writer hP (⟨nowhere, nowhere, fun _ _ _ w => (.ok (), w),
    fun _ _ w => (.ok (), w), fun _ w => (.ok (), w), fun w => (.ok (), w), fun w => (default, w)⟩ : World W)
  obtain ⟨r, c, bss, ⟨n, h⟩, _⟩ := ends_copy hR rem evs hr (Copying.start evs w) ⟨w, []⟩ rfl rfl rfl rfl
  have hr' : rem = true ∨ NoneAfterEnd evs := hr.imp id fun h bs hb => by
    rcases h _ hb with h | h
    · simpa using h
    · simp at h
  cases r with
  | ok k =>
    obtain ⟨h1, h2, _⟩ := C117_success P rem evs hr' w n k c h
    exact ⟨n, c, by rw [h1], by rw [h, h1, h2 ht]⟩
  | error k =>
    rcases C117_failure P rem evs hr' w n k c h with h1 | h1 | ⟨h1, _, h3⟩
    · exact ⟨n, c, by rw [h1], by rw [h, h1]⟩
    · exact absurd h1 (hn _ _)
    · rcases hr with hr | hr
      · simp [hr] at h1
      · rcases hr _ h3 with h | h <;> simp at h

/-! ## Checked readers -/

theorem polls_data (D : Digest) (l : List Ev) : ∀ (s : SafeReader) (bs : Bytes),
    .data bs ∈ s.polls D l → .data bs ∈ l ∧ (bs = [] ∨ s.bytesRead + bs.length ≤ s.maxSize) := by
  induction l with
  | nil => intro s bs h; simp [SafeReader.polls] at h
  | cons e l ih =>
    intro s bs h
    have later : ∀ s' : SafeReader, .data bs ∈ s'.polls D l → s.bytesRead ≤ s'.bytesRead →
        s'.maxSize = s.maxSize →
        .data bs ∈ e :: l ∧ (bs = [] ∨ s.bytesRead + bs.length ≤ s.maxSize) := by
      intro s' h3 h1 h2
      obtain ⟨i1, i2⟩ := ih s' bs h3
      exact ⟨List.mem_cons_of_mem _ i1, i2.imp id fun h => by omega⟩
    unfold SafeReader.polls at h
    rcases e with (_ | ⟨b, l'⟩) | k | _
    · simp only [SafeReader.poll] at h
      rcases hh : s.hasher with _ | ⟨a, ctx, v⟩ <;> rw [hh] at h
      · rcases List.mem_cons.1 h with h | h
        · simp only [Ev.data.injEq] at h; subst h; simp
        · exact later _ h (Nat.le_refl _) rfl
      · simp only at h
        split at h
        · rcases List.mem_cons.1 h with h | h
          · simp at h
          · exact later _ h (Nat.le_refl _) rfl
        · rcases List.mem_cons.1 h with h | h
          · simp only [Ev.data.injEq] at h; subst h; simp
          · exact later _ h (Nat.le_refl _) rfl
    · simp only [SafeReader.poll] at h
      split at h
      · rename_i hfit
        rcases List.mem_cons.1 h with h | h
        · simp only [Ev.data.injEq] at h; subst h
          exact ⟨List.mem_cons_self .., .inr hfit.2⟩
        · exact later _ h (Nat.le_add_right ..) rfl
      · rcases List.mem_cons.1 h with h | h
        · simp at h
        · exact later _ h (Nat.le_refl _) rfl
    · simp only [SafeReader.poll] at h
      rcases List.mem_cons.1 h with h | h
      · simp at h
      · exact later _ h (Nat.le_refl _) rfl
    · simp only [SafeReader.poll] at h
      rcases List.mem_cons.1 h with h | h
      · simp at h
      · exact later _ h (Nat.le_refl _) rfl

theorem afterEnd_polls (D : Digest) {max : Nat} {a : HashAlg} {v : HashValue} {bs : Bytes} (evs : List Ev) :
    ∀ (s : SafeReader) (acc : Bytes), s.At max (some (a, v)) acc → .data bs ∈ afterEnd (s.polls D evs) →
      .data bs ∈ afterEnd evs ∧ (bs = [] ∨ ∃ x, D a x = v ∧ x.length + bs.length ≤ max) := by
  induction evs with
  | nil => intro s acc _ h; simp [SafeReader.polls, afterEnd] at h
  | cons e evs ih =>
    intro s acc hs h
    unfold SafeReader.polls at h
    rcases e with (_ | ⟨b, l'⟩) | k | _
    · obtain ⟨h1, h2, h3⟩ := hs
      simp only [SafeReader.poll, h3, Option.map_some] at h
      by_cases hd : D a acc = v
      · rw [if_neg (by simpa using hd)] at h
        simp only [afterEnd, if_true] at h ⊢
        obtain ⟨i1, i2⟩ := polls_data D evs _ bs h
        refine ⟨i1, i2.imp id fun i2 => ⟨acc, hd, ?_⟩⟩
        rw [← h2, ← h1]; exact i2
      · rw [if_pos (by simpa using hd)] at h
        simp [afterEnd] at h
    · simp only [SafeReader.poll] at h
      split at h
      · simp only [afterEnd, if_neg (List.cons_ne_nil b l')] at h ⊢
        exact ih _ _ (SafeReader.At.push hs b l') h
      · simp [afterEnd] at h
    · simp [SafeReader.poll, afterEnd] at h
    · simp only [SafeReader.poll, afterEnd] at h ⊢
      exact ih _ _ hs h

theorem afterEnd_append {bs : Bytes} (evs : List Ev) :
    .data bs ∈ afterEnd (evs ++ [.data []]) → bs = [] ∨ .data bs ∈ afterEnd evs := by
  induction evs with
  | nil => simp [afterEnd]
  | cons e evs ih =>
    rcases e with l | k | _
    · simp only [List.cons_append, afterEnd]
      split
      · simp
        tauto
      · exact ih
    · simp [afterEnd]
    · exact ih

/-- What `fetch_target_to_writer` copies comes through the checked reader of the library. If copying
succeeds, the writer has taken what the repository delivers, all of it, within the limit and with the
expected digest, provided that `copy` remembers the end of the reader, or that the repository delivers
nothing after the end, or that only data of exactly the announced length has that digest. -/
theorem C117_checked (D : Digest) (P : PollWriter W) (rem : Bool) (max : Nat) (a : HashAlg) (v : HashValue)
    (sr : SafeReader) (hs : SafeReader.new max (some (a, v)) = .ok sr) (src : List Ev)
    (hr : rem = true ∨ NoneAfterEnd src ∨ ∀ bs, D a bs = v → bs.length = max) (w : W) (n k : Nat)
    (c : Copying W)
    (h : (Copying.start (sr.polls D (src ++ [.data []])) w).run P rem n = (some (.ok k), c)) :
    delivered src = (c.got, .eof) ∧ c.got.length ≤ max ∧ D a c.got = v := by
  have hr' : rem = true ∨ NoneAfterEnd (sr.polls D (src ++ [.data []])) := by
    refine hr.imp id fun hr bs hb => ?_
    obtain ⟨h1, h2⟩ := afterEnd_polls D _ sr [] (SafeReader.new_at hs) hb
    rcases hr with hr | hr
    · rcases afterEnd_append src h1 with h1 | h1
      · exact h1
      · exact hr bs h1
    · rcases h2 with h2 | ⟨x, hx, hl⟩
      · exact h2
      · have := hr x hx
        exact List.length_eq_zero_iff.1 (by omega)
  obtain ⟨h1, _, _⟩ := C117_success P rem _ hr' w n k c h
  obtain ⟨h2, h3⟩ := polls_verdict D max (some (a, v)) src sr [] (SafeReader.new_at hs) (Nat.zero_le _)
    (Nat.zero_le _)
  rw [h1] at h2 h3
  have h3 := h3 rfl
  simp only [List.nil_append, verdict] at h2
  split at h2
  · rename_i hl
    cases hd : (delivered src).2 with
    | error k => rw [hd] at h2; simp at h2
    | eof =>
      rw [hd] at h2
      simp only at h2
      split at h2
      · rename_i hv
        simp only at h3
        rw [← h3] at hv hl
        exact ⟨Prod.ext h3.symm hd, hl.2, hv⟩
      · simp at h2
  · simp at h2

theorem haltingWriter_responds : RespondingWriter haltingWriter where
  write bs := by
    rintro ⟨_ | _, out⟩ _
    · exact ⟨1, by simp [writePolls, haltingWriter]⟩
    · exact ⟨0, by simp [writePolls, haltingWriter]⟩
  flush := by
    rintro ⟨_ | _, out⟩
    · exact ⟨1, by simp [flushPolls, haltingWriter]⟩
    · exact ⟨0, by simp [flushPolls, haltingWriter]⟩

theorem haltingWriter_truthful : TruthfulWriter haltingWriter := by
  rintro bs ⟨_ | _, out⟩ n w' h
  · simp [haltingWriter] at h
  · simp only [haltingWriter, Prod.mk.injEq, Poll.ready.injEq, Except.ok.injEq] at h
    omega

theorem haltingWriter_faultless : FaultlessWriter haltingWriter := by
  intro k w h
  cases h with
  | @write bs w k w' hb h => rcases w with ⟨_ | _, _⟩ <;> simp [haltingWriter] at h
  | @zero bs w w' hb h => rcases w with ⟨_ | _, _⟩ <;> simp [haltingWriter, hb] at h
  | @flush w k w' h => rcases w with ⟨_ | _, _⟩ <;> simp [haltingWriter] at h

/-- Without that, a reader that goes on after its end, such as one of a file that grows, can get
bytes to the writer that were never checked, and the call succeeds: the digest is checked at the first
end only, and here the announced length leaves room. -/
theorem C117_growing_file : ∃ (D : Digest) (P : PollWriter (Bool × Bytes)) (max : Nat) (v : HashValue)
    (sr : SafeReader) (src : List Ev) (n k : Nat) (c : Copying (Bool × Bytes)),
    RespondingWriter P ∧ TruthfulWriter P ∧ FaultlessWriter P ∧
    SafeReader.new max (some (.sha256, v)) = .ok sr ∧
    (Copying.start (sr.polls D (src ++ [.data []])) (false, [])).run P false n = (some (.ok k), c) ∧
    D .sha256 c.got ≠ v := by
  refine ⟨fun _ bs => bs, haltingWriter, 5, [1], ⟨5, some (.sha256, [], [1]), 0⟩,
    [.data [1], .data [], .data [2]], 20, 2, ⟨[], [], true, 2, (false, [1, 2]), [1, 2]⟩, ?_, ?_, ?_, rfl, rfl,
    by decide⟩
  · exact haltingWriter_responds
  · exact haltingWriter_truthful
  · exact haltingWriter_faultless

-- Copying to the halting writer, byte by byte.
example : RespondingWriter haltingWriter ∧ TruthfulWriter haltingWriter ∧ FaultlessWriter haltingWriter ∧
    StaysAtEnd [.data [1, 2], .pending, .data [3], .data []] ∧
    (Copying.start [.data [1, 2], .pending, .data [3], .data []] (false, [])).run haltingWriter false 30 =
      (some (.ok 3), ⟨[], [], true, 3, (false, [1, 2, 3]), [1, 2, 3]⟩) :=
  ⟨haltingWriter_responds, haltingWriter_truthful, haltingWriter_faultless, by simp [StaysAtEnd, afterEnd], rfl⟩

-- A download through the checked reader, and one that the digest stops.
example : SafeReader.new 3 (some (.sha256, [1, 2, 3])) = .ok ⟨3, some (.sha256, [], [1, 2, 3]), 0⟩ ∧
    (∀ bs : Bytes, (fun (_ : HashAlg) (b : Bytes) => b) .sha256 bs = [1, 2, 3] → bs.length = 3) ∧
    ((Copying.start ((SafeReader.mk 3 (some (.sha256, [], [1, 2, 3])) 0).polls (fun _ b => b)
      ([.data [1, 2], .data [3], .data [], .data [4]] ++ [.data []])) (true, [])).run haltingWriter false 30) =
      (some (.error .invalidData), ⟨[.data []], [], true, 3, (true, [1, 2, 3]), [1, 2, 3]⟩) :=
  ⟨rfl, by rintro bs rfl; rfl, rfl⟩

namespace CopyExample

/-- The writer of the example world, one byte at a time. -/
def bytewise : PollWriter Toy.Disk where
  pollWrite bs w := (.ready (.ok (min 1 bs.length)), { w with written := w.written ++ bs.take 1 })
  pollFlush w := (.ready (.ok ()), w)

theorem bytewise_writes : ∀ (bs : Bytes) (w : Toy.Disk),
    WritesAll bytewise bs w (.ok ()) { w with written := w.written ++ bs }
  | [], w => by
    have : w = { w with written := w.written ++ [] } := by simp
    rw [← this]; exact .done
  | b :: bs, w => by
    have h := bytewise_writes bs { w with written := w.written ++ [b] }
    refine .some (n := 1) (w' := { w with written := w.written ++ [b] }) (by simp) (by simp [bytewise]) (by simp) ?_
    simpa using h

theorem bytewise_polled : IsPolled Toy.remoteRepo bytewise where
  write bs w _ := bytewise_writes bs w
  flush _ := .done rfl

/-- A client that is up to date. -/
def client : St Toy.Disk := execAll Toy.env Toy.digest Toy.remoteRepo Toy.config Toy.client0 [.update]

-- A download in the example world.
example : IsPolled Toy.remoteRepo bytewise ∧
    (∃ s1, fetchTargetReader Toy.env Toy.digest Toy.remoteRepo Toy.config "x".toList client =
      (.ok [.data [9], .data []], s1)) ∧ StaysAtEnd [.data [9], .data []] ∧
    ((Copying.start [.data [9], .data []] client.io.w).run bytewise true 9).2.w.written = [9] := by
  refine ⟨bytewise_polled, ⟨_, Prod.ext (by decide +kernel) rfl⟩, by simp [StaysAtEnd, afterEnd], by decide +kernel⟩

end CopyExample

end RustTuf.Props
