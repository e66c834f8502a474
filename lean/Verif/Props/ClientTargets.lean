import Verif.Props.Client
import Verif.Props.Readers
import Verif.Spec.ClientTargets

/-!
# Target downloads and lookups by the client: C33 to C37
-/

namespace RustTuf.Props
open Client Spec RustTuf
variable {W : Type} {E : Env} {D : Digest} {R : World W} {cfg : Config}

/-! ### The walk through delegations -/

/-- The loop over delegations preserves `I` and never returns a description. It acts only on
delegations that cover the path and that the snapshot lists. -/
theorem lookupLoop_covered (I : St W → Prop)
    (rec : Bool → TargetsMetadata → MetadataPath → M (St W) Found)
    (dflt : Bool) (target : VirtualTargetPath) (sn : SnapshotMetadata) (parent : MetadataPath)
    (hclock : Keeps I (getClock R)) (ds : List Delegation)
    (hfetch : ∀ d ∈ ds, (d.paths.any fun p => isChild target p) = true →
      (sn.metas.get? d.role).isSome → ∀ src v mx h,
      Keeps I (lift (fetchMetadata D R src .targets d.role v mx h)))
    (hstore : ∀ d ∈ ds, ∀ raw, Keeps I (lift (storeMetadata R .targets d.role .none raw)))
    (hop : ∀ d ∈ ds, ∀ w raw,
      Keeps I (updateTuf E (.delegation (R.clock w).1 parent d.role raw)))
    (hrec : ∀ d ∈ ds, (d.paths.any fun p => isChild target p) = true →
      (sn.metas.get? d.role).isSome → ∀ b md, Tri (fun s => I s ∧ s.tuf.delegations.get? d.role = some md)
      (rec b md d.role) (fun _ => I) (fun _ => I)) :
    Tri I (Client.lookupLoop E D R rec dflt target sn parent ds)
      (fun x s => (∀ d, x.2 ≠ .ok d) ∧ I s) (fun _ => I) := by
  induction ds with
  | nil => exact Tri.ret fun s hs => ⟨by simp, hs⟩
  | cons d ds ih =>
    replace ih := ih (fun d' h' => hfetch d' (by simp [h'])) (fun d' h' => hstore d' (by simp [h']))
      (fun d' h' => hop d' (by simp [h'])) (fun d' h' => hrec d' (by simp [h']))
    replace hfetch := hfetch d (by simp)
    replace hstore := hstore d (by simp)
    replace hop := hop d (by simp)
    replace hrec := hrec d (by simp)
    unfold Client.lookupLoop
    refine Tri.ite (fun _ => Tri.ite (fun _ => Tri.ret fun s hs => ⟨by simp, hs⟩) (fun _ => ih))
      fun hcov => ?_
    replace hfetch := hfetch (by simpa using hcov)
    replace hrec := hrec (by simpa using hcov)
    cases hm : sn.metas.get? d.role with
    | none => exact Tri.ite (fun _ => ih) (fun _ => Tri.ret fun s hs => ⟨by simp, hs⟩)
    | some m =>
      replace hfetch := hfetch (by rw [hm]; rfl)
      replace hrec := hrec (by rw [hm]; rfl)
      dsimp only
      cases hashPreference m.hashes with
      | error e => exact Tri.ret fun s hs => ⟨by simp, hs⟩
      | ok p =>
        obtain ⟨a, v⟩ := p
        dsimp only
        refine Tri.bind (keeps_getTuf I) fun t => ?_
        refine Tri.bind (Keeps.attempt (hfetch _ _ _ _)) fun r => ?_
        have tail : ∀ fetched : Except Err Bytes, Tri I (match fetched with
          | .error e =>
            if !d.terminating then Client.lookupLoop E D R rec dflt target sn parent ds
            else return (true, .error e)
          | .ok raw => do
            let clk ← getClock R
            match ← M.attempt (updateTuf E (.delegation clk parent d.role raw)) with
            | .ok _ =>
              let _ ← M.attempt (lift (storeMetadata R .targets d.role .none raw))
              let t ← getTuf
              match t.delegations.get? d.role with
              | none => M.fail .panic
              | some m =>
                let (term, res) ← rec d.terminating m d.role
                match res with
                | .error e =>
                  if term then return (true, .error e)
                  else Client.lookupLoop E D R rec dflt target sn parent ds
                | .ok _ => Client.lookupLoop E D R rec dflt target sn parent ds
            | .error e =>
              if !d.terminating then Client.lookupLoop E D R rec dflt target sn parent ds
              else return (true, .error e)) (fun x s => (∀ d, x.2 ≠ .ok d) ∧ I s) (fun _ => I) := by
          intro fetched
          cases fetched with
          | error e => exact Tri.ite (fun _ => ih) (fun _ => Tri.ret fun s hs => ⟨by simp, hs⟩)
          | ok raw =>
            refine Tri.bind (Q := fun clk s => (∃ w, clk = (R.clock w).1) ∧ I s)
              (fun s hs => ⟨⟨_, rfl⟩, hclock s hs⟩) fun clk => Tri.assume fun hclk => ?_
            obtain ⟨w, rfl⟩ := hclk
            refine Tri.bind (Keeps.attempt (hop _ _)) fun out => ?_
            cases out with
            | error e => exact Tri.ite (fun _ => ih) (fun _ => Tri.ret fun s hs => ⟨by simp, hs⟩)
            | ok o =>
              refine Tri.bind (Keeps.attempt (hstore _)) fun _ => ?_
              refine Tri.bind (Q := fun (t : Tuf) (s : St W) => t = s.tuf ∧ I s)
                (fun s hs => ⟨rfl, hs⟩) fun t => ?_
              cases hd : t.delegations.get? d.role with
              | none => exact Tri.fail fun s hs => hs.2
              | some md =>
                dsimp only
                refine Tri.bind ((hrec d.terminating md).pre
                  (by rintro s ⟨rfl, hs⟩; exact ⟨hs, hd⟩)) fun x => ?_
                obtain ⟨term, res⟩ := x
                cases res with
                | error e => exact Tri.ite (fun _ => Tri.ret fun s hs => ⟨by simp, hs⟩) (fun _ => ih)
                | ok _ => exact ih
        cases r with
        | ok raw => exact Tri.bind (Keeps.ret' _) fun f => tail f
        | error e => exact Tri.bind (Keeps.attempt (hfetch _ _ _ _)) fun f => tail f

/-- The loop over delegations preserves `I` and never returns a description. -/
theorem lookupLoop_walk (I : St W → Prop)
    (rec : Bool → TargetsMetadata → MetadataPath → M (St W) Found)
    (dflt : Bool) (target : VirtualTargetPath) (sn : SnapshotMetadata) (parent : MetadataPath)
    (hclock : Keeps I (getClock R)) (ds : List Delegation)
    (hfetch : ∀ d ∈ ds, ∀ src v mx h,
      Keeps I (lift (fetchMetadata D R src .targets d.role v mx h)))
    (hstore : ∀ d ∈ ds, ∀ raw, Keeps I (lift (storeMetadata R .targets d.role .none raw)))
    (hop : ∀ d ∈ ds, ∀ w raw,
      Keeps I (updateTuf E (.delegation (R.clock w).1 parent d.role raw)))
    (hrec : ∀ d ∈ ds, ∀ b md, Tri (fun s => I s ∧ s.tuf.delegations.get? d.role = some md)
      (rec b md d.role) (fun _ => I) (fun _ => I)) :
    Tri I (Client.lookupLoop E D R rec dflt target sn parent ds)
      (fun x s => (∀ d, x.2 ≠ .ok d) ∧ I s) (fun _ => I) :=
  lookupLoop_covered I rec dflt target sn parent hclock ds (fun d hd _ _ => hfetch d hd) hstore hop
    fun d hd _ _ => hrec d hd

theorem keeps_true {σ α : Type} (m : M σ α) : Keeps (fun _ => True) m := by
  intro s _
  cases m s with
  | mk r s' => cases r <;> trivial

/-- A lookup returns a description only if the metadata it starts with lists it. -/
theorem lookupIn_ok (target : VirtualTargetPath) (sn : SnapshotMetadata) (rem : Nat) (b : Bool)
    (m : TargetsMetadata) (r : MetadataPath) :
    Tri (fun _ => True) (Client.lookupIn E D R target sn rem b m r)
      (fun x _ => ∀ d, x.2 = .ok d → m.targets.get? target = some d) (fun _ _ => True) := by
  cases rem with
  | zero => exact Tri.ret fun s hs => by simp
  | succ rem =>
    unfold Client.lookupIn
    split
    · rename_i d hd
      exact Tri.ret fun s hs => by rintro d' ⟨⟩; exact hd
    · split
      · exact Tri.ret fun s hs => by simp
      · refine (lookupLoop_walk (fun _ => True) _ b target sn r (keeps_true _) _
          (fun _ _ _ _ _ _ => keeps_true _) (fun _ _ _ => keeps_true _)
          (fun _ _ _ _ => keeps_true _) ?_).post ?_
        · intro d _ b md
          exact Tri.conseq (keeps_true _) (fun _ _ => trivial) (fun _ _ _ => trivial)
            (fun _ _ _ => trivial)
        · intro x s hx d hd
          exact absurd hd (hx.1 d)

theorem ofExcept_ok {σ α : Type} {r : Except Err α} {s s' : σ} {a : α}
    (h : M.ofExcept r s = (.ok a, s')) : r = .ok a ∧ s' = s := by
  unfold M.ofExcept at h
  injection h with h1 h2
  exact ⟨h1, h2.symm⟩

theorem fetchTargetDescription_ok {path : TargetPath} {s s' : St W} {d : TargetDescription}
    (h : fetchTargetDescription E D R cfg path s = (.ok d, s')) : TopEntry cfg s.tuf path d := by
  obtain ⟨virt, s1, h1, h2⟩ := bind_ok h
  obtain ⟨hv, rfl⟩ := ofExcept_ok h1
  obtain ⟨t, s2, h3, h4⟩ := bind_ok h2
  cases h3
  cases hsn : s1.tuf.snapshot with
  | none => rw [hsn] at h4; cases h4
  | some sn =>
    rw [hsn] at h4
    cases hta : s1.tuf.targets with
    | none => rw [hta] at h4; cases h4
    | some ta =>
      rw [hta] at h4
      obtain ⟨⟨b, res⟩, s3, h5, h6⟩ := bind_ok h4
      have := (lookupIn_ok virt sn _ _ _ _).run_ok trivial h5
      cases res with
      | error e => cases h6
      | ok d' => cases h6; exact ⟨virt, ta, hv, hta, this d rfl⟩

/-! ### Streams -/

/-- Neither the end nor an error. -/
def Inner (e : Ev) : Prop := e ≠ .data [] ∧ ∀ k, e ≠ .err k

theorem delivered_eof {l : List Ev} {bs : Bytes} (h : delivered l = (bs, .eof)) :
    (∃ pre post, l = pre ++ .data [] :: post ∧ (∀ e ∈ pre, Inner e) ∧ handedOut pre = bs) ∨
    ((∀ e ∈ l, Inner e) ∧ handedOut l = bs) := by
  induction l generalizing bs with
  | nil => cases h; exact .inr ⟨by simp, rfl⟩
  | cons ev evs ih =>
    cases ev with
    | pending =>
      rcases ih h with ⟨pre, post, h1, h2, h3⟩ | ⟨h1, h2⟩
      · refine .inl ⟨.pending :: pre, post, by rw [h1]; rfl, ?_, h3⟩
        intro e he
        rcases List.mem_cons.1 he with rfl | he
        · exact ⟨by simp, by simp⟩
        · exact h2 e he
      · refine .inr ⟨?_, h2⟩
        intro e he
        rcases List.mem_cons.1 he with rfl | he
        · exact ⟨by simp, by simp⟩
        · exact h1 e he
    | err k => cases h
    | data b =>
      simp only [delivered] at h
      split at h
      · rename_i hb; subst hb; cases h
        exact .inl ⟨[], evs, rfl, by simp, rfl⟩
      · rename_i hb
        injection h with h1 h2
        have hi : Inner (.data b) := ⟨by simpa using hb, by simp⟩
        rcases ih (bs := (delivered evs).1) (Prod.ext rfl h2) with ⟨pre, post, g1, g2, g3⟩ | ⟨g1, g2⟩
        · refine .inl ⟨.data b :: pre, post, by rw [g1]; rfl, ?_, by simp [handedOut, g3, h1]⟩
          intro e he
          rcases List.mem_cons.1 he with rfl | he
          · exact hi
          · exact g2 e he
        · refine .inr ⟨?_, by simp [handedOut, g2, h1]⟩
          intro e he
          rcases List.mem_cons.1 he with rfl | he
          · exact hi
          · exact g1 e he

theorem delivered_prefix (l : List Ev) : (delivered l).1 <+: handedOut l := by
  induction l with
  | nil => exact List.prefix_rfl
  | cons ev evs ih =>
    cases ev with
    | pending => exact ih
    | err k => exact List.nil_prefix
    | data b =>
      simp only [delivered]
      split
      · exact List.nil_prefix
      · exact (List.prefix_append_right_inj b).2 ih

theorem polls_last (evs : List Ev) : ∀ s : SafeReader,
    ∃ pre e, s.polls D (evs ++ [.data []]) = pre ++ [e] ∧ ¬ Inner e := by
  induction evs with
  | nil =>
    intro s
    refine ⟨[], (s.poll D (.data [])).1, rfl, ?_⟩
    simp only [SafeReader.poll]
    repeat' split
    all_goals simp [Inner]
  | cons ev evs ih =>
    intro s
    obtain ⟨pre, e, h1, h2⟩ := ih (s.poll D ev).2
    exact ⟨(s.poll D ev).1 :: pre, e, by simp [SafeReader.polls, h1], h2⟩

/-- What a consumer of a checked stream has received when the stream ends normally. -/
theorem checked_stream {max : Nat} {a : HashAlg} {v : HashValue} {s : SafeReader}
    (hs : SafeReader.new max (some (a, v)) = .ok s) (evs : List Ev) :
    (delivered (s.polls D (evs ++ [.data []]))).1.length ≤ max ∧
    ∀ bs, delivered (s.polls D (evs ++ [.data []])) = (bs, .eof) → D a bs = v := by
  constructor
  · exact Nat.le_trans (delivered_prefix _).length_le (C47_never_more_than_limit D max _ s hs _)
  · intro bs h
    rcases delivered_eof h with ⟨pre, post, h1, h2, rfl⟩ | ⟨h1, h2⟩
    · exact C48_streaming D max a v s hs _ pre post h1 h2
    · obtain ⟨pre, e, h3, h4⟩ := polls_last (D := D) evs s
      exact absurd (h1 e (by rw [h3]; simp)) h4

theorem written_append (a b : List LogEntry) : written (a ++ b) = written a ++ written b := by
  induction a with
  | nil => rfl
  | cons e a ih => cases e <;> simp [written, ih]

/-- Copying a stream: on success everything was written; otherwise a prefix. -/
theorem copyToWriter_written (stream : List Ev) : ∀ io : Io W,
    ∃ l, (copyToWriter R stream io).2.log = io.log ++ l ∧ written l <+: (delivered stream).1 ∧
      ∀ u, (copyToWriter R stream io).1 = .ok u → delivered stream = (written l, .eof) := by
  induction stream with
  | nil =>
    intro io
    refine ⟨[], ?_, List.prefix_rfl, fun _ _ => rfl⟩
    simp only [copyToWriter]
    split <;> simp
  | cons ev evs ih =>
    intro io
    cases ev with
    | pending => exact ih io
    | err k => exact ⟨[], by simp [copyToWriter, M.fail], List.prefix_rfl, by simp [copyToWriter, M.fail]⟩
    | data bs =>
      simp only [copyToWriter, delivered]
      split
      · refine ⟨[], ?_, List.prefix_rfl, fun _ _ => rfl⟩
        split <;> simp
      · split
        · rename_i w' _
          obtain ⟨l, h1, h2, h3⟩ := ih { w := w', log := io.log ++ [.wrote bs] }
          refine ⟨.wrote bs :: l, by rw [h1]; simp, ?_, ?_⟩
          · exact (List.prefix_append_right_inj bs).2 h2
          · intro u hu
            rw [h3 u hu]
            rfl
        · exact ⟨[], by simp, List.nil_prefix, by simp⟩

/-- No bytes for the caller's writer. -/
def NoWrite (e : LogEntry) : Prop := ∀ b, e ≠ .wrote b

theorem written_noWrite {l : List LogEntry} (h : ∀ e ∈ l, NoWrite e) : written l = [] := by
  induction l with
  | nil => rfl
  | cons e l ih =>
    have := ih fun e he => h e (by simp [he])
    cases e with
    | wrote b => exact absurd rfl (h _ (by simp) b)
    | _ => exact this

theorem lookup_prims (L : List LogEntry) (P : LogEntry → Prop)
    (h1 : ∀ src p v m h, P (.fetch src p v m h)) (h2 : ∀ src p raw, P (.got src p raw))
    (h3 : ∀ p v raw, P (.store p v raw)) (h4 : ∀ o out, P (.op o out)) :
    Prims E D R (fun s : St W => Grown P L s.io.log) (fun _ => True) True DelegOp := by
  refine ⟨?_, ?_, ?_, ?_⟩
  · intro src _ role p v mx h
    exact lift_keeps (fetchMetadata_grown D R src role p v mx h P (h1 _ _ _ _ _) (fun _ _ => h2 _ _ _) L)
  · intro _ role p v raw
    refine lift_keeps (I := fun s => Grown P L s.log) (Tri.fix fun s0 hs0 => ?_)
    refine (storeMetadata_log (R := R) role p v raw s0.log).conseq (by rintro s rfl; rfl) ?_ ?_
    · intro _ s hs
      rw [hs]; exact Grown.snoc hs0 (h3 _ _ _)
    · rintro _ s (hs | hs)
      · rw [hs]; exact hs0
      · rw [hs]; exact Grown.snoc hs0 (h3 _ _ _)
  · exact Tri.getClock fun s hs => hs
  · intro o _
    refine Tri.updateTuf fun s out t' hs _ => ?_
    have := Grown.snoc (e := .op o out) hs (h4 _ _)
    cases out <;> exact this

/-- The reader that a download works with. -/
theorem fetchTargetReader_ok {path : TargetPath} {s s' : St W} {stream : List Ev}
    (h : fetchTargetReader E D R cfg path s = (.ok stream, s')) :
    ∃ d a v, TopEntry cfg s.tuf path d ∧ Preferred d.hashes a v ∧
      (delivered stream).1.length ≤ d.length ∧
      ∀ bs, delivered stream = (bs, .eof) → D a bs = v := by
  obtain ⟨d, s1, h1, h2⟩ := bind_ok h
  have hd := fetchTargetDescription_ok h1
  obtain ⟨t, s2, h3, h4⟩ := bind_ok h2
  have key : ∀ p (s2 : St W), lift (fetchTargetStream D R p d) s2 = (.ok stream, s') →
      ∃ d a v, TopEntry cfg s.tuf path d ∧ Preferred d.hashes a v ∧
      (delivered stream).1.length ≤ d.length ∧
      ∀ bs, delivered stream = (bs, .eof) → D a bs = v := by
    intro p s2 h
    unfold lift at h
    cases hh : fetchTargetStream D R p d s2.io with
    | mk r io' =>
      rw [hh] at h
      injection h with hr _
      subst hr
      obtain ⟨⟨a, v⟩, io1, g1, g2⟩ := bind_ok hh
      obtain ⟨gh, _⟩ := ofExcept_ok g1
      obtain ⟨_, io2, _, g3⟩ := bind_ok g2
      obtain ⟨evs, io3, _, g4⟩ := bind_ok g3
      obtain ⟨rd, io4, g5, g6⟩ := bind_ok g4
      obtain ⟨gs, _⟩ := ofExcept_ok g5
      cases g6
      have := checked_stream (D := D) gs evs
      exact ⟨d, a, v, hd, preferred_of gh, this.1, this.2⟩
  split at h4
  · obtain ⟨x, s3, h5, h6⟩ := bind_ok h4
    obtain ⟨p, s4, h7, h8⟩ := bind_ok h6
    exact key _ _ h8
  · exact key _ _ h4

/-- The record of everything up to the reader contains no writes for the caller. -/
theorem fetchTargetReader_noWrite (path : TargetPath) (s : St W) :
    Grown NoWrite s.io.log (fetchTargetReader E D R cfg path s).2.io.log := by
  refine (Prims.fetchTargetReader (lookup_prims s.io.log NoWrite ?_ ?_ ?_ ?_) ?_ path).run
    (Grown.refl _ _)
  all_goals try simp [NoWrite]
  intro p d
  refine lift_keeps (I := fun io => Grown NoWrite s.io.log io.log) ?_
  intro io hio
  obtain ⟨es, h1, h2⟩ : ∃ es, (fetchTargetStream D R p d io).2.log = io.log ++ es ∧
      ∀ e ∈ es, NoWrite e := by
    have key : Keeps (fun x : Io W => Grown NoWrite io.log x.log) (fetchTargetStream D R p d) := by
      unfold fetchTargetStream
      refine (Keeps.ofExcept _).bind fun q => ?_
      obtain ⟨a, v⟩ := q
      refine Keeps.bind (fun x hx => Grown.snoc hx (by simp [NoWrite])) fun _ => ?_
      refine Keeps.bind (fun x hx => ?_) fun evs => (Keeps.ofExcept _).bind fun rd => Keeps.ret _
      unfold Io.call
      cases (R.remote.fetchTarget p d x.w) with
      | mk r w' => cases r <;> exact hx
    exact key.run (Grown.refl _ _)
  have : Grown NoWrite s.io.log (fetchTargetStream D R p d io).2.log :=
    hio.trans ⟨es, h1, h2⟩
  cases hh : fetchTargetStream D R p d io with
  | mk r io' => rw [hh] at this; cases r <;> exact this

/-! ### C33 -/

/-- **C33.** Whatever the repositories do: if downloading a target to a writer succeeds, the trusted
top-level targets list a description for it, and the bytes the writer received match it. -/
theorem C33_writer_gets_the_target (E : Env) (D : Digest) (R : World W) (cfg : Config)
    (path : TargetPath) (s s' : St W) (r : Reply)
    (h : exec E D R cfg (.fetchTargetToWriter path) s = (.ok r, s')) :
    ∃ d l, TopEntry cfg s.tuf path d ∧ s'.io.log = s.io.log ++ l ∧ Matches D d (written l) := by
  obtain ⟨_, s1, h1, h2⟩ := bind_ok h
  cases h2
  obtain ⟨stream, s2, h3, h4⟩ := bind_ok h1
  obtain ⟨d, a, v, g1, g2, g3, g4⟩ := fetchTargetReader_ok h3
  obtain ⟨l1, k1, k2⟩ := (fetchTargetReader_noWrite (E := E) (D := D) (R := R) (cfg := cfg) path s)
  rw [h3] at k1
  obtain ⟨l2, k3, _, k5⟩ := copyToWriter_written (R := R) stream s2.io
  unfold lift at h4
  cases hc : copyToWriter R stream s2.io with
  | mk r io' =>
    rw [hc] at h4 k3 k5
    cases h4
    have hdel := k5 () rfl
    refine ⟨d, l1 ++ l2, g1, ?_, a, v, g2, ?_, ?_⟩
    · show io'.log = _
      rw [k3]; simp only at k1; rw [k1]; simp
    · rw [written_append, written_noWrite k2, List.nil_append]
      rw [hdel] at g3; exact g3
    · rw [written_append, written_noWrite k2, List.nil_append]
      exact g4 _ hdel

/-- **C33.** And whether or not it succeeds, the writer never receives more than the listed length
(nothing at all if the target is not listed). -/
theorem C33_writer_bounded (E : Env) (D : Digest) (R : World W) (cfg : Config)
    (path : TargetPath) (s : St W) :
    ∃ l, (exec E D R cfg (.fetchTargetToWriter path) s).2.io.log = s.io.log ++ l ∧
      (written l = [] ∨ ∃ d, TopEntry cfg s.tuf path d ∧ (written l).length ≤ d.length) := by
  have hx : (exec E D R cfg (.fetchTargetToWriter path) s).2 =
      (fetchTargetToWriter E D R cfg path s).2 := by
    show (M.bind _ _ s).2 = _
    unfold M.bind
    cases fetchTargetToWriter E D R cfg path s with
    | mk r s' => cases r <;> rfl
  rw [hx]
  obtain ⟨l1, k1, k2⟩ := (fetchTargetReader_noWrite (E := E) (D := D) (R := R) (cfg := cfg) path s)
  show ∃ l, (M.bind _ _ s).2.io.log = _ ∧ _
  unfold M.bind
  cases hr : fetchTargetReader E D R cfg path s with
  | mk r s2 =>
    rw [hr] at k1
    cases r with
    | error e => exact ⟨l1, k1, .inl (written_noWrite k2)⟩
    | ok stream =>
      obtain ⟨d, a, v, g1, g2, g3, _⟩ := fetchTargetReader_ok hr
      obtain ⟨l2, k3, k4, _⟩ := copyToWriter_written (R := R) stream s2.io
      refine ⟨l1 ++ l2, ?_, .inr ⟨d, g1, ?_⟩⟩
      · show (lift (copyToWriter R stream) s2).2.io.log = _
        unfold lift
        cases hc : copyToWriter R stream s2.io with
        | mk r io' =>
          rw [hc] at k3
          show io'.log = _
          rw [k3]; simp only at k1; rw [k1]; simp
      · rw [written_append, written_noWrite k2, List.nil_append]
        exact Nat.le_trans k4.length_le g3

section store
variable {get : W → TargetPath → Option Bytes}

/-- Nothing up to the reader changes stored targets. -/
theorem fetchTargetReader_targets (hR : KeepsTargets R get) (path : TargetPath) (s : St W) :
    get (fetchTargetReader E D R cfg path s).2.io.w = get s.io.w := by
  have call : ∀ {α : Type} (f : W → Except Err α × W), (∀ w, get (f w).2 = get w) →
      Keeps (fun io : Io W => get io.w = get s.io.w) (Io.call f) := by
    intro α f hf io hio
    unfold Io.call
    have := hf io.w
    cases hh : f io.w with
    | mk r w' => rw [hh] at this; cases r <;> exact this.trans hio
  have note : ∀ e : LogEntry, Keeps (fun io : Io W => get io.w = get s.io.w) (Io.note e) :=
    fun e io hio => hio
  have prims : Prims E D R (fun x : St W => get x.io.w = get s.io.w) (fun _ => True) True DelegOp := by
    refine ⟨?_, ?_, ?_, ?_⟩
    · intro src _ role p v mx h
      refine lift_keeps (I := fun io => get io.w = get s.io.w) ?_
      unfold fetchMetadata
      exact (Keeps.ofExcept _).bind fun _ => (note _).bind fun _ =>
        (call _ (hR.fetch src p v mx h)).bind fun evs => (Keeps.ofExcept _).bind fun raw =>
        (note _).bind fun _ => Keeps.ret _
    · intro _ role p v raw
      refine lift_keeps (I := fun io => get io.w = get s.io.w) ?_
      unfold storeMetadata
      exact (Keeps.ofExcept _).bind fun _ => (note _).bind fun _ => call _ (hR.metas p v raw)
    · exact Tri.getClock fun x hx => (hR.clock _).trans hx
    · intro o _
      refine Tri.updateTuf fun x out t' hx _ => ?_
      cases out <;> exact hx
  refine (prims.fetchTargetReader ?_ path).run (s := s) rfl
  intro p d
  refine lift_keeps (I := fun io => get io.w = get s.io.w) ?_
  unfold fetchTargetStream
  refine (Keeps.ofExcept _).bind fun q => ?_
  obtain ⟨a, v⟩ := q
  exact (note _).bind fun _ => (call _ (hR.target p d)).bind fun evs =>
    (Keeps.ofExcept _).bind fun rd => Keeps.ret _

/-- What `fetch_target` leaves in the local repository. -/
theorem fetchTarget_effect (hR : KeepsTargets R get) (path : TargetPath) (s s' : St W)
    (r : Except Err Unit) (h : fetchTarget E D R cfg path s = (r, s')) :
    (∀ e, r = .error e → get s'.io.w = get s.io.w) ∧
    (r = .ok () → ∃ d content, TopEntry cfg s.tuf path d ∧ Matches D d content ∧
      get s'.io.w path = some content ∧ ∀ q, q ≠ path → get s'.io.w q = get s.io.w q) := by
  have hg := fetchTargetReader_targets (E := E) (D := D) (cfg := cfg) hR path s
  change M.bind _ _ s = _ at h
  unfold M.bind at h
  cases hr : fetchTargetReader E D R cfg path s with
  | mk x s2 =>
    rw [hr] at h hg
    cases x with
    | error e => cases h; exact ⟨fun _ _ => hg, by simp⟩
    | ok stream =>
      obtain ⟨d, a, v, g1, g2, g3, g4⟩ := fetchTargetReader_ok hr
      change lift (storeTarget R stream path) s2 = _ at h
      have hst : ∃ io1 : Io W, io1.w = s2.io.w ∧
          storeTarget R stream path s2.io = Io.call (R.storeTarget stream path) io1 :=
        ⟨{ s2.io with log := s2.io.log ++ [.storeTarget path] }, rfl, rfl⟩
      obtain ⟨io1, hw, hst⟩ := hst
      unfold lift at h
      rw [hst] at h
      unfold Io.call at h
      rw [hw] at h
      cases hc : R.storeTarget stream path s2.io.w with
      | mk y w' =>
        rw [hc] at h
        cases h
        constructor
        · rintro e rfl
          exact (hR.error _ _ _ _ _ hc).trans hg
        · rintro rfl
          obtain ⟨bs, k1, k2, k3⟩ := hR.ok _ _ _ _ hc
          refine ⟨d, bs, g1, ⟨a, v, g2, ?_, g4 bs k1⟩, k2, ?_⟩
          · rw [k1] at g3; exact g3
          · intro q hq
            exact (k3 q hq).trans (by rw [hg])

theorem exec_fetchTarget (path : TargetPath) (s : St W) :
    exec E D R cfg (.fetchTarget path) s =
      match fetchTarget E D R cfg path s with
      | (.ok _, s') => (.ok .done, s')
      | (.error e, s') => (.error e, s') := by
  show M.bind _ _ s = _
  unfold M.bind
  cases fetchTarget E D R cfg path s with
  | mk r s' => cases r <;> rfl

/-- **C33.** If downloading a target into a faithful local repository succeeds, that repository then
holds content under the caller's path which matches the description in the trusted top-level targets,
and other targets are untouched. -/
theorem C33_stored_target_matches (E : Env) (D : Digest) (R : World W) (cfg : Config)
    (get : W → TargetPath → Option Bytes) (hR : KeepsTargets R get) (path : TargetPath) (s s' : St W)
    (r : Reply) (h : exec E D R cfg (.fetchTarget path) s = (.ok r, s')) :
    ∃ d content, TopEntry cfg s.tuf path d ∧ Matches D d content ∧
      get s'.io.w path = some content ∧ ∀ q, q ≠ path → get s'.io.w q = get s.io.w q := by
  rw [exec_fetchTarget] at h
  cases hf : fetchTarget E D R cfg path s with
  | mk x s1 =>
    rw [hf] at h
    cases x with
    | error e => cases h
    | ok u => cases h; exact (fetchTarget_effect hR path s _ _ hf).2 rfl

/-! ### C34 -/

/-- **C34.** If downloading a target into a faithful local repository fails, for whatever reason, no
stored target has changed. -/
theorem C34_failure_changes_nothing (E : Env) (D : Digest) (R : World W) (cfg : Config)
    (get : W → TargetPath → Option Bytes) (hR : KeepsTargets R get) (path : TargetPath) (s s' : St W)
    (e : Err) (h : exec E D R cfg (.fetchTarget path) s = (.error e, s')) :
    get s'.io.w = get s.io.w := by
  rw [exec_fetchTarget] at h
  cases hf : fetchTarget E D R cfg path s with
  | mk x s1 =>
    rw [hf] at h
    cases x with
    | error e => cases h; exact (fetchTarget_effect hR path s _ _ hf).1 e rfl
    | ok u => cases h

end store

theorem toy_content (evs : List Ev) : Toy.content evs =
    match delivered evs with
    | (bs, .eof) => .ok bs
    | (_, .error k) => .error k := by
  induction evs with
  | nil => rfl
  | cons ev evs ih =>
    cases ev with
    | pending => exact ih
    | err k => rfl
    | data b =>
      simp only [Toy.content, delivered]
      split
      · rfl
      · rw [ih]
        cases hd : delivered evs with
        | mk bs en => cases en <;> rfl

/-- The toy repository keeps targets faithfully. -/
theorem toy_keepsTargets (files targets now) :
    KeepsTargets (Toy.repos files targets now) (fun w p => w.targets.get? p) where
  ok := by
    intro evs p w w' h
    simp only [Toy.repos, toy_content] at h
    cases hd : delivered evs with
    | mk bs en =>
      rw [hd] at h
      cases en with
      | error k => cases h
      | eof =>
        cases h
        refine ⟨bs, rfl, by simp [Map.get?_insert], ?_⟩
        intro q hq
        simp [Map.get?_insert, hq]
  error := by
    intro evs p w e w' h
    simp only [Toy.repos, toy_content] at h
    cases hd : delivered evs with
    | mk bs en => rw [hd] at h; cases en <;> cases h; rfl
  metas := fun _ _ _ _ => rfl
  fetch := by intro src p v m h w; cases src <;> rfl
  target := fun _ _ _ => rfl
  clock := fun _ => rfl

/-- Downloads after an update: `x` is listed and served, with chunks; a repository serving something
longer or something else under its name makes the download fail and keeps the old content. -/
example :
    let R := Toy.remoteRepo
    let s := execAll Toy.env Toy.digest R Toy.config Toy.client0 [.update]
    (exec Toy.env Toy.digest R Toy.config (.fetchTarget "x".toList) s).1 = .ok .done ∧
    (exec Toy.env Toy.digest R Toy.config (.fetchTargetToWriter "x".toList) s).2.io.w.written = [9] ∧
    (let R' := Toy.repos Toy.remoteFiles [("x".toList, [9, 9])] 100
     (exec Toy.env Toy.digest R' Toy.config (.fetchTarget "x".toList) s).1 = .error .opaqueErr ∧
     (exec Toy.env Toy.digest R' Toy.config (.fetchTarget "x".toList) s).2.io.w.targets = []) ∧
    (let R' := Toy.repos Toy.remoteFiles [("x".toList, [8])] 100
     (exec Toy.env Toy.digest R' Toy.config (.fetchTarget "x".toList) s).1 = .error .opaqueErr) := by
  decide +kernel

/-! ### C35 -/

/-- **C35 (partial).** The client returns a description exactly if the trusted top-level targets list
it (and there is a trusted snapshot). Missing, because the code drops what it finds there: targets
listed by delegated roles. -/
theorem C35_top_level_targets_found_partial (E : Env) (D : Digest) (R : World W) (cfg : Config)
    (path : TargetPath) (s : St W) (d : TargetDescription) :
    (∃ s', exec E D R cfg (.fetchTargetDescription path) s = (.ok (.description d), s')) ↔
      s.tuf.snapshot ≠ none ∧ TopEntry cfg s.tuf path d := by
  constructor
  · rintro ⟨s', h⟩
    obtain ⟨d', s1, h1, h2⟩ := bind_ok h
    cases h2
    refine ⟨?_, fetchTargetDescription_ok h1⟩
    intro hn
    obtain ⟨virt, s2, h3, h4⟩ := bind_ok h1
    obtain ⟨_, rfl⟩ := ofExcept_ok h3
    obtain ⟨t, s3, h5, h6⟩ := bind_ok h4
    cases h5
    rw [hn] at h6
    cases h6
  · rintro ⟨hs, virt, ta, h1, h2, h3⟩
    obtain ⟨sn, hsn⟩ := Option.ne_none_iff_exists'.1 hs
    refine ⟨s, ?_⟩
    show M.bind (M.bind _ _) _ s = _
    simp only [M.bind, M.ofExcept, h1, Bind.bind, getTuf, hsn, h2, Client.lookupIn, h3]
    rfl

/-- **C35 is false for the code**: a target that the trusted top-level targets do not list is never
found, whatever the delegations and repositories. -/
theorem C35_delegated_targets_never_found (E : Env) (D : Digest) (R : World W) (cfg : Config)
    (path : TargetPath) (s : St W) (hn : ∀ d, ¬ TopEntry cfg s.tuf path d) (r : Reply) :
    (exec E D R cfg (.fetchTargetDescription path) s).1 ≠ .ok r ∧
    (exec E D R cfg (.fetchTarget path) s).1 ≠ .ok r ∧
    (exec E D R cfg (.fetchTargetToWriter path) s).1 ≠ .ok r := by
  refine ⟨?_, ?_, ?_⟩
  · intro h
    obtain ⟨d, s1, h1, _⟩ := bind_ok (s' := (exec E D R cfg (.fetchTargetDescription path) s).2)
      (Prod.ext h rfl : exec E D R cfg (.fetchTargetDescription path) s = (.ok r, _))
    exact hn d (fetchTargetDescription_ok h1)
  · intro h
    obtain ⟨u, s1, h1, _⟩ := bind_ok (s' := (exec E D R cfg (.fetchTarget path) s).2)
      (Prod.ext h rfl : exec E D R cfg (.fetchTarget path) s = (.ok r, _))
    obtain ⟨st, s2, h2, _⟩ := bind_ok h1
    obtain ⟨d, _, _, h3, _⟩ := fetchTargetReader_ok h2
    exact hn d h3
  · intro h
    obtain ⟨u, s1, h1, _⟩ := bind_ok (s' := (exec E D R cfg (.fetchTargetToWriter path) s).2)
      (Prod.ext h rfl : exec E D R cfg (.fetchTargetToWriter path) s = (.ok r, _))
    obtain ⟨st, s2, h2, _⟩ := bind_ok h1
    obtain ⟨d, _, _, h3, _⟩ := fetchTargetReader_ok h2
    exact hn d h3

/-- **C35 is false for the code**, concretely: role `b` covers `q/z` and lists it; the client
downloads, verifies and trusts the metadata of `b`, the trusted store then finds the target in it, but
the client reports that there is none. -/
theorem C35_delegated_target_missed :
    ∃ (E : Env) (D : Digest) (R : World Toy.Disk) (s : St Toy.Disk) (path : TargetPath)
      (d : TargetDescription), Decoders E ∧
      (exec E D R Toy.config (.fetchTargetDescription path) s).1 = .error .notFound ∧
      Tuf.targetDescription (Toy.clk 100)
        (exec E D R Toy.config (.fetchTargetDescription path) s).2.tuf path = .ok d :=
  ⟨Toy.env, Toy.digest, Toy.remoteRepo,
    execAll Toy.env Toy.digest Toy.remoteRepo Toy.config Toy.client0 [.update], "q/z".toList,
    Toy.target 5, Toy.env_decoders, by decide +kernel, by decide +kernel⟩

/-- The top-level target is found. -/
example : (exec Toy.env Toy.digest Toy.remoteRepo Toy.config (.fetchTargetDescription "x".toList)
    (execAll Toy.env Toy.digest Toy.remoteRepo Toy.config Toy.client0 [.update])).1 =
      .ok (.description (Toy.target 1)) := by decide +kernel

/-! ### C36 -/

/-- **C36 is false for the code**: with root, timestamp, snapshot and targets all expired, the client
still downloads a target successfully. -/
theorem C36_served_under_expired_metadata :
    ∃ (E : Env) (D : Digest) (R : World Toy.Disk) (s s' : St Toy.Disk) (path : TargetPath)
      (sn : SnapshotMetadata) (ta : TargetsMetadata), Decoders E ∧
      exec E D R Toy.config (.fetchTarget path) s = (.ok .done, s') ∧
      s.tuf.snapshot = some sn ∧ s.tuf.targets = some ta ∧
      ∀ w place, s.tuf.root.expires ≤ (R.clock w).1 place ∧ sn.expires ≤ (R.clock w).1 place ∧
        ta.expires ≤ (R.clock w).1 place :=
  ⟨Toy.env, Toy.digest, Toy.repos [] [("x".toList, [9])] 5000, ⟨Toy.full, ⟨Toy.Disk.empty, []⟩⟩,
    (exec Toy.env Toy.digest (Toy.repos [] [("x".toList, [9])] 5000) Toy.config
      (.fetchTarget "x".toList) ⟨Toy.full, ⟨Toy.Disk.empty, []⟩⟩).2, "x".toList,
    Toy.snapshot 1 500 [("targets", 1), ("a", 1), ("b", 1)], Toy.topTargets, Toy.env_decoders,
    Prod.ext (by decide +kernel) rfl, rfl, rfl,
    fun _ _ => ⟨(by decide : (1000 : Int) ≤ 5000), (by decide : (500 : Int) ≤ 5000),
      (by decide : (500 : Int) ≤ 5000)⟩⟩

/-- Target calls preserve what the walk through delegations preserves. -/
theorem lookupIn_walk (I : St W → Prop) (hclock : Keeps I (getClock R))
    (hio : ∀ {α : Type} (m : M (Io W) α), Keeps I (lift m))
    (hop : ∀ w parent role raw, Keeps I (updateTuf E (.delegation (R.clock w).1 parent role raw)))
    (target : VirtualTargetPath) (sn : SnapshotMetadata) (rem : Nat) : ∀ b m r,
    Keeps I (Client.lookupIn E D R target sn rem b m r) := by
  induction rem with
  | zero => intro b m r; exact Keeps.ret _
  | succ rem ih =>
    intro b m r
    unfold Client.lookupIn
    split
    · exact Keeps.ret _
    · split
      · exact Keeps.ret _
      · refine (lookupLoop_walk I _ b target sn r hclock _ (fun _ _ _ _ _ _ => hio _)
          (fun _ _ _ => hio _) (fun _ _ _ _ => hop _ _ _ _) ?_).post fun _ _ h => h.2
        intro d _ b md
        exact (ih b md d.role).pre fun s hs => hs.1

theorem exec_walk (I : St W → Prop) (hclock : Keeps I (getClock R))
    (hio : ∀ {α : Type} (m : M (Io W) α), Keeps I (lift m))
    (hop : ∀ w parent role raw, Keeps I (updateTuf E (.delegation (R.clock w).1 parent role raw)))
    (c : Call) (hc : c ≠ .update) : Keeps I (exec E D R cfg c) := by
  have h1 : ∀ p, Keeps I (fetchTargetDescription E D R cfg p) := by
    intro p
    unfold fetchTargetDescription
    refine (Keeps.ofExcept _).bind fun virt => (keeps_getTuf I).bind fun t => ?_
    cases t.snapshot with
    | none => exact Keeps.fail _
    | some sn =>
      cases t.targets with
      | none => exact Keeps.fail _
      | some ta =>
        dsimp only
        exact (lookupIn_walk I hclock hio hop virt sn _ _ _ _).bind fun x => Keeps.ofExcept _
  have h2 : ∀ p, Keeps I (fetchTargetReader E D R cfg p) := by
    intro p
    unfold fetchTargetReader
    refine (h1 p).bind fun d => (keeps_getTuf I).bind fun t => ?_
    refine Keeps.ite (fun _ => ?_) (fun _ => hio _)
    exact (Keeps.ofExcept _).bind fun p => (Keeps.ofExcept _).bind fun path => hio _
  cases c with
  | update => exact absurd rfl hc
  | fetchTarget p => exact ((h2 p).bind fun _ => hio _).bind fun _ => Keeps.ret _
  | fetchTargetToWriter p => exact ((h2 p).bind fun _ => hio _).bind fun _ => Keeps.ret _
  | fetchTargetDescription p => exact (h1 p).bind fun _ => Keeps.ret _

/-- **C36 (partial).** While the trusted root, snapshot or targets are expired, target calls bring no
metadata into trust. Missing, because the code does not check it: such calls do not succeed. -/
theorem C36_expired_trusts_nothing_new_partial (E : Env) (D : Digest) (R : World W) (cfg : Config)
    (s : St W)
    (hexp : (∀ w place, s.tuf.root.expires ≤ (R.clock w).1 place) ∨
      (∃ sn, s.tuf.snapshot = some sn ∧ ∀ w place, sn.expires ≤ (R.clock w).1 place) ∨
      (∃ ta, s.tuf.targets = some ta ∧ ∀ w place, ta.expires ≤ (R.clock w).1 place))
    (c : Call) (hc : c ≠ .update) : (exec E D R cfg c s).2.tuf = s.tuf := by
  have hdeleg : ∀ (w : W) parent role raw, ∃ e,
      Tuf.updateDelegation E (R.clock w).1 s.tuf parent role raw = (.error e, s.tuf) := by
    intro w parent role raw
    unfold Tuf.updateDelegation
    rcases hexp with h | ⟨sn, h1, h2⟩ | ⟨ta, h1, h2⟩
    · simp [Tuf.rootUnexpired, h w .root]
    · simp only [Tuf.snapshotUnexpired, h1, h2 w .snapshot, if_true]
      split <;> exact ⟨_, rfl⟩
    · simp only [Tuf.targetsUnexpired, h1, h2 w .targets, if_true]
      repeat' split
      all_goals exact ⟨_, rfl⟩
  refine (exec_walk (fun x : St W => x.tuf = s.tuf) ?_ ?_ ?_ c hc).run rfl
  · exact Tri.getClock fun x hx => hx
  · intro α m x hx
    unfold lift
    cases m x.io with
    | mk r io' => cases r <;> exact hx
  · intro w parent role raw
    refine Tri.updateTuf fun x out t' hx hst => ?_
    obtain ⟨e, he⟩ := hdeleg w parent role raw
    simp only [Tuf.step, hx, he] at hst
    cases hst
    exact rfl

/-- An expired state in which a lookup does consult a repository that offers delegated metadata. -/
example : let R := Toy.repos Toy.remoteFiles [] 5000
    let s : St Toy.Disk := ⟨{ Toy.full with delegations := [] }, ⟨Toy.Disk.empty, []⟩⟩
    (exec Toy.env Toy.digest R Toy.config (.fetchTarget "q/z".toList) s).2.io.log.length = 4 ∧
    (exec Toy.env Toy.digest R Toy.config (.fetchTarget "q/z".toList) s).2.tuf = s.tuf ∧
    (exec Toy.env Toy.digest Toy.remoteRepo Toy.config (.fetchTarget "q/z".toList) s).2.tuf ≠ s.tuf := by
  decide +kernel

/-! ### C37 -/

theorem _root_.RustTuf.Spec.Depth.mono {E : Env} {t : Tuf} {l l' : List LogEntry} (hl : l <+: l') {n : Nat}
    {role : MetadataPath} (h : Depth E t l n role) : Depth E t l' n role := by
  induction h with
  | top ta ds d h1 h2 h3 => exact .top ta ds d h1 h2 h3
  | deeper n role pre post m ds d _ h1 h2 h3 h4 ih =>
    obtain ⟨x, rfl⟩ := hl
    exact .deeper n role pre (post ++ x) m ds d ih (by rw [h1]; simp) h2 h3 h4

/-- The record since `L` explains the trusted store, requests stay within depth `N`, and `S` holds only
of roles at the given depth. -/
def Within (E : Env) (t : Tuf) (L : List LogEntry) (N : Nat) (S : Nat → MetadataPath → Prop)
    (s : St W) : Prop :=
  ∃ l, s.io.log = L ++ l ∧ s.tuf = after E t l ∧
    (∀ src p v m h, .fetch src p v m h ∈ l → ∃ n, 1 ≤ n ∧ n ≤ N ∧ Depth E t l n p) ∧
    ∀ n p, S n p → Depth E t l n p

section depth
variable {t : Tuf} {L : List LogEntry} {N : Nat} {S : Nat → MetadataPath → Prop}

theorem Within.snoc {s s' : St W} (h : Within E t L N S s) (e : LogEntry)
    (h1 : s'.io.log = s.io.log ++ [e]) (h2 : s'.tuf = Tuf.run E s.tuf (opsOf [e]))
    (h3 : ∀ src p v m h, e = .fetch src p v m h → ∃ n, 1 ≤ n ∧ n ≤ N ∧ S n p) :
    Within E t L N S s' := by
  obtain ⟨l, k1, k2, k3, k4⟩ := h
  have hp : l <+: l ++ [e] := List.prefix_append _ _
  refine ⟨l ++ [e], by rw [h1, k1]; simp, ?_, ?_, fun n p hd => (k4 n p hd).mono hp⟩
  · rw [h2, k2, after_append]; rfl
  · intro src p v m h hm
    rcases List.mem_append.1 hm with hm | hm
    · obtain ⟨n, g0, g1, g2⟩ := k3 _ _ _ _ _ hm
      exact ⟨n, g0, g1, g2.mono hp⟩
    · obtain ⟨n, g0, g1, g2⟩ := h3 src p v m h (List.mem_singleton.1 hm).symm
      exact ⟨n, g0, g1, (k4 n p g2).mono hp⟩

theorem Within.same {s s' : St W} (h : Within E t L N S s) (h1 : s'.io.log = s.io.log)
    (h2 : s'.tuf = s.tuf) : Within E t L N S s' := by
  obtain ⟨l, k1, k2, k3⟩ := h
  exact ⟨l, by rw [h1, k1], by rw [h2, k2], k3⟩

theorem Within.grow {s s' : St W} (h : Within E t L N S s) (es : List LogEntry)
    (h1 : s'.io.log = s.io.log ++ es) (h2 : s'.tuf = s.tuf)
    (h3 : ∀ e ∈ es, (∃ p, e = .fetchTarget p) ∨ (∃ p, e = .storeTarget p) ∨ ∃ b, e = .wrote b) :
    Within E t L N S s' := by
  induction es generalizing s with
  | nil => exact h.same (by simpa using h1) h2
  | cons e es ih =>
    refine ih (s := ⟨s.tuf, { s.io with log := s.io.log ++ [e] }⟩) (h.snoc e rfl ?_ ?_)
      (by rw [h1]; simp) h2 (fun e he => h3 e (by simp [he]))
    · rcases h3 e (by simp) with ⟨_, rfl⟩ | ⟨_, rfl⟩ | ⟨_, rfl⟩ <;> rfl
    · rcases h3 e (by simp) with ⟨_, rfl⟩ | ⟨_, rfl⟩ | ⟨_, rfl⟩ <;> simp

theorem within_fetch {role : MetadataPath} (hn : ∃ n, 1 ≤ n ∧ n ≤ N ∧ S n role) (src v mx h) :
    Keeps (fun s : St W => Within E t L N S s)
      (lift (fetchMetadata D R src .targets role v mx h)) := by
  refine Tri.fix fun s0 hs0 => ?_
  have hf : ∀ s' : St W, s'.io.log = s0.io.log ++ [.fetch src role v mx h] → s'.tuf = s0.tuf →
      Within E t L N S s' := fun s' e1 e2 =>
    hs0.snoc _ e1 e2 (by rintro _ _ _ _ _ ⟨⟩; exact hn)
  refine ((fetchMetadata_log (D := D) (R := R) src .targets role v mx h s0.io.log).lift
    s0.tuf).conseq (by rintro s rfl; exact ⟨rfl, rfl⟩) ?_ ?_
  · rintro raw s ⟨e1, _, _, e2⟩
    refine Within.snoc (s := ⟨s0.tuf, { s0.io with log := s0.io.log ++ [.fetch src role v mx h] }⟩)
      (hf _ rfl rfl) (.got src role raw) (by rw [e2]; simp) e1 (by simp)
  · rintro _ s ⟨e1, e2 | e2⟩
    · exact hs0.same e2 e1
    · exact hf s e2 e1

theorem within_store (role : MetadataPath) (raw : Bytes) :
    Keeps (fun s : St W => Within E t L N S s)
      (lift (storeMetadata R .targets role .none raw)) := by
  refine Tri.fix fun s0 hs0 => ?_
  refine ((storeMetadata_log (R := R) .targets role .none raw s0.io.log).lift
    s0.tuf).conseq (by rintro s rfl; exact ⟨rfl, rfl⟩) ?_ ?_
  · rintro _ s ⟨e1, e2⟩
    exact hs0.snoc _ e2 e1 (by simp)
  · rintro _ s ⟨e1, e2 | e2⟩
    · exact hs0.same e2 e1
    · exact hs0.snoc _ e2 e1 (by simp)

theorem within_op (o : Tuf.Op) :
    Keeps (fun s : St W => Within E t L N S s) (updateTuf E o) := by
  refine Tri.updateTuf fun s out t' hs hst => ?_
  have : Within E t L N S (⟨t', { s.io with log := s.io.log ++ [.op o out] }⟩ : St W) :=
    hs.snoc (.op o out) rfl (by show t' = (Tuf.step E s.tuf o).2; rw [hst]) (by simp)
  cases out <;> exact this

theorem lookupIn_depth (target : VirtualTargetPath) (sn : SnapshotMetadata) (rem : Nat) :
    ∀ (n : Nat) (S : Nat → MetadataPath → Prop), 1 ≤ n → n + rem = N + 1 → ∀ b m r,
    (∀ ds, m.delegations = some ds → ∀ d ∈ ds.roles, S n d.role) →
    Keeps (fun s : St W => Within E t L N S s) (Client.lookupIn E D R target sn rem b m r) := by
  induction rem with
  | zero => intro n S _ _ b m r _; exact Keeps.ret _
  | succ rem ih =>
    intro n S h1 hn b m r hS
    unfold Client.lookupIn
    split
    · exact Keeps.ret _
    · split
      · exact Keeps.ret _
      · rename_i ds hds
        refine (lookupLoop_walk (fun s : St W => Within E t L N S s) _ b target sn r
          (Tri.getClock fun s hs => hs.same rfl rfl) ds.roles
          (fun d hd src v mx h => within_fetch ⟨n, h1, by omega, hS ds hds d hd⟩ src v mx h)
          (fun d _ raw => within_store d.role raw) (fun _ _ _ _ => within_op _) ?_).post
          fun _ _ h => h.2
        intro d hd b md
        have step := ih (n + 1) (fun k p => S k p ∨ (k = n + 1 ∧ ∃ ds', md.delegations = some ds' ∧
          ∃ d' ∈ ds'.roles, d'.role = p)) (by omega) (by omega) b md d.role
          (fun ds' h' d' hd' => .inr ⟨rfl, ds', h', d', hd', rfl⟩)
        have weak : ∀ s : St W, Within E t L N (fun k p => S k p ∨ (k = n + 1 ∧ ∃ ds',
            md.delegations = some ds' ∧ ∃ d' ∈ ds'.roles, d'.role = p)) s → Within E t L N S s := by
          rintro s ⟨l, k1, k2, k3, k4⟩
          exact ⟨l, k1, k2, k3, fun k p hp => k4 k p (.inl hp)⟩
        refine Tri.conseq step ?_ (fun _ s hs => weak s hs) (fun _ s hs => weak s hs)
        rintro s ⟨⟨l, k1, k2, k3, k4⟩, hget⟩
        refine ⟨l, k1, k2, k3, ?_⟩
        rintro k p (hp | ⟨rfl, ds', h', d', hd', rfl⟩)
        · exact k4 k p hp
        · exact .deeper n d.role l [] md ds' d' (k4 n _ (hS ds hds d hd)) (by simp)
            (by rw [← k2]; exact hget) h' hd'

end depth

/-- **C37 (partial).** In a target call, every metadata request is for a role at most one delegation
beyond the configured depth below the top-level targets, whatever the repositories serve. (It always
terminates: `C38_terminates`.) Missing, because it is false: that the configured depth itself is
respected. -/
theorem C37_depth_bounded_partial (E : Env) (D : Digest) (R : World W) (cfg : Config)
    (c : Call) (hc : c ≠ .update) (s : St W) :
    ∃ l, (exec E D R cfg c s).2.io.log = s.io.log ++ l ∧
      ∀ src p v m h, .fetch src p v m h ∈ l →
        ∃ n, 1 ≤ n ∧ n ≤ cfg.maxDelegationDepth + 1 ∧ Depth E s.tuf l n p := by
  let S : Nat → MetadataPath → Prop := fun n p => n = 1 ∧ ∃ ta ds d, s.tuf.targets = some ta ∧
    ta.delegations = some ds ∧ d ∈ ds.roles ∧ d.role = p
  have h0 : Within E s.tuf s.io.log (cfg.maxDelegationDepth + 1) S s := by
    refine ⟨[], by simp, rfl, by simp, ?_⟩
    rintro n p ⟨rfl, ta, ds, d, h1, h2, h3, rfl⟩
    exact .top ta ds d h1 h2 h3
  have run : Within E s.tuf s.io.log (cfg.maxDelegationDepth + 1) S
      (exec E D R cfg c s).2 := by
    have hk : ∀ path, Tri (fun x : St W => x = s) (fetchTargetDescription E D R cfg path)
        (fun _ => Within E s.tuf s.io.log (cfg.maxDelegationDepth + 1) S)
        (fun _ => Within E s.tuf s.io.log (cfg.maxDelegationDepth + 1) S) := by
      intro path
      unfold fetchTargetDescription
      refine Tri.bind (Q := fun _ x => x = s) (Tri.ofExcept (fun _ _ _ h => h)
        (fun _ _ _ h => h ▸ h0)) fun virt => ?_
      refine Tri.bind (Q := fun (t : Tuf) (x : St W) => t = s.tuf ∧ x = s)
        (by rintro x rfl; exact ⟨rfl, rfl⟩) fun t => Tri.assume fun ht => ?_
      subst ht
      cases hsn : s.tuf.snapshot with
      | none => exact Tri.fail fun x h => h ▸ h0
      | some sn =>
        cases hta : s.tuf.targets with
        | none => exact Tri.fail fun x h => h ▸ h0
        | some ta =>
          dsimp only
          refine Tri.bind ((lookupIn_depth virt sn (cfg.maxDelegationDepth + 1) 1 S (by omega)
            (by omega) false ta _ ?_).pre fun x h => h ▸ h0) fun x => Keeps.ofExcept _
          intro ds hds d hd
          exact ⟨rfl, ta, ds, d, hta, hds, hd, rfl⟩
    have grow : ∀ {α : Type} (m : M (Io W) α), (∀ io, ∃ es, (m io).2.log = io.log ++ es ∧
        ∀ e ∈ es, (∃ p, e = .fetchTarget p) ∨ (∃ p, e = .storeTarget p) ∨ ∃ b, e = .wrote b) →
        Keeps (fun x : St W => Within E s.tuf s.io.log (cfg.maxDelegationDepth + 1) S x) (lift m) := by
      intro α m hm x hx
      obtain ⟨es, e1, e2⟩ := hm x.io
      have : Within E s.tuf s.io.log (cfg.maxDelegationDepth + 1) S ({ x with io := (m x.io).2 } : St W) :=
        hx.grow es e1 rfl e2
      unfold lift
      cases hh : m x.io with
      | mk r io' => rw [hh] at this; cases r <;> exact this
    have hr : ∀ path, Tri (fun x : St W => x = s) (fetchTargetReader E D R cfg path)
        (fun _ => Within E s.tuf s.io.log (cfg.maxDelegationDepth + 1) S)
        (fun _ => Within E s.tuf s.io.log (cfg.maxDelegationDepth + 1) S) := by
      intro path
      unfold fetchTargetReader
      refine Tri.bind (hk path) fun d => Tri.bind (keeps_getTuf _) fun t => ?_
      refine Keeps.ite (fun _ => ?_) (fun _ => grow _ (fetchTargetStream_grow _ _))
      exact (Keeps.ofExcept _).bind fun p => (Keeps.ofExcept _).bind fun path =>
        grow _ (fetchTargetStream_grow _ _)
    have hx : Tri (fun x : St W => x = s) (exec E D R cfg c)
        (fun _ => Within E s.tuf s.io.log (cfg.maxDelegationDepth + 1) S)
        (fun _ => Within E s.tuf s.io.log (cfg.maxDelegationDepth + 1) S) := by
      cases c with
      | update => exact absurd rfl hc
      | fetchTarget p =>
        exact Tri.bind (Tri.bind (hr p) fun st => grow _ (storeTarget_grow st p)) fun _ => Keeps.ret _
      | fetchTargetToWriter p =>
        refine Tri.bind (Tri.bind (hr p) fun st => grow _ fun io => ?_) fun _ => Keeps.ret _
        obtain ⟨bs, h⟩ := copyToWriter_grow (R := R) st io
        exact ⟨_, h, by simp⟩
      | fetchTargetDescription p => exact Tri.bind (hk p) fun _ => Keeps.ret _
    have := hx s rfl
    cases hh : exec E D R cfg c s with
    | mk r s' => rw [hh] at this; cases r <;> exact this
  obtain ⟨l, h1, _, h3, _⟩ := run
  exact ⟨l, h1, h3⟩

theorem depth_pos {E : Env} {t : Tuf} {l : List LogEntry} {n : Nat} {p : MetadataPath}
    (h : Depth E t l n p) : 1 ≤ n := by
  cases h <;> omega

/-- **C37 is false for the code**: with a maximal depth of zero the client still requests metadata of a
delegated role, which is at no depth below one. -/
theorem C37_depth_exceeded :
    ∃ (E : Env) (D : Digest) (R : World Toy.Disk) (cfg : Config) (s : St Toy.Disk) (path : TargetPath)
      (l : List LogEntry), Decoders E ∧ cfg.maxDelegationDepth = 0 ∧
      (exec E D R cfg (.fetchTargetDescription path) s).2.io.log = s.io.log ++ l ∧
      ∃ src p v m h, .fetch src p v m h ∈ l ∧
        ∀ n, Depth E s.tuf l n p → cfg.maxDelegationDepth < n := by
  refine ⟨Toy.env, Toy.digest, Toy.remoteRepo, { Toy.config with maxDelegationDepth := 0 },
    ⟨{ Toy.full with delegations := [] }, ⟨Toy.Disk.empty, []⟩⟩, "q/z".toList, _, Toy.env_decoders, rfl,
    (List.nil_append _).symm, .cache, "b".toList, .none, some 10, some (.sha256, [1, 2, 3]), ?_, ?_⟩
  · have h : ((exec Toy.env Toy.digest Toy.remoteRepo { Toy.config with maxDelegationDepth := 0 }
        (.fetchTargetDescription "q/z".toList)
        ⟨{ Toy.full with delegations := [] }, ⟨Toy.Disk.empty, []⟩⟩).2.io.log).any (fun e => match e with
          | .fetch src p v m h => decide (Req.mk src p v m h =
              ⟨.cache, "b".toList, .none, some 10, some (.sha256, [1, 2, 3])⟩)
          | _ => false) = true := by decide +kernel
    obtain ⟨e, h1, h2⟩ := List.any_eq_true.1 h
    cases e with
    | fetch src p v m hd =>
      have := of_decide_eq_true h2
      cases this
      exact h1
    | _ => cases h2
  · intro n hn
    exact depth_pos hn

end RustTuf.Props
