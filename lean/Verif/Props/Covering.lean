import Verif.Props.ClientTargets
import Verif.Spec.Covering
import Verif.Lemmas.Chain

/-!
# C98: a search asks only roles that may know the target
-/

namespace RustTuf.Props
open Client Spec RustTuf
variable {W : Type} {E : Env} {D : Digest} {R : World W} {cfg : Config}

theorem covers_iff (d : Delegation) (path : VirtualTargetPath) :
    (d.paths.any fun p => isChild path p) = true ↔ Covers d path := by
  rw [List.any_eq_true]
  constructor
  · rintro ⟨p, h1, h2⟩
    exact ⟨p, h1, (isChild_iff path p).1 h2⟩
  · rintro ⟨p, h1, h2⟩
    exact ⟨p, h1, (isChild_iff path p).2 h2⟩

/-- What the search for a target preserves, a call about a target preserves, if it is indifferent to
requests for targets and to output. -/
theorem exec_target (I : St W → Prop) (s : St W) (c : Call) (path : TargetPath)
    (hc : calledPath c = some path)
    (hk : Tri (fun x : St W => x = s) (fetchTargetDescription E D R cfg path) (fun _ => I) (fun _ => I))
    (grow : ∀ (x x' : St W) (es : List LogEntry), I x → x'.io.log = x.io.log ++ es → x'.tuf = x.tuf →
      (∀ e ∈ es, (∃ p, e = .fetchTarget p) ∨ (∃ p, e = .storeTarget p) ∨ ∃ b, e = .wrote b) → I x') :
    I (exec E D R cfg c s).2 := by
  have grow : ∀ {α : Type} (m : M (Io W) α), (∀ io, ∃ es, (m io).2.log = io.log ++ es ∧
      ∀ e ∈ es, (∃ p, e = .fetchTarget p) ∨ (∃ p, e = .storeTarget p) ∨ ∃ b, e = .wrote b) →
      Keeps I (lift m) := by
    intro α m hm x hx
    obtain ⟨es, e1, e2⟩ := hm x.io
    have : I ({ x with io := (m x.io).2 } : St W) := grow x _ es hx e1 rfl e2
    unfold lift
    cases hh : m x.io with
    | mk r io' => rw [hh] at this; cases r <;> exact this
  have hr : Tri (fun x : St W => x = s) (fetchTargetReader E D R cfg path) (fun _ => I) (fun _ => I) := by
    unfold fetchTargetReader
    refine Tri.bind hk fun d => Tri.bind (keeps_getTuf _) fun t => ?_
    refine Keeps.ite (fun _ => ?_) (fun _ => grow _ (fetchTargetStream_grow _ _))
    exact (Keeps.ofExcept _).bind fun p => (Keeps.ofExcept _).bind fun path =>
      grow _ (fetchTargetStream_grow _ _)
  have hx : Tri (fun x : St W => x = s) (exec E D R cfg c) (fun _ => I) (fun _ => I) := by
    cases c with
    | update => cases hc
    | fetchTarget p =>
      cases hc
      exact Tri.bind (Tri.bind hr fun st => grow _ (storeTarget_grow st path)) fun _ => Keeps.ret _
    | fetchTargetToWriter p =>
      cases hc
      refine Tri.bind (Tri.bind hr fun st => grow _ fun io => ?_) fun _ => Keeps.ret _
      obtain ⟨bs, h⟩ := copyToWriter_grow (R := R) st io
      exact ⟨_, h, by simp⟩
    | fetchTargetDescription p => cases hc; exact Tri.bind hk fun _ => Keeps.ret _
  have := hx s rfl
  cases hh : exec E D R cfg c s with
  | mk r s' => rw [hh] at this; cases r <;> exact this

theorem _root_.RustTuf.Spec.Leads.mono {t : Tuf} {path : VirtualTargetPath} {l l' : List LogEntry}
    (hl : l <+: l') {role : MetadataPath} (h : Leads E t path l role) : Leads E t path l' role := by
  induction h with
  | top ta ds d h1 h2 h3 h4 => exact .top ta ds d h1 h2 h3 h4
  | deeper role pre post m ds d _ h1 h2 h3 h4 h5 ih =>
    obtain ⟨x, rfl⟩ := hl
    exact .deeper role pre (post ++ x) m ds d ih (by rw [h1]; simp) h2 h3 h4 h5

section
variable {t : Tuf} {L : List LogEntry} {path : VirtualTargetPath} {sn : SnapshotMetadata}
  {S : MetadataPath → Prop}

/-- The record since `L` explains the trusted store, each request so far was for a role that
delegations led to at the time and that the snapshot lists, and `S` holds only of roles that
delegations lead to. -/
def Led (E : Env) (t : Tuf) (L : List LogEntry) (path : VirtualTargetPath) (sn : SnapshotMetadata)
    (S : MetadataPath → Prop) (s : St W) : Prop :=
  ∃ l, s.io.log = L ++ l ∧ s.tuf = after E t l ∧
    (∀ pre post src p v m h, l = pre ++ .fetch src p v m h :: post →
      (sn.metas.get? p).isSome ∧ Leads E t path pre p) ∧
    ∀ p, S p → Leads E t path l p

theorem Led.snoc {s s' : St W} (h : Led E t L path sn S s) (e : LogEntry)
    (h1 : s'.io.log = s.io.log ++ [e]) (h2 : s'.tuf = Tuf.run E s.tuf (opsOf [e]))
    (h3 : ∀ src p v m h, e = .fetch src p v m h → (sn.metas.get? p).isSome ∧ S p) :
    Led E t L path sn S s' := by
  obtain ⟨l, k1, k2, k3, k4⟩ := h
  refine ⟨l ++ [e], by rw [h1, k1]; simp, ?_, ?_, fun p hd => (k4 p hd).mono (List.prefix_append _ _)⟩
  · rw [h2, k2, after_append]; rfl
  · intro pre post src p v m h hm
    rcases List.eq_nil_or_concat post with rfl | ⟨post', x, rfl⟩
    · have := List.append_inj' hm rfl
      obtain ⟨rfl, he⟩ := this
      obtain ⟨g1, g2⟩ := h3 src p v m h (List.singleton_inj.1 he)
      exact ⟨g1, k4 p g2⟩
    · rw [List.concat_eq_append, ← List.cons_append, ← List.append_assoc] at hm
      exact k3 pre post' src p v m h (List.append_inj' hm rfl).1

theorem Led.same {s s' : St W} (h : Led E t L path sn S s) (h1 : s'.io.log = s.io.log)
    (h2 : s'.tuf = s.tuf) : Led E t L path sn S s' := by
  obtain ⟨l, k1, k2, k3⟩ := h
  exact ⟨l, by rw [h1, k1], by rw [h2, k2], k3⟩

theorem Led.grow {s s' : St W} (h : Led E t L path sn S s) (es : List LogEntry)
    (h1 : s'.io.log = s.io.log ++ es) (h2 : s'.tuf = s.tuf)
    (h3 : ∀ e ∈ es, (∃ p, e = .fetchTarget p) ∨ (∃ p, e = .storeTarget p) ∨ ∃ b, e = .wrote b) :
    Led E t L path sn S s' := by
  induction es generalizing s with
  | nil => exact h.same (by simpa using h1) h2
  | cons e es ih =>
    refine ih (s := ⟨s.tuf, { s.io with log := s.io.log ++ [e] }⟩) (h.snoc e rfl ?_ ?_)
      (by rw [h1]; simp) h2 (fun e he => h3 e (by simp [he]))
    · rcases h3 e (by simp) with ⟨_, rfl⟩ | ⟨_, rfl⟩ | ⟨_, rfl⟩ <;> rfl
    · rcases h3 e (by simp) with ⟨_, rfl⟩ | ⟨_, rfl⟩ | ⟨_, rfl⟩ <;> simp

theorem led_fetch {role : MetadataPath} (hn : (sn.metas.get? role).isSome ∧ S role) (src v mx h) :
    Keeps (fun s : St W => Led E t L path sn S s)
      (lift (fetchMetadata D R src .targets role v mx h)) := by
  refine Tri.fix fun s0 hs0 => ?_
  have hf : ∀ s' : St W, s'.io.log = s0.io.log ++ [.fetch src role v mx h] → s'.tuf = s0.tuf →
      Led E t L path sn S s' := fun s' e1 e2 =>
    hs0.snoc _ e1 e2 (by rintro _ _ _ _ _ ⟨⟩; exact hn)
  refine ((fetchMetadata_log (D := D) (R := R) src .targets role v mx h s0.io.log).lift
    s0.tuf).conseq (by rintro s rfl; exact ⟨rfl, rfl⟩) ?_ ?_
  · rintro raw s ⟨e1, _, _, e2⟩
    refine Led.snoc (s := ⟨s0.tuf, { s0.io with log := s0.io.log ++ [.fetch src role v mx h] }⟩)
      (hf _ rfl rfl) (.got src role raw) (by rw [e2]; simp) e1 (by simp)
  · rintro _ s ⟨e1, e2 | e2⟩
    · exact hs0.same e2 e1
    · exact hf s e2 e1

theorem led_store (role : MetadataPath) (raw : Bytes) :
    Keeps (fun s : St W => Led E t L path sn S s)
      (lift (storeMetadata R .targets role .none raw)) := by
  refine Tri.fix fun s0 hs0 => ?_
  refine ((storeMetadata_log (R := R) .targets role .none raw s0.io.log).lift
    s0.tuf).conseq (by rintro s rfl; exact ⟨rfl, rfl⟩) ?_ ?_
  · rintro _ s ⟨e1, e2⟩
    exact hs0.snoc _ e2 e1 (by simp)
  · rintro _ s ⟨e1, e2 | e2⟩
    · exact hs0.same e2 e1
    · exact hs0.snoc _ e2 e1 (by simp)

theorem led_op (o : Tuf.Op) :
    Keeps (fun s : St W => Led E t L path sn S s) (updateTuf E o) := by
  refine Tri.updateTuf fun s out t' hs hst => ?_
  have : Led E t L path sn S (⟨t', { s.io with log := s.io.log ++ [.op o out] }⟩ : St W) :=
    hs.snoc (.op o out) rfl (by show t' = (Tuf.step E s.tuf o).2; rw [hst]) (by simp)
  cases out <;> exact this

/-- The roles that `m` delegates `path` to. -/
def Next (path : VirtualTargetPath) (m : TargetsMetadata) (p : MetadataPath) : Prop :=
  ∃ ds, m.delegations = some ds ∧ ∃ d ∈ ds.roles, Covers d path ∧ d.role = p

theorem lookupIn_led (rem : Nat) :
    ∀ (S : MetadataPath → Prop) b m r, (∀ p, Next path m p → S p) →
    Keeps (fun s : St W => Led E t L path sn S s) (Client.lookupIn E D R path sn rem b m r) := by
  induction rem with
  | zero => intro S b m r _; exact Keeps.ret _
  | succ rem ih =>
    intro S b m r hS
    unfold Client.lookupIn
    split
    · exact Keeps.ret _
    · split
      · exact Keeps.ret _
      · rename_i ds hds
        have next : ∀ d ∈ ds.roles, (d.paths.any fun p => isChild path p) = true → S d.role :=
          fun d hd hcov => hS _ ⟨ds, hds, d, hd, (covers_iff d path).1 hcov, rfl⟩
        refine (lookupLoop_covered (fun s : St W => Led E t L path sn S s) _ b path sn r
          (Tri.getClock fun s hs => hs.same rfl rfl) ds.roles
          (fun d hd hcov hsn src v mx h => led_fetch ⟨hsn, next d hd hcov⟩ src v mx h)
          (fun d _ raw => led_store d.role raw) (fun _ _ _ _ => led_op _) ?_).post
          fun _ _ h => h.2
        intro d hd hcov _ b md
        have weak : ∀ s : St W, Led E t L path sn (fun p => S p ∨ Next path md p) s →
            Led E t L path sn S s := by
          rintro s ⟨l, k1, k2, k3, k4⟩
          exact ⟨l, k1, k2, k3, fun p hp => k4 p (.inl hp)⟩
        refine Tri.conseq (ih (fun p => S p ∨ Next path md p) b md d.role fun p hp => .inr hp)
          ?_ (fun _ s hs => weak s hs) (fun _ s hs => weak s hs)
        rintro s ⟨⟨l, k1, k2, k3, k4⟩, hget⟩
        refine ⟨l, k1, k2, k3, ?_⟩
        rintro p (hp | ⟨ds', h', d', hd', hcov', rfl⟩)
        · exact k4 p hp
        · exact .deeper d.role l [] md ds' d' (k4 _ (next d hd hcov)) (by simp)
            (by rw [← k2]; exact hget) h' hd' hcov'

end

/-- **C98.** In a call about a target, every request for metadata is for a role that the snapshot
trusted at the start of the call lists, and that a chain of delegations leads to which starts at the
top-level targets trusted at the start. Each delegation in the chain comes from metadata that was
trusted before the request, and each names a directory that contains the path of the target. -/
theorem C98_only_covering_roles (E : Env) (D : Digest) (R : World W) (cfg : Config) (c : Call)
    (path : TargetPath) (hc : calledPath c = some path) (s : St W) :
    ∃ l, (exec E D R cfg c s).2.io.log = s.io.log ++ l ∧
      ∀ pre post src p v m h, l = pre ++ .fetch src p v m h :: post →
        ∃ virt sn descr, cfg.realToVirtual path = .ok virt ∧ s.tuf.snapshot = some sn ∧
          sn.metas.get? p = some descr ∧ Leads E s.tuf virt pre p := by
  let I : St W → Prop := fun x =>
    (∃ l, x.io.log = s.io.log ++ l ∧ ∀ src p v m h, .fetch src p v m h ∉ l) ∨
    ∃ virt sn S, cfg.realToVirtual path = .ok virt ∧ s.tuf.snapshot = some sn ∧
      Led E s.tuf s.io.log virt sn S x
  have none0 : I s := .inl ⟨[], by simp, by simp⟩
  have run : I (exec E D R cfg c s).2 := by
    refine exec_target I s c path hc ?_ ?_
    · unfold fetchTargetDescription
      refine Tri.bind (Q := fun virt x => cfg.realToVirtual path = .ok virt ∧ x = s)
        (Tri.ofExcept (fun _ _ e h => ⟨e, h⟩) (fun _ _ _ h => h ▸ none0)) fun virt =>
        Tri.assume fun hv => ?_
      refine Tri.bind (Q := fun (t : Tuf) (x : St W) => t = s.tuf ∧ x = s)
        (by rintro x rfl; exact ⟨rfl, rfl⟩) fun t => Tri.assume fun ht => ?_
      subst ht
      cases hsn : s.tuf.snapshot with
      | none => exact Tri.fail fun x h => h ▸ none0
      | some sn =>
        cases hta : s.tuf.targets with
        | none => exact Tri.fail fun x h => h ▸ none0
        | some ta =>
          dsimp only
          have h0 : Led E s.tuf s.io.log virt sn (Next virt ta) s := by
            refine ⟨[], by simp, rfl, by simp, ?_⟩
            rintro p ⟨ds, h1, d, h2, h3, rfl⟩
            exact .top ta ds d hta h1 h2 h3
          refine Tri.conseq (P := fun x => x = s)
            (Tri.bind ((lookupIn_led (D := D) (R := R) (cfg.maxDelegationDepth + 1) (Next virt ta) false ta
              (MetadataPath.fromRole .targets) fun p hp => hp).pre (by rintro x rfl; exact h0)) fun x =>
              Keeps.ofExcept _) (fun _ h => h) ?_ ?_
          · exact fun _ x hx => .inr ⟨virt, sn, _, hv, hsn, hx⟩
          · exact fun _ x hx => .inr ⟨virt, sn, _, hv, hsn, hx⟩
    · rintro x x' es (⟨l, h1, h2⟩ | ⟨virt, sn, S, h1, h2, h3⟩) g1 g2 g3
      · refine .inl ⟨l ++ es, by rw [g1, h1]; simp, ?_⟩
        intro src p v m h hm
        rcases List.mem_append.1 hm with hm | hm
        · exact h2 _ _ _ _ _ hm
        · rcases g3 _ hm with ⟨_, h⟩ | ⟨_, h⟩ | ⟨_, h⟩ <;> cases h
      · exact .inr ⟨virt, sn, S, h1, h2, h3.grow es g1 g2 g3⟩
  rcases run with ⟨l, h1, h2⟩ | ⟨virt, sn, S, h1, h2, l, k1, _, k3, _⟩
  · refine ⟨l, h1, fun pre post src p v m h hl => absurd ?_ (h2 src p v m h)⟩
    rw [hl]; simp
  · refine ⟨l, k1, fun pre post src p v m h hl => ?_⟩
    obtain ⟨g1, g2⟩ := k3 pre post src p v m h hl
    obtain ⟨descr, g1⟩ := Option.isSome_iff_exists.1 g1
    exact ⟨virt, sn, descr, h1, h2, g1, g2⟩

/-- The hypotheses can be met, and the conclusion is about real requests: role `b` is asked for `q/z`
and role `a`, which has another directory, is not. -/
example : calledPath (.fetchTargetDescription "q/z".toList) = some "q/z".toList ∧
    ((exec Toy.env Toy.digest Toy.remoteRepo Toy.config (.fetchTargetDescription "q/z".toList)
      ⟨{ Toy.full with delegations := [] }, ⟨Toy.Disk.empty, []⟩⟩).2.io.log.filterMap fun e => match e with
        | .fetch _ p _ _ _ => some p
        | _ => none) = ["b".toList, "b".toList] := by
  decide +kernel

/-- **C98.** If no delegation of the top-level targets names a directory that contains the path, a call
about a target asks for no metadata at all. (A delegation that names the path itself does not count.) -/
theorem C98_nothing_to_ask (E : Env) (D : Digest) (R : World W) (cfg : Config) (c : Call)
    (path : TargetPath) (hc : calledPath c = some path) (s : St W)
    (h : ∀ virt ta ds, cfg.realToVirtual path = .ok virt → s.tuf.targets = some ta →
      ta.delegations = some ds → ∀ d ∈ ds.roles, ¬ Covers d virt) :
    ∃ l, (exec E D R cfg c s).2.io.log = s.io.log ++ l ∧ ∀ src p v m h, .fetch src p v m h ∉ l := by
  obtain ⟨l, h1, h2⟩ := C98_only_covering_roles E D R cfg c path hc s
  refine ⟨l, h1, fun src p v m hd hm => ?_⟩
  obtain ⟨pre, post, hl⟩ := List.append_of_mem hm
  obtain ⟨virt, sn, descr, g1, _, _, g2⟩ := h2 _ _ _ _ _ _ _ hl
  have : ∀ {l p}, Leads E s.tuf virt l p → False := by
    intro l p hp
    induction hp with
    | top ta ds d k1 k2 k3 k4 => exact h virt ta ds g1 k1 k2 d k3 k4
    | deeper _ _ _ _ _ _ _ _ _ _ _ _ ih => exact ih
  exact this g2

/-- The hypothesis can be met: no directory of `Toy.topTargets` contains `r/z`. -/
example (virt : VirtualTargetPath) (ta : TargetsMetadata) (ds : Delegations)
    (hv : Toy.config.realToVirtual "r/z".toList = .ok virt) (h1 : Toy.full.targets = some ta)
    (h2 : ta.delegations = some ds) (d : Delegation) (hd : d ∈ ds.roles) : ¬ Covers d virt := by
  cases h1
  cases h2
  cases hv
  rw [← covers_iff]
  revert d
  decide +kernel

end RustTuf.Props
