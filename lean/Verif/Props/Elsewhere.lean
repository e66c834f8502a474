import Verif.Props.Covering
import Verif.Spec.Elsewhere

/-!
# C104: delegations for other paths
-/

namespace RustTuf.Props
open Client Spec RustTuf

section commute
variable {W : Type} {E : Env} {D : Digest} {R : World W} {cfg : Config}
  {ta : TargetsMetadata} {ds : Delegations} {roles : List Delegation}
  {I : Map MetadataPath TargetsMetadata → Prop} {ok : MetadataPath → Delegation → Prop}

/-- What is known of the trusted metadata during a search. -/
structure Known (ta : TargetsMetadata) (I : Map MetadataPath TargetsMetadata → Prop) (t : Tuf) : Prop where
  top : t.targets = some ta
  inv : I t.delegations

/-- Changing the trusted delegations first makes no difference. -/
def Comm {α : Type} (ta : TargetsMetadata) (ds : Delegations) (roles : List Delegation)
    (I : Map MetadataPath TargetsMetadata → Prop) (m m' : M (St W) α) : Prop :=
  ∀ s : St W, Known ta I s.tuf →
    m' (withDelegations ta ds roles s) = ((m s).1, withDelegations ta ds roles (m s).2) ∧
      Known ta I (m s).2.tuf

/-- `ok parent d`: the keys for delegation `d` of `parent` are found in the same way, and so on for the
delegations of the role that `d` names. -/
structure Fits (E : Env) (ta : TargetsMetadata) (ds : Delegations) (roles : List Delegation)
    (I : Map MetadataPath TargetsMetadata → Prop) (ok : MetadataPath → Delegation → Prop) : Prop where
  find : ∀ t parent d, Known ta I t → ok parent d →
    Tuf.findDelegation { t with
      targets := some { ta with delegations := some { ds with roles := roles } } } parent d.role =
      t.findDelegation parent d.role
  next : ∀ l parent d m ds', I l → ok parent d → Map.get? l d.role = some m → m.delegations = some ds' →
    ∀ c ∈ ds'.roles, ok d.role c
  keep : ∀ l role raw m, I l → E.targetsFromSlice raw = .ok m → I (Map.insert l role m)

theorem Comm.pure {α : Type} (a : α) : Comm (W := W) ta ds roles I (M.pure a) (M.pure a) :=
  fun _ h => ⟨rfl, h⟩

theorem Comm.ret {α : Type} (a : α) :
    Comm (W := W) ta ds roles I (Pure.pure a) (Pure.pure a) := fun _ h => ⟨rfl, h⟩

theorem Comm.fail {α : Type} (e : Err) : Comm (W := W) (α := α) ta ds roles I (M.fail e) (M.fail e) :=
  fun _ h => ⟨rfl, h⟩

theorem Comm.ofExcept {α : Type} (x : Except Err α) :
    Comm (W := W) ta ds roles I (M.ofExcept x) (M.ofExcept x) := by
  cases x <;> exact fun _ h => ⟨rfl, h⟩

theorem bind_run {σ α β : Type} (m : M σ α) (f : α → M σ β) (s : σ) : (m >>= f) s = match m s with
    | (.ok a, s') => f a s'
    | (.error e, s') => (.error e, s') := rfl

theorem Comm.bind {α β : Type} {m m' : M (St W) α} {f f' : α → M (St W) β}
    (h : Comm ta ds roles I m m') (hf : ∀ a, Comm ta ds roles I (f a) (f' a)) :
    Comm ta ds roles I (m >>= f) (m' >>= f') := by
  intro s hs
  obtain ⟨h1, h2⟩ := h s hs
  rw [bind_run m' f', bind_run m f, h1]
  cases hm : m s with
  | mk r s' =>
    rw [hm] at h2
    cases r with
    | error e => exact ⟨rfl, h2⟩
    | ok a => exact hf a s' h2

theorem Comm.okBind {α β : Type} {a : α} {f f' : α → M (St W) β} (h : Comm ta ds roles I (f a) (f' a)) :
    Comm ta ds roles I (M.ofExcept (.ok a) >>= f) (M.ofExcept (.ok a) >>= f') := h

theorem Comm.attempt {α : Type} {m m' : M (St W) α} (h : Comm ta ds roles I m m') :
    Comm ta ds roles I (M.attempt m) (M.attempt m') := by
  intro s hs
  obtain ⟨h1, h2⟩ := h s hs
  unfold M.attempt
  rw [h1]
  cases hm : m s with
  | mk r s' =>
    rw [hm] at h2
    cases r with
    | error e => cases e <;> exact ⟨rfl, h2⟩
    | ok a => exact ⟨rfl, h2⟩

theorem Comm.lift {α : Type} (m : M (Io W) α) :
    Comm ta ds roles I (Client.lift m) (Client.lift m) := by
  intro s hs
  unfold Client.lift
  have e : (withDelegations ta ds roles s).io = s.io := rfl
  rw [e]
  cases m s.io with
  | mk r io => exact ⟨rfl, hs⟩

theorem Comm.getClock : Comm ta ds roles I (getClock R) (getClock R) := by
  intro s hs
  unfold Client.getClock
  have e : (withDelegations ta ds roles s).io = s.io := rfl
  rw [e]
  cases R.clock s.io.w with
  | mk c w => exact ⟨rfl, hs⟩

theorem Comm.getTuf {β : Type} {f f' : Tuf → M (St W) β}
    (h : ∀ t : Tuf, Known ta I t → Comm ta ds roles I (f t) (f' { t with
      targets := some { ta with delegations := some { ds with roles := roles } } })) :
    Comm ta ds roles I (Client.getTuf >>= f) (Client.getTuf >>= f') :=
  fun s hs => h s.tuf hs s hs

theorem find_same {l l' : List Delegation} (h : SameRoles l l') (role : MetadataPath) :
    (l.find? fun d => decide (d.role = role)) = none ∧ (l'.find? fun d => decide (d.role = role)) = none ∨
    ∃ d d', (l.find? fun d => decide (d.role = role)) = some d ∧
      (l'.find? fun d => decide (d.role = role)) = some d' ∧ d'.threshold = d.threshold ∧
      d'.keyIds = d.keyIds := by
  obtain ⟨_, n2, h1, h2⟩ := h
  cases h3 : l.find? fun d => decide (d.role = role) with
  | none =>
    left
    refine ⟨rfl, ?_⟩
    rw [List.find?_eq_none] at h3 ⊢
    intro d' hd' hr
    obtain ⟨d, hd, e⟩ := h2 d' hd'
    refine h3 d hd ?_
    rw [decide_eq_true_eq] at hr ⊢
    rw [e, hr]
  | some d =>
    right
    have hd := List.mem_of_find?_eq_some h3
    have hr : d.role = role := by simpa using List.find?_some h3
    obtain ⟨d', hd', e1, e2, e3⟩ := h1 d hd
    cases h4 : l'.find? fun d => decide (d.role = role) with
    | none =>
      rw [List.find?_eq_none] at h4
      exact absurd (by rw [decide_eq_true_eq, e1, hr]) (h4 d' hd')
    | some d'' =>
      have hd'' := List.mem_of_find?_eq_some h4
      have hr'' : d''.role = role := by simpa using List.find?_some h4
      have : d'' = d' := List.inj_on_of_nodup_map n2 hd'' hd' (by rw [hr'', e1, hr])
      subst this
      exact ⟨d, d'', rfl, rfl, e2, e3⟩

theorem findDelegation_same {t : Tuf} (ht : t.targets = some ta) (hd : ta.delegations = some ds)
    (h : SameRoles ds.roles roles) (parent role : MetadataPath) :
    Tuf.findDelegation { t with
      targets := some { ta with delegations := some { ds with roles := roles } } } parent role =
      t.findDelegation parent role := by
  unfold Tuf.findDelegation
  by_cases hp : parent = MetadataPath.fromRole .targets
  · simp only [if_pos hp, ht, hd]
    rcases find_same h role with ⟨a, b⟩ | ⟨d, d', a, b, c, e⟩
    · simp only [a, b]
    · simp only [a, b, c, e]
  · simp only [if_neg hp]

theorem updateDelegation_same {t : Tuf} (hf : Fits E ta ds roles I ok) (hk : Known ta I t)
    (hd : ta.delegations = some ds) (clk : Clock) (parent : MetadataPath) (d : Delegation)
    (ho : ok parent d) (raw : Bytes) :
    Tuf.updateDelegation E clk { t with
      targets := some { ta with delegations := some { ds with roles := roles } } } parent d.role raw =
      ((t.updateDelegation E clk parent d.role raw).1, { (t.updateDelegation E clk parent d.role raw).2 with
      targets := some { ta with delegations := some { ds with roles := roles } } }) ∧
      Known ta I (t.updateDelegation E clk parent d.role raw).2 := by
  have ht := hk.top
  have e1 : Tuf.targetsUnexpired { t with
      targets := some { ta with delegations := some { ds with roles := roles } } } clk =
      (t.targetsUnexpired clk).map fun _ =>
        { ta with delegations := some { ds with roles := roles } } := by
    unfold Tuf.targetsUnexpired
    rw [ht]
    simp only
    split <;> rfl
  have e2 : ∀ x, t.targetsUnexpired clk = .ok x → x = ta := by
    unfold Tuf.targetsUnexpired
    rw [ht]
    simp only
    intro x hx
    split at hx
    · cases hx
    · cases hx; rfl
  let t' : Tuf := { t with targets := some { ta with delegations := some { ds with roles := roles } } }
  have e3 : t'.rootUnexpired clk = t.rootUnexpired clk := rfl
  have e4 : t'.snapshotUnexpired clk = t.snapshotUnexpired clk := rfl
  have e5 : t'.delegationVersion d.role = t.delegationVersion d.role := rfl
  have e6 : t'.findDelegation parent d.role = t.findDelegation parent d.role := hf.find t parent d hk ho
  change t'.targetsUnexpired clk = _ at e1
  change Tuf.updateDelegation E clk t' parent d.role raw = _ ∧ _
  unfold Tuf.updateDelegation
  rw [e1, e3, e4, e5, e6]
  cases t.rootUnexpired clk with
  | error e => exact ⟨rfl, hk⟩
  | ok _ =>
  cases t.snapshotUnexpired clk with
  | error e => exact ⟨rfl, hk⟩
  | ok sn =>
  cases hx : t.targetsUnexpired clk with
  | error e => exact ⟨rfl, hk⟩
  | ok x =>
    rw [e2 x hx]
    simp only [Except.map, hd, Option.isNone_some, Bool.false_eq_true, if_false]
    split
    · exact ⟨rfl, hk⟩
    split
    · exact ⟨rfl, hk⟩
    split
    · exact ⟨rfl, hk⟩
    split
    · exact ⟨rfl, hk⟩
    rename_i new hnew
    obtain ⟨msg, _, hm⟩ := (verifySignatures_ok_iff ..).1 hnew
    split
    · exact ⟨rfl, hk⟩
    split
    · exact ⟨rfl, hk⟩
    split
    · exact ⟨rfl, hk⟩
    exact ⟨rfl, ht, hf.keep _ _ _ _ hk.inv hm⟩

theorem Comm.delegation (hf : Fits E ta ds roles I ok) (hd : ta.delegations = some ds) (clk : Clock)
    (parent : MetadataPath) (d : Delegation) (ho : ok parent d) (raw : Bytes) :
    Comm (W := W) ta ds roles I (updateTuf E (.delegation clk parent d.role raw))
      (updateTuf E (.delegation clk parent d.role raw)) := by
  intro s hs
  obtain ⟨h1, h2⟩ := updateDelegation_same hf hs hd clk parent d ho raw
  unfold updateTuf Tuf.step
  simp only [withDelegations]
  rw [h1]
  cases hu : Tuf.updateDelegation E clk s.tuf parent d.role raw with
  | mk r t =>
    rw [hu] at h2
    simp only
    cases r with
    | error e => exact ⟨rfl, h2⟩
    | ok b => cases b <;> exact ⟨rfl, h2⟩

/-- One more delegation in both lists. -/
theorem Comm.loop_cons (hf : Fits E ta ds roles I ok) (hd : ta.delegations = some ds)
    {rec rec' : Bool → TargetsMetadata → MetadataPath → M (St W) Found}
    (hrec : ∀ b m r, (∀ ds', m.delegations = some ds' → ∀ c ∈ ds'.roles, ok r c) →
      Comm ta ds roles I (rec b m r) (rec' b m r))
    {dflt : Bool} {target : VirtualTargetPath}
    {sn : SnapshotMetadata} {parent : MetadataPath} {l l' : List Delegation} (d : Delegation)
    (ho : ok parent d)
    (hl : Comm ta ds roles I (lookupLoop E D R rec dflt target sn parent l)
      (lookupLoop E D R rec' dflt target sn parent l')) :
    Comm ta ds roles I (lookupLoop E D R rec dflt target sn parent (d :: l))
      (lookupLoop E D R rec' dflt target sn parent (d :: l')) := by
  simp only [lookupLoop]
  split
  · split
    · exact .ret _
    · exact hl
  · split
    · split
      · exact hl
      · exact .ret _
    · split
      · exact .ret _
      · refine Comm.getTuf fun t ht => ?_
        refine Comm.bind (.attempt (.lift _)) fun cached => ?_
        refine Comm.bind ?_ fun fetched => ?_
        · cases cached with
          | ok raw => exact .pure _
          | error e => exact .attempt (.lift _)
        · cases fetched with
          | error e =>
            simp only
            split
            · exact hl
            · exact .ret _
          | ok raw =>
            refine Comm.bind .getClock fun clk => Comm.bind (.attempt (.delegation hf hd _ _ _ ho _)) fun o => ?_
            cases o with
            | error e =>
              simp only
              split
              · exact hl
              · exact .ret _
            | ok o =>
              refine Comm.bind (.attempt (.lift _)) fun _ => Comm.getTuf fun t ht => ?_
              simp only
              split
              · exact .fail _
              · rename_i m hm
                refine Comm.bind (hrec _ _ _ fun ds' hds' => hf.next _ _ _ _ _ ht.inv ho hm hds') fun p => ?_
                obtain ⟨term, res⟩ := p
                cases res with
                | ok _ => exact hl
                | error e =>
                  simp only
                  split
                  · exact .ret _
                  · exact hl

theorem Comm.lookupIn (hf : Fits E ta ds roles I ok) (hd : ta.delegations = some ds)
    (target : VirtualTargetPath) (sn : SnapshotMetadata) (n : Nat) :
    ∀ dflt m role, (∀ ds', m.delegations = some ds' → ∀ c ∈ ds'.roles, ok role c) →
      Comm ta ds roles I (Client.lookupIn E D R target sn n dflt m role)
        (Client.lookupIn E D R target sn n dflt m role) := by
  induction n with
  | zero => intro dflt m role _; exact .ret _
  | succ n ih =>
    intro dflt m role ho
    simp only [Client.lookupIn]
    split
    · exact .ret _
    · split
      · exact .ret _
      · rename_i ds' hds'
        have ho := ho ds' hds'
        generalize ds'.roles = l at ho
        induction l with
        | nil => exact .ret _
        | cons d l ihl =>
          exact .loop_cons hf hd ih d (ho d (List.mem_cons_self ..))
            (ihl fun c hc => ho c (List.mem_cons_of_mem _ hc))

theorem Comm.loop_same (hf : Fits E ta ds roles I ok) (hd : ta.delegations = some ds)
    {rec rec' : Bool → TargetsMetadata → MetadataPath → M (St W) Found}
    (hrec : ∀ b m r, (∀ ds', m.delegations = some ds' → ∀ c ∈ ds'.roles, ok r c) →
      Comm ta ds roles I (rec b m r) (rec' b m r))
    {dflt : Bool} {target : VirtualTargetPath}
    {sn : SnapshotMetadata} {parent : MetadataPath} {l l' : List Delegation} (hs : SameFor target l l')
    (ho : ∀ d ∈ l, d ∈ l' → ok parent d) :
    Comm ta ds roles I (lookupLoop E D R rec dflt target sn parent l)
      (lookupLoop E D R rec' dflt target sn parent l') := by
  induction hs with
  | nil => exact .ret _
  | both d _ ih =>
    exact .loop_cons hf hd hrec d (ho d (List.mem_cons_self ..) (List.mem_cons_self ..))
      (ih fun x hx hx' => ho x (List.mem_cons_of_mem _ hx) (List.mem_cons_of_mem _ hx'))
  | left d h1 h2 _ ih =>
    rw [← covers_iff] at h1
    simp only [lookupLoop, h1, h2]
    exact ih fun x hx hx' => ho x (List.mem_cons_of_mem _ hx) hx'
  | right d h1 h2 _ ih =>
    rw [← covers_iff] at h1
    simp only [lookupLoop, h1, h2]
    exact ih fun x hx hx' => ho x hx (List.mem_cons_of_mem _ hx')

theorem Comm.exec (hf : Fits E ta ds roles I ok) (hd : ta.delegations = some ds) (c : Call)
    (path : TargetPath) (hc : calledPath c = some path)
    (ho : ∀ d ∈ ds.roles, d ∈ roles → ok (MetadataPath.fromRole .targets) d)
    (hs : ∀ virt, cfg.realToVirtual path = .ok virt → SameFor virt ds.roles roles) :
    Comm (W := W) ta ds roles I (Client.exec E D R cfg c) (Client.exec E D R cfg c) := by
  have hf : Comm (W := W) ta ds roles I (fetchTargetDescription E D R cfg path)
      (fetchTargetDescription E D R cfg path) := by
    unfold fetchTargetDescription
    cases hv : cfg.realToVirtual path with
    | error e => exact fun s hs => ⟨rfl, hs⟩
    | ok virt =>
      refine Comm.okBind (Comm.getTuf fun t ht' => ?_)
      cases t.snapshot with
      | none => exact .fail _
      | some sn =>
        rw [ht'.top]
        refine Comm.bind ?_ fun p => .ofExcept _
        show Comm ta ds roles I (Client.lookupIn E D R virt sn (cfg.maxDelegationDepth + 1) false ta
          (MetadataPath.fromRole .targets)) _
        simp only [Client.lookupIn, hd]
        split
        · exact .ret _
        · exact .loop_same hf hd (.lookupIn hf hd virt sn _) (hs virt hv) ho
  have hr : Comm (W := W) ta ds roles I (fetchTargetReader E D R cfg path)
      (fetchTargetReader E D R cfg path) := by
    unfold fetchTargetReader
    refine Comm.bind hf fun d => Comm.getTuf fun t _ => ?_
    simp only
    split
    · exact Comm.bind (.ofExcept _) fun p => Comm.bind (.ofExcept _) fun q => .lift _
    · exact .lift _
  cases c with
  | update => cases hc
  | fetchTarget p =>
    cases hc
    exact Comm.bind (Comm.bind hr fun st => .lift _) fun _ => .ret _
  | fetchTargetToWriter p =>
    cases hc
    exact Comm.bind (Comm.bind hr fun st => .lift _) fun _ => .ret _
  | fetchTargetDescription p => cases hc; exact Comm.bind hf fun _ => .ret _

theorem find_own {l : List Delegation} (h : (l.map Delegation.role).Nodup) {d : Delegation} (hd : d ∈ l) :
    (l.find? fun x => decide (x.role = d.role)) = some d := by
  cases hf : l.find? fun x => decide (x.role = d.role) with
  | none =>
    rw [List.find?_eq_none] at hf
    exact absurd (decide_eq_true rfl) (hf d hd)
  | some x =>
    have hr : x.role = d.role := by simpa using List.find?_some hf
    rw [List.inj_on_of_nodup_map h (List.mem_of_find?_eq_some hf) hd hr]

end commute

variable {W : Type}

/-- **C104 (partial).** For a call about a target, it makes no difference where the trusted top-level
targets list the delegations for other paths, and which other paths these name, if they are not
terminating: the call gives the same reply, makes the same requests, and changes the trusted metadata in
the same way. Missing: adding such delegations (next theorem), and terminating delegations for other paths
(`C104_terminating_elsewhere_ends_search`). -/
theorem C104_other_delegations_do_not_matter_partial (E : Env) (D : Digest) (R : World W) (cfg : Config)
    (c : Call) (path : TargetPath) (hc : calledPath c = some path) (s : St W) (ta : TargetsMetadata)
    (ds : Delegations) (ht : s.tuf.targets = some ta) (hd : ta.delegations = some ds)
    (roles : List Delegation) (hr : SameRoles ds.roles roles)
    (hs : ∀ virt, cfg.realToVirtual path = .ok virt → SameFor virt ds.roles roles) :
    exec E D R cfg c (withDelegations ta ds roles s) =
      ((exec E D R cfg c s).1, withDelegations ta ds roles (exec E D R cfg c s).2) := by
  have hf : Fits E ta ds roles (fun _ => True) (fun _ _ => True) :=
    ⟨fun t parent d hk _ => findDelegation_same hk.top hd hr parent d.role, fun _ _ _ _ _ _ _ _ _ _ _ => trivial,
      fun _ _ _ _ _ _ => trivial⟩
  exact (Comm.exec hf hd c path hc (fun _ _ _ => trivial) hs s ⟨ht, trivial⟩).1

/-- **C104 (partial).** The same if delegations for other paths are added or removed, if no metadata
delegate to a role called `targets`. (The code mistakes such a role for the top-level one when it looks
for keys.) Missing: terminating delegations for other paths
(`C104_terminating_elsewhere_ends_search`). -/
theorem C104_added_delegations_do_not_matter_partial (E : Env) (D : Digest) (R : World W) (cfg : Config)
    (c : Call) (path : TargetPath) (hc : calledPath c = some path) (s : St W) (ta : TargetsMetadata)
    (ds : Delegations) (ht : s.tuf.targets = some ta) (hd : ta.delegations = some ds)
    (roles : List Delegation) (n1 : (ds.roles.map Delegation.role).Nodup)
    (n2 : (roles.map Delegation.role).Nodup)
    (hE : ∀ raw m, E.targetsFromSlice raw = .ok m → NoSecondTop m) (hta : NoSecondTop ta)
    (hdel : ∀ role m, s.tuf.delegations.get? role = some m → NoSecondTop m)
    (hs : ∀ virt, cfg.realToVirtual path = .ok virt → SameFor virt ds.roles roles) :
    exec E D R cfg c (withDelegations ta ds roles s) =
      ((exec E D R cfg c s).1, withDelegations ta ds roles (exec E D R cfg c s).2) := by
  have hf : Fits E ta ds roles (fun l => ∀ role m, Map.get? l role = some m → NoSecondTop m)
      (fun parent d => d.role ≠ MetadataPath.fromRole .targets ∧
        (parent = MetadataPath.fromRole .targets → d ∈ ds.roles ∧ d ∈ roles)) := by
    refine ⟨fun t parent d hk ho => ?_, fun l parent d m ds' hl ho hm hds' c hc => ?_,
      fun l role raw m hl hm role' m' h' => ?_⟩
    · unfold Tuf.findDelegation
      by_cases hp : parent = MetadataPath.fromRole .targets
      · obtain ⟨a, b⟩ := ho.2 hp
        simp only [if_pos hp, hk.top, hd, find_own n1 a, find_own n2 b]
      · simp only [if_neg hp]
    · exact ⟨hl _ _ hm ds' hds' c hc, fun h => absurd h ho.1⟩
    · rw [Map.get?_insert] at h'
      split at h'
      · cases h'
        exact hE _ _ hm
      · exact hl _ _ h'
  exact (Comm.exec hf hd c path hc (fun d h1 h2 => ⟨hta ds hd d h1, fun _ => ⟨h1, h2⟩⟩) hs s ⟨ht, hdel⟩).1

theorem loop_ends {E : Env} {D : Digest} {R : World W}
    {rec : Bool → TargetsMetadata → MetadataPath → M (St W) Found} {dflt : Bool} {target : VirtualTargetPath}
    {sn : SnapshotMetadata} {parent : MetadataPath} {pre post : List Delegation} {d : Delegation}
    (hp : ∀ x ∈ pre, ¬ Covers x target) (hd : ¬ Covers d target) (ht : d.terminating = true) (s : St W) :
    ∃ b, lookupLoop E D R rec dflt target sn parent (pre ++ d :: post) s = (.ok (b, .error .notFound), s) := by
  induction pre with
  | nil =>
    rw [← covers_iff] at hd
    refine ⟨true, ?_⟩
    simp only [List.nil_append, lookupLoop, hd, ht]
    rfl
  | cons x pre ih =>
    have hx := hp x (List.mem_cons_self ..)
    rw [← covers_iff] at hx
    simp only [List.cons_append, lookupLoop, hx]
    cases x.terminating with
    | true => exact ⟨true, rfl⟩
    | false => exact ih fun y hy => hp y (List.mem_cons_of_mem _ hy)

/-- **C104 is false for the code**: a terminating delegation for other paths ends the search, if none
before it covers the path. Delegations after it are not followed, also if they cover the path: nothing is
requested, nothing becomes trusted, and a target that is not listed at top level is not found. -/
theorem C104_terminating_elsewhere_ends_search (E : Env) (D : Digest) (R : World W) (cfg : Config)
    (path : TargetPath) (virt : VirtualTargetPath) (hv : cfg.realToVirtual path = .ok virt) (s : St W)
    (sn : SnapshotMetadata) (hsn : s.tuf.snapshot = some sn) (ta : TargetsMetadata) (ds : Delegations)
    (ht : s.tuf.targets = some ta) (hd : ta.delegations = some ds) (pre post : List Delegation)
    (d : Delegation) (hr : ds.roles = pre ++ d :: post) (hp : ∀ x ∈ pre, ¬ Covers x virt)
    (hc : ¬ Covers d virt) (hterm : d.terminating = true) (hn : ta.targets.get? virt = none) (c : Call)
    (hcall : calledPath c = some path) :
    exec E D R cfg c s = (.error .notFound, s) := by
  have hf : fetchTargetDescription E D R cfg path s = (.error .notFound, s) := by
    unfold fetchTargetDescription
    rw [hv]
    show (match s.tuf.snapshot with | none => _ | some sn => _ : M (St W) TargetDescription) s = _
    rw [hsn]
    show (match s.tuf.targets with | none => _ | some ta => _ : M (St W) TargetDescription) s = _
    rw [ht]
    simp only [Client.lookupIn, hn, hd, hr]
    obtain ⟨b, hb⟩ := loop_ends (E := E) (D := D) (R := R)
      (rec := Client.lookupIn E D R virt sn cfg.maxDelegationDepth) (dflt := false) (sn := sn)
      (parent := MetadataPath.fromRole .targets) (post := post) hp hc hterm s
    rw [bind_run, hb]
    rfl
  have hrd : fetchTargetReader E D R cfg path s = (.error .notFound, s) := by
    unfold fetchTargetReader
    rw [bind_run, hf]
  cases c with
  | update => cases hcall
  | fetchTarget p =>
    cases hcall
    simp only [exec, fetchTarget]
    rw [bind_run, bind_run, hrd]
  | fetchTargetToWriter p =>
    cases hcall
    simp only [exec, fetchTargetToWriter]
    rw [bind_run, bind_run, hrd]
  | fetchTargetDescription p =>
    cases hcall
    simp only [exec]
    rw [bind_run, hf]

/-! ### Examples -/

namespace ElsewhereExample

/-- Delegations of `Toy.topTargets`. -/
def toB : Delegation := Toy.delegation "b" false ["q/"]
def toA : Delegation := Toy.delegation "a" true ["p/"]

-- Hypotheses of `C104_other_delegations_do_not_matter_partial`: the delegation to `b` may stand before or
-- after the one to `a` in a search for `p/y`, and may name other paths.
example : ∃ ta ds, Toy.full.targets = some ta ∧ ta.delegations = some ds ∧
    ds.roles = [toB, toA] ∧ Toy.config.realToVirtual "p/y".toList = .ok "p/y".toList ∧
    SameRoles ds.roles [toA, { toB with paths := ["r/".toList] }] ∧
    SameFor "p/y".toList ds.roles [toA, { toB with paths := ["r/".toList] }] := by
  refine ⟨_, _, rfl, rfl, rfl, by decide +kernel, ?_, ?_⟩
  · refine ⟨by decide +kernel, by decide +kernel, by decide +kernel, by decide +kernel⟩
  · refine .left _ ?_ rfl (.both _ (.right _ ?_ rfl .nil))
    · rw [← covers_iff]; decide +kernel
    · rw [← covers_iff]; decide +kernel

/-- A decidable form of `NoSecondTop`. -/
theorem noSecondTop_of {m : TargetsMetadata}
    (h : ∀ ds ∈ m.delegations.toList, ∀ d ∈ ds.roles, d.role ≠ MetadataPath.fromRole .targets) :
    NoSecondTop m := fun ds hds => h ds (by rw [hds]; exact List.mem_singleton.2 rfl)

-- Hypotheses of `C104_added_delegations_do_not_matter_partial`: a delegation to `c` for other paths is
-- added, and the one to `b` removed.
example : (∀ raw m, Toy.env.targetsFromSlice raw = .ok m → NoSecondTop m) ∧ NoSecondTop Toy.topTargets ∧
    (∀ role m, Toy.full.delegations.get? role = some m → NoSecondTop m) ∧
    ([toB, toA].map Delegation.role).Nodup ∧
    ([toA, Toy.delegation "c" false ["r/"]].map Delegation.role).Nodup ∧
    SameFor "p/y".toList [toB, toA] [toA, Toy.delegation "c" false ["r/"]] := by
  refine ⟨fun raw m => Toy.tab_ok (P := NoSecondTop) ?_ raw m, ?_, fun role m h => ?_, by decide +kernel,
    by decide +kernel, ?_⟩
  · intro p hp
    refine noSecondTop_of ?_
    revert p
    decide +kernel
  · exact noSecondTop_of (by decide +kernel)
  · have := Map.mem_of_get? h
    refine noSecondTop_of ?_
    have h2 : ∀ p ∈ Toy.full.delegations, ∀ ds ∈ p.2.delegations.toList, ∀ d ∈ ds.roles,
        d.role ≠ MetadataPath.fromRole .targets := by decide +kernel
    exact h2 _ this
  · refine .left _ ?_ rfl (.both _ (.right _ ?_ rfl .nil))
    · rw [← covers_iff]; decide +kernel
    · rw [← covers_iff]; decide +kernel

-- Hypotheses of `C104_terminating_elsewhere_ends_search`, with a later delegation that covers the path.
example : ∃ s : Tuf, ∃ ta ds sn, s.targets = some ta ∧ ta.delegations = some ds ∧ s.snapshot = some sn ∧
    ds.roles = [] ++ toA :: [toB] ∧ Toy.config.realToVirtual "q/z".toList = .ok "q/z".toList ∧
    ¬ Covers toA "q/z".toList ∧ toA.terminating = true ∧ Covers toB "q/z".toList ∧
    ta.targets.get? "q/z".toList = none ∧ (sn.metas.get? toB.role).isSome := by
  refine ⟨{ Toy.full with targets := some { Toy.topTargets with
    delegations := some (Toy.delegations [toA, toB]) } }, _, _, _, rfl, rfl, rfl, rfl, by decide +kernel, ?_, rfl,
    ?_, by decide +kernel, by decide +kernel⟩
  · rw [← covers_iff]; decide +kernel
  · rw [← covers_iff]; decide +kernel

end ElsewhereExample

end RustTuf.Props
