import Verif.Props.ClientTargets
import Verif.Spec.Work
import Mathlib.Tactic.Ring

/-!
# C95: the work of a search for a target
-/

namespace RustTuf.Props
open Client Spec RustTuf
variable {W : Type} {E : Env} {D : Digest} {R : World W} {cfg : Config}

theorem chains_succ (b n : Nat) : chains b (n + 1) = b * (1 + chains b n) := by
  have key : ∀ n, ((List.range n).map fun i => b ^ (i + 1 + 1)).sum =
      b * ((List.range n).map fun i => b ^ (i + 1)).sum := by
    intro n
    induction n with
    | zero => simp
    | succ n ih => simp only [List.range_succ, List.map_append, List.sum_append, ih]; simp; ring
  unfold chains
  rw [List.range_succ_eq_map]
  simp only [List.map_cons, List.map_map, List.sum_cons]
  have := key n
  simp only [Function.comp_def]
  rw [show (fun x => b ^ (x.succ + 1)) = fun i => b ^ (i + 1 + 1) from rfl, this]
  ring

/-- The loop over delegations with a budget: two requests and the budget of the recursive call for
each delegation. -/
theorem lookupLoop_budget (I : Nat → St W → Prop) (mono : ∀ c c' s, c ≤ c' → I c s → I c' s)
    (rec : Bool → TargetsMetadata → MetadataPath → M (St W) Found) (k : Nat)
    (dflt : Bool) (target : VirtualTargetPath) (sn : SnapshotMetadata) (parent : MetadataPath)
    (hclock : ∀ c, Keeps (I c) (getClock R))
    (hfetch : ∀ c p src v mx h, Tri (I c) (lift (fetchMetadata D R src .targets p v mx h))
      (fun _ => I (c + 1)) (fun _ => I (c + 1)))
    (hstore : ∀ c p raw, Keeps (I c) (lift (storeMetadata R .targets p .none raw)))
    (hop : ∀ c o, Keeps (I c) (updateTuf E o))
    (hrec : ∀ c p b md, Tri (fun s => I c s ∧ s.tuf.delegations.get? p = some md)
      (rec b md p) (fun _ => I (c + k)) (fun _ => I (c + k))) (ds : List Delegation) :
    ∀ c, Tri (I c) (Client.lookupLoop E D R rec dflt target sn parent ds)
      (fun _ => I (c + ds.length * (2 + k))) (fun _ => I (c + ds.length * (2 + k))) := by
  induction ds with
  | nil => intro c; exact Tri.ret fun s hs => mono _ _ s (by simp) hs
  | cons d ds ih =>
    intro c
    have len : (d :: ds).length * (2 + k) = 2 + k + ds.length * (2 + k) := by
      simp only [List.length_cons]; ring
    rw [len]
    have stop : ∀ c', c' ≤ c + 2 + k → ∀ x : Found, Tri (I c') (Pure.pure x : M (St W) Found)
        (fun _ => I (c + (2 + k + ds.length * (2 + k))))
        (fun _ => I (c + (2 + k + ds.length * (2 + k)))) :=
      fun c' h x => Tri.ret fun s hs => mono _ _ s (by omega) hs
    have next : ∀ c', c' ≤ c + 2 + k → Tri (I c') (Client.lookupLoop E D R rec dflt target sn parent ds)
        (fun _ => I (c + (2 + k + ds.length * (2 + k))))
        (fun _ => I (c + (2 + k + ds.length * (2 + k)))) := fun c' h =>
      (ih c').conseq (fun _ h => h) (fun _ s hs => mono _ _ s (by omega) hs)
        (fun _ s hs => mono _ _ s (by omega) hs)
    unfold Client.lookupLoop
    refine Tri.ite (fun _ => Tri.ite (fun _ => stop c (by omega) _) (fun _ => next c (by omega))) fun _ => ?_
    cases sn.metas.get? d.role with
    | none => exact Tri.ite (fun _ => next c (by omega)) (fun _ => stop c (by omega) _)
    | some m =>
      dsimp only
      cases hashPreference m.hashes with
      | error e => exact stop c (by omega) _
      | ok p =>
        obtain ⟨a, v⟩ := p
        dsimp only
        have up : ∀ c', c' ≤ c + 2 + k → ∀ s, I c' s → I (c + (2 + k + ds.length * (2 + k))) s :=
          fun c' h s hs => mono _ _ s (by omega) hs
        refine Tri.bind ((keeps_getTuf (I c)).conseq (fun _ h => h) (fun _ _ h => h)
          (fun _ s hs => up c (by omega) s hs)) fun t => ?_
        refine Tri.bind (Q := fun _ => I (c + 1)) ((Tri.attempt (Y := fun _ =>
          I (c + (2 + k + ds.length * (2 + k)))) (hfetch c _ _ _ _ _)
          (fun s hs => up _ (by omega) s hs)).post fun r s hs => by cases r <;> exact hs) fun r => ?_
        have tail : ∀ fetched : Except Err Bytes, Tri (I (c + 2)) (match fetched with
          | .error e =>
            if !d.terminating then Client.lookupLoop E D R rec dflt target sn parent ds
            else return (true, .error e)
          | .ok raw => do
            let clk ← getClock R
            match ← M.attempt (updateTuf E (.delegation clk parent d.role raw)) with
            | .ok _ =>
              let _ ← M.attempt (lift (storeMetadata R .targets d.role .none raw))
              let t ← getTuf
              match t.delegations.get? d.role with
              | none => M.fail .panic
              | some m =>
                let (term, res) ← rec d.terminating m d.role
                match res with
                | .error e =>
                  if term then return (true, .error e)
                  else Client.lookupLoop E D R rec dflt target sn parent ds
                | .ok _ => Client.lookupLoop E D R rec dflt target sn parent ds
            | .error e =>
              if !d.terminating then Client.lookupLoop E D R rec dflt target sn parent ds
              else return (true, .error e)) (fun _ => I (c + (2 + k + ds.length * (2 + k))))
                (fun _ => I (c + (2 + k + ds.length * (2 + k)))) := by
          intro fetched
          cases fetched with
          | error e => exact Tri.ite (fun _ => next _ (by omega)) (fun _ => stop _ (by omega) _)
          | ok raw =>
            have keep : ∀ {α : Type} {m : M (St W) α}, Keeps (I (c + 2)) m → Tri (I (c + 2)) m
                (fun _ => I (c + 2)) (fun _ => I (c + (2 + k + ds.length * (2 + k)))) := fun h =>
              Tri.conseq h (fun _ h => h) (fun _ _ h => h) (fun _ s hs => up _ (by omega) s hs)
            refine Tri.bind (keep (hclock _)) fun clk => ?_
            refine Tri.bind (keep (Keeps.attempt (hop _ _))) fun out => ?_
            cases out with
            | error e => exact Tri.ite (fun _ => next _ (by omega)) (fun _ => stop _ (by omega) _)
            | ok o =>
              refine Tri.bind (keep (Keeps.attempt (hstore _ _ _))) fun _ => ?_
              refine Tri.bind (Q := fun (t : Tuf) (s : St W) => t = s.tuf ∧ I (c + 2) s)
                (fun s hs => ⟨rfl, hs⟩) fun t => ?_
              cases hd : t.delegations.get? d.role with
              | none => exact Tri.fail fun s hs => up _ (by omega) s hs.2
              | some md =>
                dsimp only
                refine Tri.bind ((hrec (c + 2) d.role d.terminating md).conseq
                  (by rintro s ⟨rfl, hs⟩; exact ⟨hs, hd⟩) (fun _ _ h => h)
                  (fun _ s hs => up _ (by omega) s hs)) fun x => ?_
                obtain ⟨term, res⟩ := x
                cases res with
                | error e => exact Tri.ite (fun _ => stop _ (by omega) _) (fun _ => next _ (by omega))
                | ok _ => exact next _ (by omega)
        cases r with
        | ok raw =>
          exact Tri.bind (Q := fun _ => I (c + 2)) (Tri.ret' fun s hs => mono (c + 1) _ s (by omega) hs)
            fun f => tail f
        | error e =>
          exact Tri.bind (Q := fun _ => I (c + 2)) ((Tri.attempt (Y := fun _ =>
            I (c + (2 + k + ds.length * (2 + k)))) (hfetch (c + 1) _ _ _ _ _)
            (fun s hs => up _ (by omega) s hs)).post fun r s hs => by cases r <;> exact hs) fun f => tail f

/-- Trusted at some moment of the record: delegated metadata with more than `b` delegations. -/
def Wide (E : Env) (t : Tuf) (b : Nat) (l : List LogEntry) : Prop :=
  ∃ pre post role m, l = pre ++ post ∧ (after E t pre).delegations.get? role = some m ∧
    ¬ DelegatesAtMost b m

/-- At most `c` requests since the record `L`, or metadata with too many delegations. -/
def Budget (E : Env) (t : Tuf) (L : List LogEntry) (b c : Nat) (s : St W) : Prop :=
  ∃ l, s.io.log = L ++ l ∧ s.tuf = after E t l ∧ (Wide E t b l ∨ requestCount l ≤ c)

section budget
variable {t : Tuf} {L : List LogEntry} {b c : Nat}

theorem Wide.mono {l : List LogEntry} (h : Wide E t b l) (l' : List LogEntry) : Wide E t b (l ++ l') := by
  obtain ⟨pre, post, role, m, rfl, h⟩ := h
  exact ⟨pre, post ++ l', role, m, by simp, h⟩

theorem requestCount_append (l l' : List LogEntry) :
    requestCount (l ++ l') = requestCount l + requestCount l' := by
  simp [requestCount, List.countP_append]

theorem Budget.grow {s s' : St W} (h : Budget E t L b c s) (es : List LogEntry)
    (h1 : s'.io.log = s.io.log ++ es) (h2 : s'.tuf = Tuf.run E s.tuf (opsOf es)) {c' : Nat}
    (h3 : c + requestCount es ≤ c') : Budget E t L b c' s' := by
  obtain ⟨l, k1, k2, k3⟩ := h
  refine ⟨l ++ es, by rw [h1, k1]; simp, by rw [h2, k2, after_append]; rfl, ?_⟩
  rcases k3 with k3 | k3
  · exact .inl (k3.mono es)
  · right; rw [requestCount_append]; omega

theorem budget_fetch (p src v mx h) : Tri (fun s : St W => Budget E t L b c s)
    (lift (fetchMetadata D R src .targets p v mx h)) (fun _ => Budget E t L b (c + 1))
    (fun _ => Budget E t L b (c + 1)) := by
  refine Tri.fix fun s0 hs0 => ?_
  refine ((fetchMetadata_log (D := D) (R := R) src .targets p v mx h s0.io.log).lift
    s0.tuf).conseq (by rintro s rfl; exact ⟨rfl, rfl⟩) ?_ ?_
  · rintro raw s ⟨e1, _, _, e2⟩
    exact hs0.grow _ e2 (by rw [e1]; rfl) (by simp [requestCount])
  · rintro _ s ⟨e1, e2 | e2⟩
    · exact hs0.grow [] (by rw [e2]; simp) (by rw [e1]; rfl) (by simp [requestCount])
    · exact hs0.grow _ e2 (by rw [e1]; rfl) (by simp [requestCount])

theorem budget_store (p raw) : Keeps (fun s : St W => Budget E t L b c s)
    (lift (storeMetadata R .targets p .none raw)) := by
  refine Tri.fix fun s0 hs0 => ?_
  refine ((storeMetadata_log (R := R) .targets p .none raw s0.io.log).lift
    s0.tuf).conseq (by rintro s rfl; exact ⟨rfl, rfl⟩) ?_ ?_
  · rintro _ s ⟨e1, e2⟩
    exact hs0.grow _ e2 (by rw [e1]; rfl) (by simp [requestCount])
  · rintro _ s ⟨e1, e2 | e2⟩
    · exact hs0.grow [] (by rw [e2]; simp) (by rw [e1]; rfl) (by simp [requestCount])
    · exact hs0.grow _ e2 (by rw [e1]; rfl) (by simp [requestCount])

theorem budget_op (o : Tuf.Op) : Keeps (fun s : St W => Budget E t L b c s) (updateTuf E o) := by
  refine Tri.updateTuf fun s out t' hs hst => ?_
  have : Budget E t L b c (⟨t', { s.io with log := s.io.log ++ [.op o out] }⟩ : St W) :=
    hs.grow [.op o out] rfl (by show t' = (Tuf.step E s.tuf o).2; rw [hst]) (by simp [requestCount])
  cases out <;> exact this

theorem budget_clock : Keeps (fun s : St W => Budget E t L b c s) (getClock R) :=
  Tri.getClock fun s hs => hs.grow [] (by simp) rfl (by simp [requestCount])

/-- Once metadata is too wide, nothing is claimed any more. -/
theorem lookupIn_wide (target : VirtualTargetPath) (sn : SnapshotMetadata) (rem : Nat) : ∀ b' m r,
    Keeps (fun s : St W => ∃ l, s.io.log = L ++ l ∧ s.tuf = after E t l ∧ Wide E t b l)
      (Client.lookupIn E D R target sn rem b' m r) := by
  have eq : ∀ s : St W, (∃ l, s.io.log = L ++ l ∧ s.tuf = after E t l ∧ Wide E t b l) →
      ∀ s' : St W, (∃ es, s'.io.log = s.io.log ++ es ∧ s'.tuf = Tuf.run E s.tuf (opsOf es)) →
      ∃ l, s'.io.log = L ++ l ∧ s'.tuf = after E t l ∧ Wide E t b l := by
    rintro s ⟨l, k1, k2, k3⟩ s' ⟨es, e1, e2⟩
    exact ⟨l ++ es, by rw [e1, k1]; simp, by rw [e2, k2, after_append]; rfl, k3.mono es⟩
  induction rem with
  | zero => intro b' m r; exact Keeps.ret _
  | succ rem ih =>
    intro b' m r
    unfold Client.lookupIn
    split
    · exact Keeps.ret _
    · split
      · exact Keeps.ret _
      · refine (lookupLoop_walk _ _ b' target sn r (Tri.getClock fun s hs => eq s hs _ ⟨[], by simp, rfl⟩) _
          (fun d _ src v mx h => ?_) (fun d _ raw => ?_) (fun d _ w raw => ?_) ?_).post fun _ _ h => h.2
        · refine Tri.fix fun s0 hs0 => ?_
          refine ((fetchMetadata_log (D := D) (R := R) src .targets d.role v mx h s0.io.log).lift
            s0.tuf).conseq (by rintro s rfl; exact ⟨rfl, rfl⟩) ?_ ?_
          · rintro raw s ⟨e1, _, _, e2⟩
            exact eq _ hs0 _ ⟨_, e2, by rw [e1]; rfl⟩
          · rintro _ s ⟨e1, e2 | e2⟩
            · exact eq _ hs0 _ ⟨[], by rw [e2]; simp, by rw [e1]; rfl⟩
            · exact eq _ hs0 _ ⟨_, e2, by rw [e1]; rfl⟩
        · refine Tri.fix fun s0 hs0 => ?_
          refine ((storeMetadata_log (R := R) .targets d.role .none raw s0.io.log).lift
            s0.tuf).conseq (by rintro s rfl; exact ⟨rfl, rfl⟩) ?_ ?_
          · rintro _ s ⟨e1, e2⟩
            exact eq _ hs0 _ ⟨_, e2, by rw [e1]; rfl⟩
          · rintro _ s ⟨e1, e2 | e2⟩
            · exact eq _ hs0 _ ⟨[], by rw [e2]; simp, by rw [e1]; rfl⟩
            · exact eq _ hs0 _ ⟨_, e2, by rw [e1]; rfl⟩
        · refine Tri.updateTuf fun s out t' hs hst => ?_
          have := eq s hs (⟨t', { s.io with log := s.io.log ++ [.op _ out] }⟩ : St W)
            ⟨[.op (.delegation (R.clock w).1 r d.role raw) out], rfl,
              by show t' = (Tuf.step E s.tuf _).2; rw [hst]⟩
          cases out <;> exact this
        · intro d _ b md
          exact (ih b md d.role).pre fun s hs => hs.1

theorem lookupIn_budget (target : VirtualTargetPath) (sn : SnapshotMetadata) (rem : Nat) :
    ∀ c b' m r, DelegatesAtMost b m →
    Tri (fun s : St W => Budget E t L b c s) (Client.lookupIn E D R target sn rem b' m r)
      (fun _ => Budget E t L b (c + 2 * chains b rem)) (fun _ => Budget E t L b (c + 2 * chains b rem)) := by
  have mono : ∀ c c' (s : St W), c ≤ c' → Budget E t L b c s → Budget E t L b c' s := by
    rintro c c' s hc ⟨l, k1, k2, k3⟩
    exact ⟨l, k1, k2, k3.imp_right fun h => Nat.le_trans h hc⟩
  induction rem with
  | zero => intro c b' m r _; exact Tri.ret fun s hs => mono _ _ s (by omega) hs
  | succ rem ih =>
    intro c b' m r hm
    unfold Client.lookupIn
    split
    · exact Tri.ret fun s hs => mono _ _ s (by omega) hs
    · split
      · exact Tri.ret fun s hs => mono _ _ s (by omega) hs
      · rename_i ds hds
        have hb := hm ds hds
        have hle : ds.roles.length * (2 + 2 * chains b rem) ≤ 2 * chains b (rem + 1) := by
          rw [chains_succ]
          calc ds.roles.length * (2 + 2 * chains b rem) ≤ b * (2 + 2 * chains b rem) :=
                Nat.mul_le_mul_right _ hb
            _ = 2 * (b * (1 + chains b rem)) := by ring
        refine (lookupLoop_budget (fun c s => Budget E t L b c s) mono _ (2 * chains b rem) b' target sn r
          (fun c => budget_clock) (fun c p src v mx h => budget_fetch p src v mx h)
          (fun c p raw => budget_store p raw) (fun c o => budget_op o) ?_ ds.roles c).conseq
          (fun _ h => h) (fun _ s hs => mono _ _ s (by omega) hs) (fun _ s hs => mono _ _ s (by omega) hs)
        intro c p b'' md
        by_cases hmd : DelegatesAtMost b md
        · exact (ih c b'' md p hmd).pre fun s hs => hs.1
        · refine Tri.conseq (lookupIn_wide (t := t) (L := L) (b := b) target sn rem b'' md p) ?_ ?_ ?_
          · rintro s ⟨⟨l, k1, k2, k3⟩, hget⟩
            exact ⟨l, k1, k2, l, [], p, md, by simp, by rw [← k2]; exact hget, hmd⟩
          · rintro _ s ⟨l, k1, k2, k3⟩; exact ⟨l, k1, k2, .inl k3⟩
          · rintro _ s ⟨l, k1, k2, k3⟩; exact ⟨l, k1, k2, .inl k3⟩

end budget

/-- **C95.** If no metadata that the client trusts at any moment of the call delegate to more than `b`
roles, a target call makes at most two requests for each chain of delegations of at most
`max_delegation_depth + 1` steps: `2 * (b + b ^ 2 + … + b ^ (depth + 1))`. -/
theorem C95_requests_bounded (E : Env) (D : Digest) (R : World W) (cfg : Config) (c : Call)
    (hc : c ≠ .update) (s : St W) (b : Nat) :
    ∃ l, (exec E D R cfg c s).2.io.log = s.io.log ++ l ∧
      ((∀ ta, s.tuf.targets = some ta → DelegatesAtMost b ta) →
       (∀ pre post role m, l = pre ++ post → (after E s.tuf pre).delegations.get? role = some m →
         DelegatesAtMost b m) →
       requestCount l ≤ 2 * chains b (cfg.maxDelegationDepth + 1)) := by
  by_cases hta : ∀ ta, s.tuf.targets = some ta → DelegatesAtMost b ta
  case neg =>
    obtain ⟨l, h, _⟩ := C37_depth_bounded_partial E D R cfg c hc s
    exact ⟨l, h, fun h => absurd h hta⟩
  let N := 2 * chains b (cfg.maxDelegationDepth + 1)
  let B : St W → Prop := Budget E s.tuf s.io.log b N
  have zero : Budget E s.tuf s.io.log b 0 s := ⟨[], by simp, rfl, .inr (by simp [requestCount])⟩
  have start : B s := ⟨[], by simp, rfl, .inr (by simp [requestCount])⟩
  have hk : ∀ path, Tri (fun x : St W => x = s) (fetchTargetDescription E D R cfg path)
      (fun _ => B) (fun _ => B) := by
    intro path
    unfold fetchTargetDescription
    refine Tri.bind (Q := fun _ x => x = s) (Tri.ofExcept (fun _ _ _ h => h)
      (fun _ _ _ h => h ▸ start)) fun virt => ?_
    refine Tri.bind (Q := fun (t : Tuf) (x : St W) => t = s.tuf ∧ x = s)
      (by rintro x rfl; exact ⟨rfl, rfl⟩) fun t => Tri.assume fun ht => ?_
    subst ht
    cases hsn : s.tuf.snapshot with
    | none => exact Tri.fail fun x h => h ▸ start
    | some sn =>
      cases ht : s.tuf.targets with
      | none => exact Tri.fail fun x h => h ▸ start
      | some ta =>
        dsimp only
        have := lookupIn_budget (E := E) (D := D) (R := R) (t := s.tuf) (L := s.io.log) virt sn
          (cfg.maxDelegationDepth + 1) 0 false ta (MetadataPath.fromRole .targets) (hta ta ht)
        rw [Nat.zero_add] at this
        exact Tri.bind (this.pre fun x h => h ▸ zero) fun x => Keeps.ofExcept _
  have grow : ∀ {α : Type} (m : M (Io W) α), (∀ io, ∃ es, (m io).2.log = io.log ++ es ∧
      ∀ e ∈ es, (∃ p, e = .fetchTarget p) ∨ (∃ p, e = .storeTarget p) ∨ ∃ b, e = .wrote b) →
      Keeps B (lift m) := by
    intro α m hm x hx
    obtain ⟨es, e1, e2⟩ := hm x.io
    have plain : opsOf es = [] ∧ requestCount es = 0 := by
      clear e1
      induction es with
      | nil => exact ⟨rfl, rfl⟩
      | cons e es ih =>
        have := ih fun e he => e2 e (by simp [he])
        rcases e2 e (by simp) with ⟨_, rfl⟩ | ⟨_, rfl⟩ | ⟨_, rfl⟩ <;>
          simp_all [opsOf, requestCount]
    have : B ({ x with io := (m x.io).2 } : St W) :=
      Budget.grow hx es e1 (by rw [plain.1]; rfl) (by rw [plain.2]; rfl)
    unfold lift
    cases hh : m x.io with
    | mk r io' => rw [hh] at this; cases r <;> exact this
  have hr : ∀ path, Tri (fun x : St W => x = s) (fetchTargetReader E D R cfg path)
      (fun _ => B) (fun _ => B) := by
    intro path
    unfold fetchTargetReader
    refine Tri.bind (hk path) fun d => Tri.bind (keeps_getTuf _) fun t => ?_
    refine Keeps.ite (fun _ => ?_) (fun _ => grow _ (fetchTargetStream_grow _ _))
    exact (Keeps.ofExcept _).bind fun p => (Keeps.ofExcept _).bind fun path =>
      grow _ (fetchTargetStream_grow _ _)
  have hx : Tri (fun x : St W => x = s) (exec E D R cfg c) (fun _ => B) (fun _ => B) := by
    cases c with
    | update => exact absurd rfl hc
    | fetchTarget p =>
      exact Tri.bind (Tri.bind (hr p) fun st => grow _ (storeTarget_grow st p)) fun _ => Keeps.ret _
    | fetchTargetToWriter p =>
      refine Tri.bind (Tri.bind (hr p) fun st => grow _ fun io => ?_) fun _ => Keeps.ret _
      obtain ⟨bs, h⟩ := copyToWriter_grow (R := R) st io
      exact ⟨_, h, by simp⟩
    | fetchTargetDescription p => exact Tri.bind (hk p) fun _ => Keeps.ret _
  have run : B (exec E D R cfg c s).2 := by
    have := hx s rfl
    cases hh : exec E D R cfg c s with
    | mk r s' => rw [hh] at this; cases r <;> exact this
  obtain ⟨l, h1, _, h2⟩ := run
  refine ⟨l, h1, fun _ hn => ?_⟩
  rcases h2 with ⟨pre, post, role, m, e, hm, hw⟩ | h2
  · exact absurd (hn pre post role m e hm) hw
  · exact h2

end RustTuf.Props
