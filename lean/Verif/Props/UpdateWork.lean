import Verif.Props.ClientUpdate
import Verif.Spec.UpdateWork

/-!
# C99: requests and traffic of an update
-/

namespace RustTuf.Props
open Client Spec RustTuf Tuf
variable {W : Type} {E : Env} {D : Digest} {R : World W} {cfg : Config}

theorem _root_.RustTuf.Tri.both {σ α : Type} {P P' : σ → Prop} {m : M σ α} {Q Q' : α → σ → Prop}
    {X X' : Err → σ → Prop} (h : Tri P m Q X) (h' : Tri P' m Q' X') :
    Tri (fun s => P s ∧ P' s) m (fun a s => Q a s ∧ Q' a s) (fun e s => X e s ∧ X' e s) := by
  rintro s ⟨hs, hs'⟩
  have h1 := h s hs
  have h2 := h' s hs'
  cases hm : m s with
  | mk r s' =>
    rw [hm] at h1 h2
    cases r <;> exact ⟨h1, h2⟩

theorem asked_append (l l' : List LogEntry) : asked (l ++ l') = asked l ++ asked l' := by
  simp [asked]

theorem receivedBytes_append (l l' : List LogEntry) : receivedBytes (l ++ l') = receivedBytes l + receivedBytes l' := by
  simp [receivedBytes]

/-- Since the record was `L`, the requests `a` were made and, if `lim`, at most `n` bytes received. -/
def Work (lim : Prop) (L : List LogEntry) (a : List Ask) (n : Nat) (s : St W) : Prop :=
  ∃ l, s.io.log = L ++ l ∧ asked l = a ∧ (lim → receivedBytes l ≤ n)

section
variable {lim : Prop} {L : List LogEntry} {a a' : List Ask} {n n' : Nat} {s s' : St W}

theorem Work.refl (s : St W) : Work lim s.io.log [] 0 s := ⟨[], by simp, rfl, fun _ => Nat.le_refl _⟩

theorem Work.trans (h : Work lim L a n s) (h' : Work lim s.io.log a' n' s') : Work lim L (a ++ a') (n + n') s' := by
  obtain ⟨l, h1, h2, h3⟩ := h
  obtain ⟨l', g1, g2, g3⟩ := h'
  exact ⟨l ++ l', by rw [g1, h1]; simp, by rw [asked_append, h2, g2],
    fun hl => by rw [receivedBytes_append]; exact Nat.add_le_add (h3 hl) (g3 hl)⟩

theorem Work.le (h : Work lim L a n s) (hn : lim → n ≤ n') : Work lim L a n' s := by
  obtain ⟨l, h1, h2, h3⟩ := h
  exact ⟨l, h1, h2, fun hl => Nat.le_trans (h3 hl) (hn hl)⟩

end

variable {lim : Prop}

/-- A request of a matching path. -/
theorem fetch_work (L : List LogEntry) (src role p v mx h) (hrole : role.fuzzyMatchesPath p = true) :
    Tri (fun s : St W => s.io.log = L) (lift (fetchMetadata D R src role p v mx h))
      (fun raw s => Fits D raw mx h ∧ Work lim L [(src, p, v)] raw.length s)
      (fun _ s => Work lim L [(src, p, v)] 0 s) := by
  have key : Tri (fun s : Io W => s.log = L) (fetchMetadata D R src role p v mx h)
      (fun raw s => Fits D raw mx h ∧ s.log = L ++ [.fetch src p v mx h, .got src p raw])
      (fun _ s => s.log = L ++ [.fetch src p v mx h]) := by
    unfold fetchMetadata
    refine Tri.bind (Q := fun _ s => s.log = L)
      (Tri.ofExcept (fun a s _ hs => hs) (fun e s he hs => ?_)) fun _ => ?_
    · unfold checkRole at he
      rw [hrole] at he
      cases he
    refine Tri.bind (Q := fun _ s => s.log = L ++ [.fetch src p v mx h])
      (note_tri _ (fun s hs => by simp [hs])) fun _ => ?_
    refine Tri.bind (call_log _ _) fun evs => ?_
    refine Tri.bind (Q := fun raw s => Fits D raw mx h ∧ s.log = L ++ [.fetch src p v mx h])
      (Tri.ofExcept ?_ (fun e s _ hs => hs)) fun raw => ?_
    · intro raw s hh hs
      obtain ⟨h1, h2, _⟩ := readChecked_fits hh
      exact ⟨⟨fun n hn => by subst hn; exact h1, h2⟩, hs⟩
    · refine Tri.bind (Q := fun _ s => Fits D raw mx h ∧
        s.log = L ++ [.fetch src p v mx h, .got src p raw])
        (note_tri _ (fun s hs => ⟨hs.1, by simp [hs.2]⟩)) fun _ => ?_
      exact Tri.ret fun s hs => hs
  refine Tri.fix fun s0 hs0 => ?_
  refine (key.lift s0.tuf).conseq (by rintro s rfl; exact ⟨rfl, hs0⟩) ?_ ?_
  · rintro raw s ⟨_, e2, e3⟩
    exact ⟨e2, _, e3, rfl, fun _ => by simp [receivedBytes]⟩
  · rintro _ s ⟨_, e⟩
    exact ⟨_, e, rfl, fun _ => Nat.le_refl _⟩

/-- Storing is no request. -/
theorem store_work (L : List LogEntry) (role p v raw) :
    Tri (fun s : St W => s.io.log = L) (lift (storeMetadata R role p v raw))
      (fun _ s => Work lim L [] 0 s) (fun _ s => Work lim L [] 0 s) := by
  refine Tri.fix fun s0 hs0 => ?_
  refine ((storeMetadata_log (R := R) role p v raw L).lift s0.tuf).conseq
    (by rintro s rfl; exact ⟨rfl, hs0⟩) ?_ ?_
  · rintro _ s ⟨_, e⟩
    exact ⟨_, e, rfl, fun _ => Nat.le_refl _⟩
  · rintro _ s ⟨_, e | e⟩
    · exact ⟨[], by rw [e]; simp, rfl, fun _ => Nat.le_refl _⟩
    · exact ⟨_, e, rfl, fun _ => Nat.le_refl _⟩

theorem op_work (L : List LogEntry) (o : Op) :
    Tri (fun s : St W => s.io.log = L) (updateTuf E o) (fun _ s => Work lim L [] 0 s) (fun _ s => Work lim L [] 0 s) := by
  refine Tri.updateTuf fun s out t' hs _ => ?_
  have : Work lim L [] 0 (⟨t', { s.io with log := s.io.log ++ [.op o out] }⟩ : St W) :=
    ⟨[.op o out], by rw [← hs], rfl, fun _ => Nat.le_refl _⟩
  cases out <;> exact this

theorem work_then {α β : Type} {m : M (St W) α} {f : α → M (St W) β}
    (h : ∀ L, Tri (fun s : St W => s.io.log = L) m (fun _ s => Work lim L [] 0 s) (fun _ s => Work lim L [] 0 s))
    (hf : ∀ a L, Tri (fun s : St W => s.io.log = L) (f a) (fun _ s => Work lim L [] 0 s)
      (fun _ s => Work lim L [] 0 s)) (L : List LogEntry) :
    Tri (fun s : St W => s.io.log = L) (m >>= f) (fun _ s => Work lim L [] 0 s) (fun _ s => Work lim L [] 0 s) := by
  refine Tri.bind (h L) fun a => Tri.fix fun s1 h1 => ?_
  exact (hf a s1.io.log).conseq (by rintro s rfl; rfl) (fun _ _ h => h1.trans h) (fun _ _ h => h1.trans h)

theorem when_work {m : M (St W) Unit} {b : Bool}
    (h : ∀ L, Tri (fun s : St W => s.io.log = L) m (fun _ s => Work lim L [] 0 s) (fun _ s => Work lim L [] 0 s))
    (L : List LogEntry) :
    Tri (fun s : St W => s.io.log = L) (M.when b m) (fun _ s => Work lim L [] 0 s) (fun _ s => Work lim L [] 0 s) :=
  Tri.when (fun _ => h L) (fun _ s hs => hs ▸ Work.refl s)

theorem ret_work {α : Type} (x : α) (L : List LogEntry) :
    Tri (fun s : St W => s.io.log = L) (Pure.pure x : M (St W) α) (fun _ s => Work lim L [] 0 s)
      (fun _ s => Work lim L [] 0 s) := Tri.ret fun s hs => hs ▸ Work.refl s

theorem finish_work (o : Op) (role : Role) (p : MetadataPath) (raw : Bytes) (persist : Bool)
    (L : List LogEntry) :
    Tri (fun s : St W => s.io.log = L)
      (do match ← updateTuf E o with
          | .changed =>
            M.when persist (lift (storeMetadata R role p .none raw))
            return true
          | _ => return false)
      (fun _ s => Work lim L [] 0 s) (fun _ s => Work lim L [] 0 s) := by
  refine work_then (fun L => op_work L o) (fun out L => ?_) L
  cases out with
  | changed => exact work_then (when_work fun L => store_work L _ _ _ _) (fun _ L => ret_work _ L) L
  | unchanged => exact ret_work _ L
  | failed => exact ret_work _ L

theorem clock_work (L : List LogEntry) :
    Tri (fun s : St W => s.io.log = L) (getClock R) (fun _ s => s.io.log = L) (fun _ _ => False) :=
  Tri.getClock fun _ h => h

/-- A request followed by something that requests nothing. -/
theorem fetch_finish (L : List LogEntry) (src role p v mx h) (hrole : role.fuzzyMatchesPath p = true) {β : Type} (f : Bytes → M (St W) β) (n : Nat)
    (hn : lim → ∀ raw, Fits D raw mx h → raw.length ≤ n)
    (hf : ∀ raw L, Tri (fun s : St W => s.io.log = L) (f raw) (fun _ s => Work lim L [] 0 s)
      (fun _ s => Work lim L [] 0 s)) :
    Tri (fun s : St W => s.io.log = L) (lift (fetchMetadata D R src role p v mx h) >>= f)
      (fun _ s => Work lim L [(src, p, v)] n s) (fun _ s => Work lim L [(src, p, v)] n s) := by
  refine Tri.bind ((fetch_work L src role p v mx h hrole).conseq (fun _ h => h) (fun _ _ h => h)
    (fun _ _ h => h.le (fun _ => Nat.zero_le _))) fun raw => Tri.fix fun s1 ⟨h0, h1⟩ => ?_
  have fin : ∀ s : St W, Work lim s1.io.log [] 0 s → Work lim L [(src, p, v)] n s := fun s h =>
    (h1.trans h).le (fun hl => by have := hn hl raw h0; omega)
  exact (hf raw s1.io.log).conseq (by rintro s rfl; rfl) (fun _ s h => fin s h) (fun _ s h => fin s h)

theorem clock_then {β : Type} {f : Clock → M (St W) β} {L : List LogEntry}
    (hf : ∀ c L, Tri (fun s : St W => s.io.log = L) (f c) (fun _ s => Work lim L [] 0 s)
      (fun _ s => Work lim L [] 0 s)) :
    Tri (fun s : St W => s.io.log = L) (getClock R >>= f) (fun _ s => Work lim L [] 0 s)
      (fun _ s => Work lim L [] 0 s) :=
  Tri.bind (Q := fun _ s => s.io.log = L) (Tri.getClock fun _ h => h) fun c => hf c L

theorem updateTimestamp_work (n : Nat) (hn : lim → cfg.maxTimestampLength = some n) (L : List LogEntry) :
    Tri (fun s : St W => s.io.log = L) (updateTimestampWithRepos E D R cfg .remote true)
      (fun _ s => Work lim L [timestampAsk] n s) (fun _ s => Work lim L [timestampAsk] n s) := by
  unfold updateTimestampWithRepos
  exact fetch_finish L .remote .timestamp (MetadataPath.fromRole .timestamp) .none cfg.maxTimestampLength
    none (by decide) _ n (fun hl raw h => h.length n (hn hl)) fun raw L => clock_then fun c L => finish_work _ _ _ raw true L

theorem updateSnapshot_work (t : Tuf) (L : List LogEntry) :
    Tri (fun s : St W => s.tuf = t ∧ s.io.log = L)
      (updateSnapshotWithRepos E D R .remote true t.root.consistentSnapshot)
      (fun _ s => ∃ ts, t.timestamp = some ts ∧ Work lim L (if ts.snapshot.version ≤ verOf (·.version) t.snapshot
        then [] else [snapshotAsk t ts.snapshot.version]) (announcedSnapshot t) s)
      (fun _ s => ∃ v a, a <+: [snapshotAsk t v] ∧ Work lim L a (announcedSnapshot t) s) := by
  unfold updateSnapshotWithRepos
  have none0 : ∀ s : St W, s.io.log = L → Work lim L [] (announcedSnapshot t) s := fun s hs =>
    (hs ▸ Work.refl s).le (fun _ => Nat.zero_le _)
  refine Tri.bind (Q := fun t' s => t' = t ∧ s.tuf = t ∧ s.io.log = L)
    (by rintro s ⟨rfl, h⟩; exact ⟨rfl, rfl, h⟩) fun t' => Tri.assume fun ht' => ?_
  subst ht'
  cases hts : t'.timestamp with
  | none => exact Tri.fail fun s hs => ⟨0, [], List.nil_prefix, none0 s hs.2⟩
  | some ts =>
    refine Tri.ite (fun hv => Tri.ret fun s hs => ⟨ts, rfl, ?_⟩) fun hv => ?_
    · rw [if_pos (by rw [← snapshotVersion_eq]; exact hv)]
      exact none0 s hs.2
    refine Tri.bind (Q := fun _ s => s.io.log = L)
      (Tri.ofExcept (fun _ _ _ h => h.2) (fun _ s _ h => ⟨0, [], List.nil_prefix, none0 s h.2⟩)) fun p => ?_
    obtain ⟨a, v⟩ := p
    refine (fetch_finish (lim := lim) L .remote .snapshot (MetadataPath.fromRole .snapshot) _ _ _ (by decide) _
      (announcedSnapshot t') (fun _ raw h => ?_) fun raw L => clock_then fun c L =>
        finish_work _ _ _ raw true L).conseq (fun _ h => h) ?_ ?_
    · have := h.length _ rfl
      unfold announcedSnapshot
      rw [hts]
      exact this
    · rintro _ s h
      refine ⟨ts, rfl, ?_⟩
      rw [if_neg (by rw [← snapshotVersion_eq]; exact hv)]
      exact h
    · exact fun _ s h => ⟨ts.snapshot.version, _, List.prefix_refl _, h⟩

theorem updateTargets_work (t : Tuf) (L : List LogEntry) :
    Tri (fun s : St W => s.tuf = t ∧ s.io.log = L)
      (updateTargetsWithRepos E D R .remote true t.root.consistentSnapshot)
      (fun _ s => ∃ sn m, t.snapshot = some sn ∧ sn.metas.get? targetsName = some m ∧
        Work lim L (if m.version ≤ verOf (·.version) t.targets
        then [] else [targetsAsk t m.version]) (announcedTargets t) s)
      (fun _ s => ∃ v a, a <+: [targetsAsk t v] ∧ Work lim L a (announcedTargets t) s) := by
  unfold updateTargetsWithRepos
  have none0 : ∀ s : St W, s.io.log = L → Work lim L [] (announcedTargets t) s := fun s hs =>
    (hs ▸ Work.refl s).le (fun _ => Nat.zero_le _)
  refine Tri.bind (Q := fun t' s => t' = t ∧ s.tuf = t ∧ s.io.log = L)
    (by rintro s ⟨rfl, h⟩; exact ⟨rfl, rfl, h⟩) fun t' => Tri.assume fun ht' => ?_
  subst ht'
  cases hsn : t'.snapshot with
  | none => exact Tri.fail fun s hs => ⟨0, [], List.nil_prefix, none0 s hs.2⟩
  | some sn =>
    dsimp only
    cases hm : sn.metas.get? (MetadataPath.fromRole .targets) with
    | none => exact Tri.fail fun s hs => ⟨0, [], List.nil_prefix, none0 s hs.2⟩
    | some m =>
      refine Tri.ite (fun hv => Tri.ret fun s hs => ⟨sn, m, rfl, hm, ?_⟩) fun hv => ?_
      · rw [if_pos (by rw [← targetsVersion_eq]; exact hv)]
        exact none0 s hs.2
      refine Tri.bind (Q := fun _ s => s.io.log = L)
        (Tri.ofExcept (fun _ _ _ h => h.2) (fun _ s _ h => ⟨0, [], List.nil_prefix, none0 s h.2⟩)) fun p => ?_
      obtain ⟨a, v⟩ := p
      refine (fetch_finish (lim := lim) L .remote .targets (MetadataPath.fromRole .targets) _ _ _ (by decide) _
        (announcedTargets t') (fun _ raw h => ?_) fun raw L => clock_then fun c L =>
          finish_work _ _ _ raw true L).conseq (fun _ h => h) ?_ ?_
      · have := h.length _ rfl
        have hm' : sn.metas.get? targetsName = some m := hm
        unfold announcedTargets
        simp only [hsn, verOf, hm']
        exact this
      · rintro _ s h
        refine ⟨sn, m, rfl, hm, ?_⟩
        rw [if_neg (by rw [← targetsVersion_eq]; exact hv)]
        exact h
      · exact fun _ s h => ⟨m.version, _, List.prefix_refl _, h⟩

theorem rootAsks_succ (v n : Nat) :
    rootAsks v (n + 1) = (.remote, "root".toList, .number ((v + 1) % 4294967296)) :: rootAsks (v + 1) n := by
  unfold rootAsks
  rw [List.range_succ_eq_map]
  simp only [List.map_cons, List.map_map, Nat.add_zero]
  congr 1
  apply List.map_congr_left
  intro i _
  simp only [Function.comp]
  rw [show v + 1 + (i + 1) = v + 1 + 1 + i by omega]

theorem nextRootVersion_mod {checks : Bool} {v x : Nat} (hv : v ≤ 4294967295)
    (h : nextRootVersion checks v = .ok x) : x = (v + 1) % 4294967296 := by
  unfold nextRootVersion u32Max at h
  split at h
  · split at h
    · cases h
    · cases h; rw [show v = 4294967295 by omega]
  · cases h; rw [Nat.mod_eq_of_lt (by omega)]

theorem rootLoop_work (n : Nat) (hn : lim → cfg.maxRootLength = some n) (fuel : Nat) :
    ∀ (upd : Bool) (t : Tuf) (L : List LogEntry), t.root.version ≤ 4294967295 →
    Tri (fun s : St W => s.tuf = t ∧ s.io.log = L) (rootLoop E D R cfg .remote true fuel upd)
      (fun _ s => ∃ j, RootSteps E t j s.tuf ∧ Work lim L (rootAsks t.root.version (j + 1)) ((j + 1) * n) s)
      (fun _ s => ∃ j k, RootSteps E t j s.tuf ∧ (k = j ∨ k = j + 1) ∧
        Work lim L (rootAsks t.root.version k) ((j + 1) * n) s) := by
  induction fuel with
  | zero =>
    intro upd t L _
    exact Tri.fail fun s hs => ⟨0, 0, hs.1 ▸ .zero _, .inl rfl, (hs.2 ▸ Work.refl s).le (fun _ => Nat.zero_le _)⟩
  | succ fuel ih =>
    intro upd t L hv
    unfold rootLoop
    refine Tri.bind (Q := fun t' s => t' = t ∧ s.tuf = t ∧ s.io.log = L)
      (by rintro s ⟨rfl, h⟩; exact ⟨rfl, rfl, h⟩) fun t' => Tri.assume fun ht' => ?_
    subst ht'
    have none0 : ∀ s : St W, s.tuf = t' ∧ s.io.log = L → ∃ j k, RootSteps E t' j s.tuf ∧
        (k = j ∨ k = j + 1) ∧ Work lim L (rootAsks t'.root.version k) ((j + 1) * n) s := fun s hs =>
      ⟨0, 0, hs.1 ▸ .zero _, .inl rfl, (hs.2 ▸ Work.refl s).le (fun _ => Nat.zero_le _)⟩
    refine Tri.bind (Q := fun x s => nextRootVersion cfg.overflowChecks t'.root.version = .ok x ∧
        s.tuf = t' ∧ s.io.log = L) (Tri.ofExcept (fun _ _ e h => ⟨e, h⟩) (fun _ s _ hs => none0 s hs))
      fun next => Tri.assume fun hnext => ?_
    have hnext := nextRootVersion_mod hv hnext
    subst hnext
    have one : ([(.remote, "root".toList, .number ((t'.root.version + 1) % 4294967296))] : List Ask) =
      rootAsks t'.root.version 1 := by rw [rootAsks_succ]; rfl
    refine Tri.bind (Tri.attempt (((fetch_work (lim := lim) L .remote .root (MetadataPath.fromRole .root) _ cfg.maxRootLength
      none (by decide)).both (lift_tuf _ t')).conseq (fun s hs => ⟨hs.2, hs.1⟩) (fun _ _ h => h)
      (fun _ _ h => h)) ?_) fun r => ?_
    · rintro s ⟨h1, h2⟩
      exact ⟨0, 1, h2 ▸ .zero _, .inr rfl, one ▸ h1.le (fun _ => Nat.zero_le _)⟩
    cases r with
    | error e =>
      dsimp only
      have bad : Tri (fun s : St W => Work lim L [(.remote, "root".toList,
            .number ((t'.root.version + 1) % 4294967296))] 0 s ∧ s.tuf = t') (M.fail e : M (St W) Bool)
          (fun _ s => ∃ j, RootSteps E t' j s.tuf ∧ Work lim L (rootAsks t'.root.version (j + 1)) ((j + 1) * n) s)
          (fun _ s => ∃ j k, RootSteps E t' j s.tuf ∧ (k = j ∨ k = j + 1) ∧
            Work lim L (rootAsks t'.root.version k) ((j + 1) * n) s) :=
        Tri.fail fun s ⟨h1, h2⟩ => ⟨0, 1, h2 ▸ .zero _, .inr rfl, one ▸ h1.le (fun _ => Nat.zero_le _)⟩
      cases e with
      | notFound =>
        exact Tri.ret fun s ⟨h1, h2⟩ => ⟨0, h2 ▸ .zero _, one ▸ h1.le (fun _ => Nat.zero_le _)⟩
      | _ => exact bad
    | ok raw =>
      refine Tri.fix ?_
      rintro s1 ⟨⟨h0, h1⟩, h2⟩
      have hlen : lim → raw.length ≤ n := fun hl => h0.length n (hn hl)
      replace h1 : Work lim L (rootAsks t'.root.version 1) n s1 := one ▸ h1.le hlen
      refine Tri.bind (Q := fun o s => Tuf.step E t' (.root raw) = (.changed, s.tuf) ∧
        Work lim L (rootAsks t'.root.version 1) n s) ?_ fun o => ?_
      · refine Tri.updateTuf fun s o t'' hs hst => ?_
        subst hs
        rw [h2] at hst
        have hw : Work lim L (rootAsks t'.root.version 1) n
            (⟨t'', { s.io with log := s.io.log ++ [.op (.root raw) o] }⟩ : St W) :=
          (h1.trans (s' := ⟨t'', { s.io with log := s.io.log ++ [.op (.root raw) o] }⟩) (a' := []) (n' := 0)
            ⟨_, rfl, rfl, fun _ => Nat.le_refl _⟩).le (fun _ => Nat.le_refl _) |> fun h => by simpa using h
        rcases root_step hst with ⟨rfl, _⟩ | ⟨⟨e, rfl⟩, rfl⟩
        · exact ⟨hst, hw⟩
        · exact ⟨0, 1, .zero _, .inr rfl, by simpa using hw⟩
      · refine Tri.fix ?_
        rintro s2 ⟨g1, g2⟩
        refine Tri.bind (Q := fun _ s => s.tuf = s2.tuf ∧ Work lim L (rootAsks t'.root.version 1) n s) ?_ fun _ => ?_
        · refine Tri.conseq ((when_work (lim := lim) (W := W) (b := true) (work_then (fun L => store_work L _ _ _ _)
            (fun _ L => store_work L _ _ _ _)) s2.io.log).both (Keeps.when fun _ => (lift_tuf _ s2.tuf).bind
              fun _ => lift_tuf _ _)) (by rintro s rfl; exact ⟨rfl, rfl⟩) ?_ ?_
          · rintro _ s ⟨k1, k2⟩
            exact ⟨k2, by simpa using g2.trans k1⟩
          · rintro _ s ⟨k1, k2⟩
            refine ⟨1, 1, k2 ▸ .succ _ _ _ raw 0 g1 (.zero _), .inl rfl, ?_⟩
            exact (by simpa using g2.trans k1 : Work lim L (rootAsks t'.root.version 1) n s).le (fun _ => by omega)
        · refine Tri.fix ?_
          rintro s3 ⟨k1, k2⟩
          have hver : s3.tuf.root.version = t'.root.version + 1 := by
            rw [k1]
            exact (RootSteps.succ _ _ _ raw 0 g1 (.zero _)).version
          have hle : s3.tuf.root.version ≤ 4294967295 := by
            rw [k1]
            rcases root_step g1 with ⟨_, new, hr, he⟩ | ⟨⟨e, he⟩, _⟩
            · rw [he]
              simp only [ofRoot]
              rw [hr.nextVersion]
              exact hr.noOverflow
            · cases he
          have more : ∀ k m (s : St W), Work lim s3.io.log (rootAsks s3.tuf.root.version k) m s →
              Work lim L (rootAsks t'.root.version (k + 1)) (n + m) s := by
            intro k m s h
            have := k2.trans h
            rw [← one, hver] at this
            rw [rootAsks_succ]
            exact this
          refine (ih true s3.tuf s3.io.log hle).conseq (by rintro s rfl; exact ⟨rfl, rfl⟩) ?_ ?_
          · rintro _ s ⟨j, q1, q2⟩
            refine ⟨j + 1, .succ _ _ _ raw j g1 (k1 ▸ q1), (more _ _ s q2).le fun _ => ?_⟩
            rw [Nat.add_mul (j + 1) 1 n]; omega
          · rintro _ s ⟨j, k, q1, q2, q3⟩
            refine ⟨j + 1, k + 1, .succ _ _ _ raw j g1 (k1 ▸ q1), by omega, (more _ _ s q3).le fun _ => ?_⟩
            rw [Nat.add_mul (j + 1) 1 n]; omega

theorem updateRoot_work (n : Nat) (hn : lim → cfg.maxRootLength = some n) (t : Tuf) (L : List LogEntry)
    (hv : t.root.version ≤ 4294967295) :
    Tri (fun s : St W => s.tuf = t ∧ s.io.log = L) (updateRootWithRepos E D R cfg .remote true)
      (fun _ s => ∃ j, RootSteps E t j s.tuf ∧ Work lim L (rootAsks t.root.version (j + 1)) ((j + 1) * n) s)
      (fun _ s => ∃ j k, RootSteps E t j s.tuf ∧ (k = j ∨ k = j + 1) ∧
        Work lim L (rootAsks t.root.version k) ((j + 1) * n) s) := by
  unfold updateRootWithRepos
  refine Tri.bind (rootLoop_work n hn _ false t L hv) fun b => Tri.ex fun j => Tri.fix ?_
  rintro s1 ⟨h1, h2⟩
  refine Tri.bind (Q := fun _ s => s.tuf = s1.tuf ∧ s.io.log = s1.io.log)
    (Tri.getClock (by rintro s rfl; exact ⟨rfl, rfl⟩)) fun c => ?_
  refine Tri.bind (Q := fun _ (s : St W) => s.tuf = s1.tuf ∧ s.io.log = s1.io.log) (fun s hs => hs) fun t' => ?_
  have same : ∀ s : St W, s.io.log = s1.io.log →
      Work lim L (rootAsks t.root.version (j + 1)) ((j + 1) * n) s := by
    obtain ⟨l, g1, g2, g3⟩ := h2
    exact fun s hs => ⟨l, hs.trans g1, g2, g3⟩
  exact Tri.ite (fun _ => Tri.fail fun s hs => ⟨j, j + 1, hs.1 ▸ h1, .inr rfl, same s hs.2⟩)
    (fun _ => Tri.ret fun s hs => ⟨j, hs.1 ▸ h1, same s hs.2⟩)

/-- What updates other than of the root leave alone. -/
theorem step_frame (E : Env) (t : Tuf) (op : Op) :
    ((∀ raw, op ≠ .root raw) → (step E t op).2.root = t.root) ∧
    ((∃ clk raw, op = .snapshot clk raw ∨ op = .targets clk raw) → (step E t op).2.timestamp = t.timestamp) ∧
    ((∃ clk raw, op = .targets clk raw) → (step E t op).2.snapshot = t.snapshot) := by
  have hc := step_case E t op
  generalize (step E t op).1 = o at hc
  generalize (step E t op).2 = t' at hc
  cases hc with
  | failed | same => exact ⟨fun _ => rfl, fun _ => rfl, fun _ => rfl⟩
  | root raw new hr => exact ⟨fun h => absurd rfl (h raw), by simp, by simp⟩
  | timestamp | timestampExpired => exact ⟨fun _ => rfl, by simp, by simp⟩
  | snapshot clk raw new _ hr hp => exact ⟨fun _ => hp.root, fun _ => hp.timestamp, by simp⟩
  | targets => exact ⟨fun _ => rfl, fun _ => rfl, fun _ => rfl⟩
  | delegation => exact ⟨fun _ => rfl, by simp, by simp⟩

theorem prefix_one {α : Type} {a : List α} {x : α} (h : a <+: [x]) : a = [] ∨ a = [x] := by
  cases a with
  | nil => exact .inl rfl
  | cons y a =>
    obtain ⟨b, hb⟩ := h
    simp only [List.cons_append, List.cons.injEq, List.append_eq_nil_iff] at hb
    exact .inr (by rw [hb.1, hb.2.1])

/-- What is known at the end of an update, however it ends. -/
def Bounded (lim : Prop) (v : Nat) (L : List LogEntry) (a b : Nat) (s : St W) : Prop :=
  ∃ j k rest, s.tuf.root.version = v + j ∧ (k = j ∨ k = j + 1) ∧ (rest ≠ [] → k = j + 1) ∧
    (rest.map fun q : Ask => (q.1, q.2.1)).Sublist laterRoles ∧ (rest ≠ [] → rest.head? = some timestampAsk) ∧
    Work lim L (rootAsks v k ++ rest) ((j + 1) * a + b + announcedSnapshot s.tuf + announcedTargets s.tuf) s

theorem update_bounded (a b : Nat) (ha : lim → cfg.maxRootLength = some a)
    (hb : lim → cfg.maxTimestampLength = some b) (s0 : St W) (hv : s0.tuf.root.version ≤ 4294967295) :
    Tri (fun s : St W => s = s0) (update E D R cfg)
      (fun _ s => Bounded lim s0.tuf.root.version s0.io.log a b s)
      (fun _ s => Bounded lim s0.tuf.root.version s0.io.log a b s) := by
  unfold update
  refine Tri.bind ((updateRoot_work (lim := lim) a ha s0.tuf s0.io.log hv).conseq
    (by rintro s rfl; exact ⟨rfl, rfl⟩) (fun _ _ h => h) ?_) fun b1 => Tri.ex fun j => Tri.fix ?_
  · rintro _ s ⟨j, k, h1, h2, h3⟩
    refine ⟨j, k, [], h1.version, h2, by simp, by simp, by simp, ?_⟩
    rw [List.append_nil]
    exact h3.le fun _ => by omega
  rintro s1 ⟨h1, w1⟩
  have v1 := h1.version
  refine Tri.bind (((updateTimestamp_work (lim := lim) b hb s1.io.log).both
    (updateTimestamp_eff .remote true s1.tuf)).conseq (by rintro s rfl; exact ⟨rfl, rfl⟩)
      (fun _ _ h => h) ?_) fun b2 => Tri.fix ?_
  · rintro _ s ⟨h2, h3⟩
    have hroot : s.tuf.root = s1.tuf.root := by
      rcases h3 with h3 | ⟨clk, raw, o, h3⟩
      · rw [h3]
      · rw [show s.tuf = (step E s1.tuf (.timestamp clk raw)).2 by rw [h3]]
        exact (step_frame E _ _).1 (by simp)
    exact ⟨j, j + 1, [timestampAsk], by rw [hroot, v1], .inr rfl, fun _ => rfl, by decide, fun _ => rfl,
      (w1.trans h2).le fun _ => by omega⟩
  rintro s2 ⟨w2, h2⟩
  have r2 : s2.tuf.root = s1.tuf.root := by
    obtain ⟨w, raw, ⟨_, h2⟩ | ⟨_, h2⟩⟩ := h2 <;>
    · rw [show s2.tuf = (step E s1.tuf (.timestamp (R.clock w).1 raw)).2 by rw [h2]]
      exact (step_frame E _ _).1 (by simp)
  replace w2 := w1.trans w2
  refine Tri.bind (Q := fun t s => t = s2.tuf ∧ s = s2) (by rintro s rfl; exact ⟨rfl, rfl⟩) fun t2 =>
    Tri.assume fun ht2 => ?_
  subst ht2
  refine Tri.bind (((updateSnapshot_work (lim := lim) s2.tuf s2.io.log).both
    (updateSnapshot_eff .remote true _ s2.tuf)).conseq (by rintro s rfl; exact ⟨⟨rfl, rfl⟩, rfl⟩)
      (fun _ _ h => h) ?_) fun b3 => Tri.fix ?_
  · rintro _ s ⟨⟨v, a', h4, h5⟩, h3⟩
    have hroot : s.tuf.root = s2.tuf.root ∧ s.tuf.timestamp = s2.tuf.timestamp := by
      rcases h3 with h3 | ⟨clk, raw, o, h3⟩
      · rw [h3]; exact ⟨rfl, rfl⟩
      · rw [show s.tuf = (step E s2.tuf (.snapshot clk raw)).2 by rw [h3]]
        exact ⟨(step_frame E _ _).1 (by simp), (step_frame E _ _).2.1 ⟨clk, raw, .inl rfl⟩⟩
    have hs : announcedSnapshot s.tuf = announcedSnapshot s2.tuf := by
      unfold announcedSnapshot; rw [hroot.2]
    refine ⟨j, j + 1, timestampAsk :: a', by rw [hroot.1, r2, v1], .inr rfl, fun _ => rfl, ?_, fun _ => rfl, ?_⟩
    · rcases prefix_one h4 with rfl | rfl
      · decide
      · exact List.Sublist.cons_cons _ (List.Sublist.cons_cons _ (List.nil_sublist _))
    · have := w2.trans h5
      rw [List.append_assoc] at this
      exact this.le fun _ => by omega
  rintro s3 ⟨⟨ts, hts, w3⟩, h3⟩
  have r3 : s3.tuf.root = s2.tuf.root ∧ s3.tuf.timestamp = s2.tuf.timestamp := by
    rcases h3 with ⟨w, raw, _, h3⟩ | ⟨_, h3, _⟩
    · rw [show s3.tuf = (step E s2.tuf (.snapshot (R.clock w).1 raw)).2 by rw [h3]]
      exact ⟨(step_frame E _ _).1 (by simp), (step_frame E _ _).2.1 ⟨_, raw, .inl rfl⟩⟩
    · rw [h3]; exact ⟨rfl, rfl⟩
  have a3 : announcedSnapshot s3.tuf = announcedSnapshot s2.tuf := by
    unfold announcedSnapshot; rw [r3.2]
  replace w3 := w2.trans w3
  refine Tri.bind (Q := fun t s => t = s3.tuf ∧ s = s3) (by rintro s rfl; exact ⟨rfl, rfl⟩) fun t3 =>
    Tri.assume fun ht3 => ?_
  subst ht3
  have last : ∀ (s : St W) v a', a' <+: [targetsAsk s3.tuf v] →
      Work lim s3.io.log a' (announcedTargets s3.tuf) s →
      (s.tuf.root = s3.tuf.root ∧ s.tuf.timestamp = s3.tuf.timestamp ∧ s.tuf.snapshot = s3.tuf.snapshot) →
      Bounded lim s0.tuf.root.version s0.io.log a b s := by
    rintro s v a' h4 h5 ⟨g1, g2, g3⟩
    have e1 : announcedSnapshot s.tuf = announcedSnapshot s3.tuf := by unfold announcedSnapshot; rw [g2]
    have e2 : announcedTargets s.tuf = announcedTargets s3.tuf := by unfold announcedTargets; rw [g3]
    refine ⟨j, j + 1, timestampAsk :: ((if ts.snapshot.version ≤ verOf (·.version) s2.tuf.snapshot then []
      else [snapshotAsk s2.tuf ts.snapshot.version]) ++ a'), by rw [g1, r3.1, r2, v1], .inr rfl,
      fun _ => rfl, ?_, fun _ => rfl, ?_⟩
    · rcases prefix_one h4 with rfl | rfl <;> split
      · decide
      · exact List.Sublist.cons_cons _ (List.Sublist.cons_cons _ (List.nil_sublist _))
      · exact List.Sublist.cons_cons _ (List.Sublist.cons _ (List.Sublist.cons_cons _ (List.nil_sublist _)))
      · exact List.Sublist.cons_cons _ (List.Sublist.cons_cons _
          (List.Sublist.cons_cons _ (List.nil_sublist _)))
    · have := w3.trans h5
      simp only [List.append_assoc, List.cons_append, List.nil_append] at this
      exact this.le fun _ => by omega
  refine Tri.bind (Q := fun _ s => Bounded lim s0.tuf.root.version s0.io.log a b s)
    (((updateTargets_work (lim := lim) s3.tuf s3.io.log).both
    (updateTargets_eff .remote true _ s3.tuf)).conseq (by rintro s rfl; exact ⟨⟨rfl, rfl⟩, rfl⟩)
      ?_ ?_) fun b4 => Tri.ret fun s hs => hs
  · rintro _ s ⟨⟨sn, m, hsn, hm, w4⟩, h4⟩
    refine last s m.version _ ?_ w4 ?_
    · split
      · exact List.nil_prefix
      · exact List.prefix_refl _
    · rcases h4 with ⟨w, raw, _, h4⟩ | ⟨_, h4, _⟩
      · rw [show s.tuf = (step E s3.tuf (.targets (R.clock w).1 raw)).2 by rw [h4]]
        exact ⟨(step_frame E _ _).1 (by simp), (step_frame E _ _).2.1 ⟨_, raw, .inr rfl⟩,
          (step_frame E _ _).2.2 ⟨_, raw, rfl⟩⟩
      · rw [h4]; exact ⟨rfl, rfl, rfl⟩
  · rintro _ s ⟨⟨v, a', h5, w4⟩, h4⟩
    refine last s v a' h5 w4 ?_
    rcases h4 with h4 | ⟨clk, raw, o, h4⟩
    · rw [h4]; exact ⟨rfl, rfl, rfl⟩
    · rw [show s.tuf = (step E s3.tuf (.targets clk raw)).2 by rw [h4]]
      exact ⟨(step_frame E _ _).1 (by simp), (step_frame E _ _).2.1 ⟨clk, raw, .inr rfl⟩,
        (step_frame E _ _).2.2 ⟨clk, raw, rfl⟩⟩

theorem RootSteps.held {t t' : Tuf} {n : Nat} (h : RootSteps E t n t') :
    (if n = 0 then t.snapshot else none) = t'.snapshot ∧ (if n = 0 then t.targets else none) = t'.targets := by
  induction h with
  | zero t => exact ⟨rfl, rfl⟩
  | succ t t1 t2 raw n h1 h2 ih =>
    rcases root_step h1 with ⟨_, new, _, rfl⟩ | ⟨⟨e, he⟩, _⟩
    · rw [← ih.1, ← ih.2]
      simp [ofRoot]
    · cases he

/-- **C99.** However an update ends, it has asked the remote repository for the roots that follow the
trusted one, in order, with exactly one request beyond the accepted ones (or none, if the update ended
right after accepting a root), and then for timestamp, snapshot and targets, in this order and at most
once each. The metadata it received are within the configured and announced lengths. -/
theorem C99_work_bounded (E : Env) (D : Digest) (R : World W) (cfg : Config) (s s' : St W)
    (r : Except Err Bool) (hv : s.tuf.root.version ≤ 4294967295) (h : update E D R cfg s = (r, s')) :
    ∃ l j k rest, s'.io.log = s.io.log ++ l ∧ s'.tuf.root.version = s.tuf.root.version + j ∧
      asked l = rootAsks s.tuf.root.version k ++ rest ∧ (k = j ∨ k = j + 1) ∧ (rest ≠ [] → k = j + 1) ∧
      (rest.map fun q : Ask => (q.1, q.2.1)).Sublist laterRoles ∧
      (rest ≠ [] → rest.head? = some timestampAsk) ∧
      ∀ a b, cfg.maxRootLength = some a → cfg.maxTimestampLength = some b →
        receivedBytes l ≤ (j + 1) * a + b + announcedSnapshot s'.tuf + announcedTargets s'.tuf := by
  have key := update_bounded (E := E) (D := D) (R := R) (cfg := cfg)
    (lim := cfg.maxRootLength ≠ none ∧ cfg.maxTimestampLength ≠ none) (cfg.maxRootLength.getD 0)
    (cfg.maxTimestampLength.getD 0)
    (fun hl => by cases hx : cfg.maxRootLength with | none => exact absurd hx hl.1 | some _ => rfl)
    (fun hl => by cases hx : cfg.maxTimestampLength with | none => exact absurd hx hl.2 | some _ => rfl) s hv
  have key : Bounded (cfg.maxRootLength ≠ none ∧ cfg.maxTimestampLength ≠ none) s.tuf.root.version s.io.log
      (cfg.maxRootLength.getD 0) (cfg.maxTimestampLength.getD 0) s' := by
    cases r with
    | ok b => exact key.run_ok rfl h
    | error e => exact key.run_error rfl h
  obtain ⟨j, k, rest, h1, h2, h3, h4, h5, l, g1, g2, g3⟩ := key
  refine ⟨l, j, k, rest, g1, h1, g2, h2, h3, h4, h5, fun a b ha hb => ?_⟩
  have := g3 ⟨by rw [ha]; simp, by rw [hb]; simp⟩
  rw [ha, hb] at this
  exact this

/-- **C99.** The requests of a successful update: the roots that follow the trusted one, one beyond the
accepted ones; the timestamp; the snapshot unless the version announced by the timestamp is trusted
already; the targets unless the version listed by the snapshot is trusted already. A new root makes the
client forget the other metadata. -/
theorem C99_requests (E : Env) (hE : Decoders E) (D : Digest) (R : World W) (cfg : Config) (s s' : St W)
    (b : Bool) (hr : Reachable E s.tuf) (h : update E D R cfg s = (.ok b, s')) :
    ∃ l j ts sn m, s'.io.log = s.io.log ++ l ∧ s'.tuf.root.version = s.tuf.root.version + j ∧
      s'.tuf.timestamp = some ts ∧ s'.tuf.snapshot = some sn ∧ sn.metas.get? targetsName = some m ∧
      asked l = rootAsks s.tuf.root.version (j + 1) ++ [timestampAsk] ++
        (if verOf (·.version) (if j = 0 then s.tuf.snapshot else none) = ts.snapshot.version then []
          else [snapshotAsk s'.tuf ts.snapshot.version]) ++
        (if verOf (·.version) (if j = 0 then s.tuf.targets else none) = m.version then []
          else [targetsAsk s'.tuf m.version]) := by
  obtain ⟨⟨ts, sn, hts, hsn, hver⟩, ⟨sn', m, ta, hsn', hm, hta, htv⟩⟩ :=
    (C29_update_complete E hE D R cfg s s' b hr h).1
  rw [hsn] at hsn'; cases hsn'
  obtain ⟨b1, b2, b3, b4, s1, s2, s3, e1, e2, e3, e4, rfl⟩ := update_parts h
  have hv : s.tuf.root.version ≤ 4294967295 := (hr.positive hE).root.2
  obtain ⟨j, q1, w1⟩ := (updateRoot_work (E := E) (D := D) (R := R) (cfg := cfg) (lim := False) 0
    (fun h => h.elim) s.tuf s.io.log hv).run_ok ⟨rfl, rfl⟩ e1
  have w2 := (updateTimestamp_work (E := E) (D := D) (R := R) (cfg := cfg) (lim := False) 0
    (fun h => h.elim) s1.io.log).run_ok rfl e2
  obtain ⟨ts2, hts2, w3⟩ := (updateSnapshot_work (E := E) (D := D) (R := R) (lim := False)
    s2.tuf s2.io.log).run_ok ⟨rfl, rfl⟩ e3
  obtain ⟨sn3, m3, hsn3, hm3, w4⟩ := (updateTargets_work (E := E) (D := D) (R := R) (lim := False)
    s3.tuf s3.io.log).run_ok ⟨rfl, rfl⟩ e4
  obtain ⟨c2, raw2, r2⟩ := (updateTimestamp_eff (E := E) (D := D) (R := R) (cfg := cfg) .remote true
    s1.tuf).run_ok rfl e2
  have r3 := (updateSnapshot_eff (E := E) (D := D) (R := R) .remote true _ s2.tuf).run_ok rfl e3
  have r4 := (updateTargets_eff (E := E) (D := D) (R := R) .remote true _ s3.tuf).run_ok rfl e4
  have reach1 := q1.reachable hr
  obtain ⟨o2, ho2⟩ : ∃ o, step E s1.tuf (.timestamp (R.clock c2).1 raw2) = (o, s2.tuf) ∧ ∀ e, o ≠ .failed e := by
    rcases r2 with ⟨_, r⟩ | ⟨_, r⟩ <;> exact ⟨_, r, by simp⟩
  have reach2 := reach1.step' ho2.1
  have pos2 := reach2.positive hE
  -- the trusted store after the parts
  have t2 : s2.tuf.root = s1.tuf.root ∧ s2.tuf.targets = s1.tuf.targets :=
    let h := timestamp_step hE ho2.1 ho2.2
    ⟨h.2.1, h.2.2.1⟩
  have t3 : s3.tuf.root = s2.tuf.root ∧ s3.tuf.timestamp = s2.tuf.timestamp := by
    rcases r3 with ⟨w, raw, _, h3⟩ | ⟨_, h3, _⟩
    · rw [show s3.tuf = (step E s2.tuf (.snapshot (R.clock w).1 raw)).2 by rw [h3]]
      exact ⟨(step_frame E _ _).1 (by simp), (step_frame E _ _).2.1 ⟨_, raw, .inl rfl⟩⟩
    · rw [h3]; exact ⟨rfl, rfl⟩
  have reach3 : Reachable E s3.tuf := by
    rcases r3 with ⟨w, raw, _, h3⟩ | ⟨_, h3, _⟩
    · exact reach2.step' h3
    · rw [h3]; exact reach2
  have t4 : s'.tuf.root = s3.tuf.root ∧ s'.tuf.timestamp = s3.tuf.timestamp ∧
      s'.tuf.snapshot = s3.tuf.snapshot := by
    rcases r4 with ⟨w, raw, _, h4⟩ | ⟨_, h4, _⟩
    · rw [show s'.tuf = (step E s3.tuf (.targets (R.clock w).1 raw)).2 by rw [h4]]
      exact ⟨(step_frame E _ _).1 (by simp), (step_frame E _ _).2.1 ⟨_, raw, .inr rfl⟩,
        (step_frame E _ _).2.2 ⟨_, raw, rfl⟩⟩
    · rw [h4]; exact ⟨rfl, rfl, rfl⟩
  rw [t4.2.1, t3.2, hts2] at hts; cases hts
  rw [t4.2.2, hsn3] at hsn; cases hsn
  rw [hm3] at hm; cases hm
  -- when there is a request
  have held := q1.held
  have cond3 : ts.snapshot.version ≤ verOf (·.version) s2.tuf.snapshot ↔
      verOf (·.version) s1.tuf.snapshot = ts.snapshot.version := by
    have one := (pos2.timestamp ts hts2).2
    have hc := step_case E s1.tuf (.timestamp (R.clock c2).1 raw2)
    rw [ho2.1] at hc
    generalize o2 = o at hc ho2
    generalize s2.tuf = t at *
    cases hc with
    | failed _ e => exact absurd rfl (ho2.2 e)
    | timestampExpired => exact absurd rfl (ho2.2 _)
    | same =>
      cases hx : s1.tuf.snapshot with
      | none => simp only [verOf]; omega
      | some x =>
        obtain ⟨ts', g1, g2⟩ := (reach1.consistent hE).snapshot x hx
        rw [hts2] at g1; cases g1
        simp only [verOf]; omega
    | timestamp _ _ new hrule =>
      cases hts2
      dsimp only
      split
      · rename_i he
        constructor
        · exact fun _ => he
        · exact fun h => Nat.le_of_eq h.symm
      · rename_i he
        simp only [verOf] at one ⊢
        constructor
        · intro h; omega
        · intro h; exact absurd h he
  have cond4 : m.version ≤ verOf (·.version) s3.tuf.targets ↔
      verOf (·.version) s1.tuf.targets = m.version := by
    have one : 1 ≤ m.version := ((reach3.positive hE).snapshot sn hsn3).2 _ (Map.mem_of_get? hm3)
    rw [← t2.2]
    rcases r3 with ⟨w, raw, _, h3⟩ | ⟨_, h3, _⟩
    · obtain ⟨new, hrule, hpost⟩ := snapshot_step h3
      rw [hpost.snapshot] at hsn3; cases hsn3
      have hl : listed sn targetsName = m.version := by unfold listed; rw [hm3]; rfl
      by_cases he : verOf (·.version) s2.tuf.targets = listed sn targetsName
      · rw [hpost.targetsKept he, he, hl]; simp
      · rw [hpost.targetsDropped he]
        rw [hl] at he
        simp only [verOf] at one ⊢
        constructor
        · intro h; omega
        · intro h; exact absurd h he
    · rw [h3] at hsn3 ⊢
      cases hx : s2.tuf.targets with
      | none => simp only [verOf]; omega
      | some x =>
        obtain ⟨m', g1, g2⟩ := (reach2.consistent hE).targets sn x hsn3 hx
        rw [hm3] at g1; cases g1
        simp only [verOf]; omega
  obtain ⟨l, k1, k2, _⟩ := ((w1.trans w2).trans w3).trans w4
  refine ⟨l, j, ts, sn, m, k1, by rw [t4.1, t3.1, t2.1]; exact q1.version, by rw [t4.2.1, t3.2, hts2],
    by rw [t4.2.2, hsn3], hm3, ?_⟩
  have a3 : snapshotAsk s2.tuf ts.snapshot.version = snapshotAsk s'.tuf ts.snapshot.version := by
    unfold snapshotAsk fileVersion; rw [t4.1, t3.1]
  have a4 : targetsAsk s3.tuf m.version = targetsAsk s'.tuf m.version := by
    unfold targetsAsk fileVersion; rw [t4.1]
  rw [k2, held.1, held.2, a3, a4, if_congr cond3 rfl rfl, if_congr cond4 rfl rfl]

/-- The toy client: the first update asks for everything, the second only for a newer root and for the
timestamp. -/
example : Reachable Toy.env Toy.client0.tuf ∧ Toy.client0.tuf.root.version ≤ 4294967295 ∧
    (update Toy.env Toy.digest Toy.remoteRepo Toy.config Toy.client0).1 = .ok true ∧
    (asked (update Toy.env Toy.digest Toy.remoteRepo Toy.config
      (update Toy.env Toy.digest Toy.remoteRepo Toy.config Toy.client0).2).2.io.log).map (·.2.1) =
      ["root".toList, "root".toList, "timestamp".toList, "snapshot".toList, "targets".toList,
        "root".toList, "timestamp".toList] :=
  ⟨⟨Toy.boot, [], .inr ⟨[1], by decide +kernel⟩, rfl⟩, by decide +kernel, by decide +kernel,
    by decide +kernel⟩

end RustTuf.Props
