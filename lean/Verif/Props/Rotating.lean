import Verif.Props.Publishing

/-!
# Updating while the author replaces roots
-/

namespace RustTuf.Props
open Client Spec RustTuf Tuf

variable {W : Type} {E : Env} {D : Digest} {R : World W} {files : Nat → Files} {moment : W → Nat}
  {cfg : Config} {root : Nat → RootMetadata} {raw : Nat → Bytes} {last : Nat → Nat} {first top : Nat}

/-- Where the root stage ends: with the root that was the last one at some moment of the stage. -/
def Arrived (moment : W → Nat) (root : Nat → RootMetadata) (last : Nat → Nat) (n : Nat) (t : Tuf)
    (s : St W) : Prop :=
  ∃ j, n ≤ j ∧ j ≤ moment s.io.w ∧
    (s.tuf = t ∧ t.root = root (last j) ∧ t.root.version = last j ∨ s.tuf = ofRoot (root (last j)))

theorem fetch_root_moment (n : Nat) (v : MetadataVersion) (m : Option Nat) (w : W)
    (hn : n = moment (R.remote.fetchMetadata "root".toList v m none w).2) :
    Tri (fun s : St W => s.io.w = w)
      (lift (fetchMetadata D R .remote .root (MetadataPath.fromRole .root) v m none))
      (fun _ s => n ≤ moment s.io.w) (fun _ s => n ≤ moment s.io.w) := by
  refine Tri.fix fun s0 h0 => ?_
  refine (Tri.lift (hosts_answer (R := R) (D := D) (moment := moment) n v m none (role := .root)
    (p := MetadataPath.fromRole .root) (by decide +kernel)) s0.tuf).conseq
      (fun s hs => ?_) (fun _ _ h => h.2) (fun _ _ h => h.2)
  subst hs; subst h0; exact ⟨rfl, Nat.le_of_eq hn⟩

section
variable (hH : Hosts R files moment) (hK : Rotating E cfg files root raw last first top)
include hH hK

/-- The client follows the roots that are there when it asks for them. -/
theorem rootLoop_rotating (hW : Writable R) (n : Nat) :
    ∀ (fuel : Nat) (upd : Bool) (t : Tuf), t.root = root t.root.version → first ≤ t.root.version →
      top - t.root.version < fuel →
      Tri (fun s : St W => s.tuf = t ∧ n ≤ moment s.io.w ∧ t.root.version ≤ last (moment s.io.w))
        (rootLoop E D R cfg .remote true fuel upd)
        (fun _ s => Arrived moment root last n t s) (fun _ _ => False) := by
  intro fuel
  induction fuel with
  | zero => intro _ _ _ _ h; omega
  | succ fuel ih =>
    intro upd t ht hfirst hfuel
    refine Tri.fix fun s0 h0 => ?_
    obtain ⟨h0t, h0n, h0v⟩ := h0
    obtain ⟨k, hk⟩ : ∃ k, k = moment (R.remote.fetchMetadata "root".toList
      (.number (t.root.version + 1)) cfg.maxRootLength none s0.io.w).2 := ⟨_, rfl⟩
    have h0k : moment s0.io.w ≤ k := by rw [hk]; exact hH.fetch ..
    have hvk : t.root.version ≤ last k := Nat.le_trans h0v (hK.order _ _ h0k)
    have htop : t.root.version ≤ top := Nat.le_trans hvk (hK.bound k)
    have hsmall := hK.small
    unfold rootLoop
    refine Tri.bind (Q := fun t' s => t' = t ∧ s = s0)
      (fun s hs => by subst hs; exact ⟨h0t, rfl⟩) fun t' => Tri.assume fun ht' => ?_
    subst ht'
    refine Tri.bind (Q := fun nx s => nx = t'.root.version + 1 ∧ s = s0)
      (Tri.ofExcept (fun nx s h hs => ⟨?_, hs⟩) (fun e s h _ => ?_)) fun nx => Tri.assume fun hnx => ?_
    · unfold nextRootVersion u32Max at h; split at h
      · omega
      · cases h; rfl
    · unfold nextRootVersion u32Max at h; split at h
      · omega
      · cases h
    subst hnx
    have hmom := fetch_root_moment (D := D) (R := R) (moment := moment) k _ cfg.maxRootLength s0.io.w hk
    by_cases hlt : t'.root.version < last k
    · -- the next root is there
      have hlt' : t'.root.version < top := Nat.lt_of_lt_of_le hlt (hK.bound k)
      obtain ⟨hw, ha1, ha2, hv⟩ := hK.signed _ hfirst hlt'
      rw [← ht] at ha1
      have hfile := hK.present k (t'.root.version + 1) (by omega) (by omega)
      refine Tri.bind (Tri.attempt ((tri_and (fetch_delivers (D := D) (role := .root)
        (p := MetadataPath.fromRole .root) (I := (· = s0.io.w)) (fun w hw' => ?_) (by decide +kernel)
        (fun _ _ h => by cases h) (readable_of_notLonger hw) t') (hmom.pre fun _ h => h.2)).pre
          fun s hs => ⟨by rw [hs]; exact h0t, by rw [hs]⟩) (fun _ h => nomatch h.1)) fun x => ?_
      · subst hw'
        exact hH.present _ _ _ _ _ _ (.inl rfl) (by rw [hk] at hfile; exact hfile)
      cases x with
      | error e => exact fun s hs => hs.1.elim
      | ok raw' =>
        refine Tri.fix fun s1 h1 => ?_
        obtain ⟨⟨hraw, h1t⟩, h1k⟩ := h1
        subst hraw
        have hup : updateRoot E t' (raw (t'.root.version + 1)) =
            (.ok (), ofRoot (root (t'.root.version + 1))) :=
          (updateRoot_ok_iff ..).2 ⟨_, ⟨ha1, ha2, hv, by omega⟩, rfl⟩
        have hp := hosts_prims (E := E) (D := D) hH k
        refine Tri.bind (Q := fun _ s => s.tuf = ofRoot (root (t'.root.version + 1)) ∧
          k ≤ moment s.io.w) (Tri.updateTuf fun s o t'' hs hst => ?_) fun o => ?_
        · subst hs
          rw [h1t] at hst
          simp only [Tuf.step, hup] at hst
          cases hst
          exact ⟨rfl, h1k⟩
        refine Tri.bind (Q := fun _ s => s.tuf = ofRoot (root (t'.root.version + 1)) ∧
          k ≤ moment s.io.w) (Tri.when (fun _ =>
          Tri.bind (tri_keep (store_writable hW _ _ (by decide +kernel) _) (hp.store trivial _ _ _ _)) fun _ =>
            tri_keep (store_writable hW _ _ (by decide +kernel) _) (hp.store trivial _ _ _ _))
          (fun h => by cases h)) fun _ => ?_
        have hver : (ofRoot (root (t'.root.version + 1))).root.version = t'.root.version + 1 := hv
        refine (ih true (ofRoot (root (t'.root.version + 1))) (by rw [hver]; rfl) (by omega)
          (by omega)).conseq (fun s hs => ⟨hs.1, by omega, ?_⟩) (fun _ s hs => ?_) (fun _ _ h => h)
        · rw [hver]
          exact Nat.le_trans hlt (hK.order _ _ hs.2)
        · obtain ⟨j, h1, h2, h3⟩ := hs
          refine ⟨j, h1, h2, .inr ?_⟩
          rcases h3 with ⟨h3, h4, _⟩ | h3
          · rw [h3, ← h4]; rfl
          · exact h3
    · -- the client has the last root
      have he : t'.root.version = last k := by omega
      have hnone : files k "root".toList (.number (t'.root.version + 1)) = none := by
        rw [he]; exact hK.absent k
      have habs : Tri (fun s : St W => s = s0)
          (lift (fetchMetadata D R .remote .root (MetadataPath.fromRole .root)
            (.number (t'.root.version + 1)) cfg.maxRootLength none))
          (fun _ _ => False) (fun e s => e = .notFound ∧ s.tuf = t') := by
        intro s hs
        subst hs
        have he := hH.absent "root".toList (.number (t'.root.version + 1)) cfg.maxRootLength none s.io.w
          (.inl rfl) (by rw [← hk]; exact hnone)
        cases hq : R.remote.fetchMetadata "root".toList (.number (t'.root.version + 1)) cfg.maxRootLength
            none s.io.w with
        | mk x w' =>
          rw [hq] at he
          cases he
          have hc : checkRole .root "root".toList = .ok () := by decide +kernel
          have : fetchMetadata D R .remote .root "root".toList (.number (t'.root.version + 1))
              cfg.maxRootLength none s.io = (.error .notFound, ⟨w', s.io.log ++
                [.fetch .remote "root".toList (.number (t'.root.version + 1)) cfg.maxRootLength none]⟩) := by
            simp only [fetchMetadata, hc]
            show M.bind _ _ _ = _
            simp only [M.bind, M.ofExcept, Bind.bind, Io.note, Io.call, World.provider, hq]
          have hl : lift (fetchMetadata D R .remote .root (MetadataPath.fromRole .root)
              (.number (t'.root.version + 1)) cfg.maxRootLength none) s = (.error .notFound, ⟨s.tuf, ⟨w',
                s.io.log ++ [.fetch .remote "root".toList (.number (t'.root.version + 1))
                  cfg.maxRootLength none]⟩⟩) := by
            show lift (fetchMetadata D R .remote .root "root".toList (.number (t'.root.version + 1))
              cfg.maxRootLength none) s = _
            unfold lift
            rw [this]
          rw [hl]
          exact ⟨rfl, h0t⟩
      refine Tri.bind (Tri.attempt (tri_and habs (hmom.pre fun s hs => by rw [hs]))
        (fun _ h => nomatch h.1.1)) fun x => ?_
      cases x with
      | ok raw' => exact fun s hs => hs.1.elim
      | error e =>
        refine Tri.fix fun s1 h1 => ?_
        obtain ⟨⟨he1, h1t⟩, h1k⟩ := h1
        subst he1
        refine Tri.ret fun s hs => ?_
        subst hs
        exact ⟨k, by omega, h1k, .inl ⟨h1t, by rw [ht, he], he⟩⟩

theorem updateRoot_rotating (hW : Writable R) (n : Nat) (hx : ∀ j, n ≤ j → Before R (root (last j)).expires)
    (t : Tuf) (ht : t.root = root t.root.version) (hfirst : first ≤ t.root.version) :
    Tri (fun s : St W => s.tuf = t ∧ n ≤ moment s.io.w ∧ t.root.version ≤ last (moment s.io.w))
      (updateRootWithRepos E D R cfg .remote true)
      (fun _ s => Arrived moment root last n t s) (fun _ _ => False) := by
  unfold updateRootWithRepos
  refine Tri.bind (rootLoop_rotating hH hK hW n rootFuel false t ht hfirst
    (by have := hK.small; simp only [rootFuel, u32Max]; omega)) fun b => ?_
  refine Tri.fix fun s0 h0 => ?_
  obtain ⟨j, hj, hj', h0⟩ := h0
  have hp := hosts_prims (E := E) (D := D) hH j
  refine Tri.bind ((tri_keep (clock_read s0.tuf) hp.clock).pre (fun s hs => by rw [hs]; exact ⟨rfl, hj'⟩))
    fun c => Tri.pre (P := fun s => (∃ w, c = (R.clock w).1) ∧ s.tuf = s0.tuf ∧ j ≤ moment s.io.w) ?_
      (fun s hs => ⟨hs.1.1, hs.1.2, hs.2⟩)
  refine Tri.assume ?_
  rintro ⟨w, rfl⟩
  refine Tri.bind (Q := fun t' s => t' = s0.tuf ∧ s.tuf = s0.tuf ∧ j ≤ moment s.io.w)
    (fun s hs => ⟨hs.1, hs⟩) fun t' => Tri.assume fun ht' => ?_
  subst ht'
  refine Tri.ite (fun hc => ?_) (fun _ => Tri.ret fun s hs => ⟨j, hj, hs.2, by rw [hs.1]; exact h0⟩)
  have hroot : s0.tuf.root = root (last j) := by
    rcases h0 with ⟨h1, h2, _⟩ | h1
    · rw [h1, h2]
    · rw [h1]; rfl
  rw [hroot] at hc
  have := hx j hj w .root
  omega

end

/-- What `update` does after the root stage. -/
def afterRoot (E : Env) (D : Digest) (R : World W) (cfg : Config) (r : Bool) : M (St W) Bool := do
  let ts ← updateTimestampWithRepos E D R cfg .remote true
  let t ← getTuf
  let sn ← updateSnapshotWithRepos E D R .remote true t.root.consistentSnapshot
  let t ← getTuf
  let ta ← updateTargetsWithRepos E D R .remote true t.root.consistentSnapshot
  return r || ts || sn || ta

theorem update_eq (E : Env) (D : Digest) (R : World W) (cfg : Config) :
    update E D R cfg = M.bind (updateRootWithRepos E D R cfg .remote true) (afterRoot E D R cfg) := rfl

section
variable (hH : Hosts R files moment)
include hH

theorem afterRoot_moment (r : Bool) (w : W) (k : Nat)
    (hk : k = moment (R.remote.fetchMetadata "timestamp".toList .none cfg.maxTimestampLength none w).2) :
    Tri (fun s : St W => s.io.w = w) (afterRoot E D R cfg r) (fun _ s => k ≤ moment s.io.w)
      (fun _ s => k ≤ moment s.io.w) := by
  have hp := hosts_prims (E := E) (D := D) hH k
  refine Tri.bind (Q := fun _ (s : St W) => k ≤ moment s.io.w) (by rw [hk]; exact timestamp_moment hH cfg w) fun _ => ?_
  refine Tri.bind (Q := fun _ (s : St W) => k ≤ moment s.io.w) (fun s hs => hs) fun t => ?_
  refine Tri.bind (hp.updateSnapshot _ rfl _ (fun _ => trivial) _) fun _ => ?_
  refine Tri.bind (Q := fun _ (s : St W) => k ≤ moment s.io.w) (fun s hs => hs) fun t => ?_
  exact Tri.bind (hp.updateTargets _ rfl _ (fun _ => trivial) _) fun _ => Tri.ret fun _ h => h

/-- The stages after the root, when the release at the moment of the timestamp is right. -/
theorem afterRoot_honest (hE : Decoders E) {current : Nat → Release} {r : RootMetadata}
    (hO : Orderly files current) (hcons : r.consistentSnapshot = true) (hW : Writable R) (b1 : Bool)
    (s1 : St W) (k : Nat) (hkd : k = moment
      (R.remote.fetchMetadata "timestamp".toList .none cfg.maxTimestampLength none s1.io.w).2)
    (hc : (current k).Correct E D cfg r) (hl : (current k).Lasting R) (hx : Before R r.expires)
    (h1 : Ready s1.tuf r (current k).timestamp (current k).snapshot (current k).targets) :
    Tri (· = s1) (afterRoot E D R cfg b1)
      (fun _ s' => k ≤ moment s'.io.w ∧ Holding s'.tuf r (current k)) (fun _ _ => False) := by
  have hkeep := hosts_prims (E := E) (D := D) hH k
  obtain ⟨x2, x3, x4⟩ := hl
  obtain ⟨l1, a1⟩ := hc.timestamp
  obtain ⟨vsn, d2, a2⟩ := hc.snapshot
  obtain ⟨m, g3, v3, d3, a3⟩ := hc.targets
  have hpub : ∀ n, publishedAs r n = .number n := fun n => by simp [publishedAs, hcons]
  refine Tri.bind (Q := fun _ s' => Ready2 s'.tuf r (current k).timestamp
      (current k).snapshot (current k).targets ∧ k ≤ moment s'.io.w) ?_ fun b2 => ?_
  · refine (tri_and (timestamp_stage (I := (· = s1.io.w)) hE hW ?_ l1 a1 vsn g3 v3 x2)
      ((timestamp_moment (E := E) (D := D) hH cfg s1.io.w).pre fun s' h => h.2)).conseq
      (fun s' h => by subst h; exact ⟨h1, rfl⟩) (fun _ s' h => ⟨h.1, by rw [hkd]; exact h.2⟩)
      (fun _ _ h => h.1)
    intro w' hw'
    subst hw'
    exact hH.present _ _ _ _ _ _ (.inr (.inl rfl)) (by rw [← hkd]; exact hO.timestamp k)
  refine Tri.bind (Q := fun t s' => t.root = r ∧ Ready2 s'.tuf r (current k).timestamp
      (current k).snapshot (current k).targets ∧ k ≤ moment s'.io.w)
    (fun s hs => ⟨hs.1.root, hs⟩) fun t => Tri.assume fun ht => ?_
  refine Tri.bind ((tri_keep (snapshot_stage (I := fun w => k ≤ moment w) hE hW ?_ d2 a2 vsn g3 v3 hx x2 _
    (by rw [ht])) (hkeep.updateSnapshot _ rfl _ (fun _ => trivial) _)).pre
      fun _ h => ⟨h, h.2⟩) fun b3 => ?_
  · intro m h w hw
    rw [hpub]
    exact hH.present _ _ _ _ _ _ (.inr (.inr (.inl rfl))) (hO.snapshot _ _ (Nat.le_trans hw (hH.fetch ..)))
  refine Tri.bind (Q := fun t s' => t.root = r ∧ Ready3 s'.tuf r (current k).timestamp
      (current k).snapshot (current k).targets ∧ k ≤ moment s'.io.w)
    (fun s hs => ⟨hs.1.root, hs⟩) fun t => Tri.assume fun ht => ?_
  refine Tri.bind ((tri_keep (targets_stage (I := fun w => k ≤ moment w) hE hW ?_ d3 a3 g3 v3 hx x3 x4 _
    (by rw [ht])) (hkeep.updateTargets _ rfl _ (fun _ => trivial) _)).pre
      fun _ h => ⟨h, h.2⟩) fun b4 => ?_
  · intro m h w hw
    rw [hpub]
    exact hH.present _ _ _ _ _ _ (.inr (.inr (.inr rfl))) (hO.targets _ _ (Nat.le_trans hw (hH.fetch ..)))
  exact Tri.ret fun s' hs => ⟨hs.2, hs.1.1, hs.1.2, hs.1.3, hs.1.4⟩

/-- **C92.** An update succeeds even if roots are replaced meanwhile, as long as the releases published
during the call are signed for every root that was the last one shortly before. -/
theorem C92_update_while_rotating (hE : Decoders E) {current : Nat → Release} {s : St W}
    (hr : Reachable E s.tuf) (hO : Orderly files current)
    (hK : Rotating E cfg files root raw last first top)
    (hcons : ∀ j, moment s.io.w ≤ j → (root (last j)).consistentSnapshot = true) (hW : Writable R)
    (hroot : s.tuf.root = root s.tuf.root.version) (hfirst : first ≤ s.tuf.root.version)
    (hlast : s.tuf.root.version ≤ last (moment s.io.w))
    (hx : ∀ j, moment s.io.w ≤ j → Before R (root (last j)).expires)
    (hl : ∀ k, moment s.io.w ≤ k → (current k).Lasting R)
    (hok : ∀ j k, moment s.io.w ≤ j → j ≤ k → k ≤ moment (update E D R cfg s).2.io.w →
      (current k).Correct E D cfg (root (last j)))
    (hb : s.tuf.root.version = last (moment s.io.w) → ∀ k, moment s.io.w ≤ k →
      Behind s.tuf s.tuf.root (current k).timestamp (current k).snapshot (current k).targets) :
    ∃ b s' j k, update E D R cfg s = (.ok b, s') ∧ moment s.io.w ≤ j ∧ j ≤ k ∧ k ≤ moment s'.io.w ∧
      Holding s'.tuf (root (last j)) (current k) := by
  have hcon := hr.consistent hE
  have h1 := updateRoot_rotating (D := D) hH hK hW (moment s.io.w) hx s.tuf hroot hfirst s
    ⟨rfl, Nat.le_refl _, hlast⟩
  rw [update_eq] at hok ⊢
  unfold M.bind at hok ⊢
  cases hu : updateRootWithRepos E D R cfg .remote true s with
  | mk x s1 =>
    rw [hu] at h1
    cases x with
    | error e => exact h1.elim
    | ok b1 =>
      obtain ⟨j, hj, hj1, h1⟩ := h1
      simp only [hu] at hok ⊢
      obtain ⟨k, hkd⟩ : ∃ k, k = moment
        (R.remote.fetchMetadata "timestamp".toList .none cfg.maxTimestampLength none s1.io.w).2 := ⟨_, rfl⟩
      have hjk : j ≤ k := by rw [hkd]; exact Nat.le_trans hj1 (hH.fetch ..)
      have hend : k ≤ moment (afterRoot E D R cfg b1 s1).2.io.w := by
        have := afterRoot_moment (E := E) (D := D) hH b1 s1.io.w k hkd s1 rfl
        cases ha : afterRoot E D R cfg b1 s1 with
        | mk x s2 => rw [ha] at this; cases x <;> exact this
      have hready : Ready s1.tuf (root (last j)) (current k).timestamp (current k).snapshot
          (current k).targets := by
        rcases h1 with ⟨h1, h2, h3⟩ | h1
        · rw [h1]
          have hb := hb (Nat.le_antisymm hlast (by rw [h3]; exact hK.order _ _ hj)) k (by omega)
          exact ⟨h2, fun x => hb.timestamp x rfl, hb.snapshot, hb.targets, hcon⟩
        · rw [h1]
          exact ⟨rfl, by simp [ofRoot], by simp [ofRoot], by simp [ofRoot],
            ⟨by simp [ofRoot], by simp [ofRoot], by simp [ofRoot]⟩⟩
      have h2 := afterRoot_honest hH hE hO (hcons j hj) hW b1 s1 k hkd (hok j k hj hjk hend)
        (hl k (by omega)) (hx j hj) hready s1 rfl
      cases ha : afterRoot E D R cfg b1 s1 with
      | mk x s2 =>
        rw [ha] at h2
        cases x with
        | error e => exact h2.elim
        | ok b => exact ⟨b, s2, j, k, rfl, hj, hjk, h2⟩

/-- **C92.** All updates of a client succeed while roots are replaced, if no call takes longer than the
time for which releases are signed for replaced roots as well. -/
theorem C92_all_updates_succeed_while_rotating (hE : Decoders E) {current : Nat → Release} {s : St W}
    (hr : Reachable E s.tuf) (hO : Orderly files current)
    (hK : Rotating E cfg files root raw last first top)
    (hcons : ∀ j, moment s.io.w ≤ j → (root (last j)).consistentSnapshot = true) (hW : Writable R)
    (hroot : s.tuf.root = root s.tuf.root.version) (hfirst : first ≤ s.tuf.root.version)
    (hlast : s.tuf.root.version ≤ last (moment s.io.w))
    (hx : ∀ j, moment s.io.w ≤ j → Before R (root (last j)).expires)
    (hl : ∀ k, moment s.io.w ≤ k → (current k).Lasting R) (d : Nat)
    (hok : ∀ j k, moment s.io.w ≤ j → j ≤ k → k ≤ j + d → (current k).Correct E D cfg (root (last j)))
    (hb : s.tuf.root.version = last (moment s.io.w) → ∀ k, moment s.io.w ≤ k →
      Behind s.tuf s.tuf.root (current k).timestamp (current k).snapshot (current k).targets) (n : Nat)
    (hd : ∀ m, m ≤ n → moment (execAll E D R cfg s (List.replicate (m + 1) .update)).io.w ≤
      moment (execAll E D R cfg s (List.replicate m .update)).io.w + d) :
    let s1 := execAll E D R cfg s (List.replicate n .update)
    ∃ b s2 j k, exec E D R cfg .update s1 = (.ok (.updated b), s2) ∧ moment s1.io.w ≤ j ∧ j ≤ k ∧
      k ≤ moment s2.io.w ∧ Holding s2.tuf (root (last j)) (current k) := by
  have hexec : ∀ s : St W, (exec E D R cfg .update s).2 = (update E D R cfg s).2 := by
    intro s
    show (M.bind _ _ _).2 = _
    unfold M.bind
    cases update E D R cfg s with
    | mk x s' => cases x <;> rfl
  have first := C92_update_while_rotating (D := D) hH hE hr hO hK hcons hW hroot hfirst hlast hx hl
    (fun j k h1 h2 h3 => hok j k h1 h2 (by
      have h0 := hd 0 (Nat.zero_le _)
      simp only [Nat.zero_add, List.replicate, execAll, List.foldl_cons, List.foldl_nil, hexec] at h0
      omega)) hb
  induction n generalizing s with
  | zero =>
    obtain ⟨b, s', j, k, h1, h2⟩ := first
    refine ⟨b, s', j, k, ?_, h2⟩
    show M.bind _ _ _ = _
    simp only [M.bind, List.replicate, execAll, List.foldl_nil, h1]
    rfl
  | succ n ih =>
    obtain ⟨b, s', j, k, h1, h2, h3, h4, h5⟩ := first
    have he : exec E D R cfg .update s = (.ok (.updated b), s') := by
      show M.bind _ _ _ = _
      simp only [M.bind, h1]
      rfl
    have hr' : Reachable E s'.tuf := by
      have := (update_reachable (E := E) (D := D) (R := R) cfg).run hr
      rw [h1] at this
      exact this
    have hver : (root (last j)).version = last j := by
      by_cases hc : last j = s.tuf.root.version
      · rw [hc, ← hroot]
      · have := hK.order _ _ h2
        have hb := hK.bound j
        obtain ⟨v, hv⟩ : ∃ v, last j = v + 1 := ⟨last j - 1, by omega⟩
        rw [hv]
        exact (hK.signed v (by omega) (by omega)).2.2.2
    have hver' : s'.tuf.root.version = last j := by rw [h5.root, hver]
    have hd' : ∀ m, m ≤ n → moment (execAll E D R cfg s' (List.replicate (m + 1) .update)).io.w ≤
        moment (execAll E D R cfg s' (List.replicate m .update)).io.w + d := by
      intro m hm
      have := hd (m + 1) (by omega)
      rw [List.replicate_succ, List.replicate_succ (n := m)] at this
      simp only [execAll, List.foldl_cons, he] at this
      exact this
    have hlast' : s'.tuf.root.version ≤ last (moment s'.io.w) := by
      rw [hver']; exact hK.order _ _ (by omega)
    have hfirst' : first ≤ s'.tuf.root.version := by
      rw [hver']; exact Nat.le_trans hfirst (Nat.le_trans hlast (hK.order _ _ h2))
    have hroot' : s'.tuf.root = root s'.tuf.root.version := by rw [hver', h5.root]
    have hbeh : ∀ k', moment s'.io.w ≤ k' → Behind s'.tuf s'.tuf.root (current k').timestamp
        (current k').snapshot (current k').targets := fun k' hk' => by
      have := h5.behind hO (k := k') (by omega)
      rw [h5.root]
      exact this
    simp only [List.replicate_succ, execAll, List.foldl_cons, he]
    refine ih hr' (fun j hj => hcons j (by omega)) hroot' hfirst' hlast' (fun j hj => hx j (by omega))
      (fun j hj => hl j (by omega)) (fun j k hj => hok j k (by omega)) (fun _ => hbeh) hd' ?_
    refine C92_update_while_rotating (D := D) hH hE hr' hO hK (fun j hj => hcons j (by omega)) hW hroot'
      hfirst' hlast' (fun j hj => hx j (by omega)) (fun j hj => hl j (by omega))
      (fun j k h1 h2 h3 => hok j k (by omega) h2 ?_) (fun _ => hbeh)
    have h0 := hd' 0 (Nat.zero_le _)
    simp only [Nat.zero_add, List.replicate, execAll, List.foldl_cons, List.foldl_nil, hexec] at h0
    omega

end

namespace Busy
open Toy

theorem orderly : Orderly rotatingFiles rotatingCurrent where
  timestamp k := by
    unfold rotatingFiles rotatingCurrent
    by_cases h1 : 1 ≤ k <;> by_cases h2 : 10 ≤ k <;> simp only [h1, h2, if_true, if_false] <;> decide +kernel
  snapshot j k h := by
    unfold rotatingFiles rotatingCurrent
    by_cases h1 : 1 ≤ k <;> by_cases h2 : 10 ≤ k <;> by_cases h3 : 10 ≤ j <;>
      first
      | omega
      | (simp only [h1, h2, h3, if_true, if_false]; decide +kernel)
  targets j k h := by
    unfold rotatingFiles rotatingCurrent
    by_cases h1 : 1 ≤ k <;> by_cases h2 : 10 ≤ k <;> by_cases h3 : 10 ≤ j <;>
      first
      | omega
      | (simp only [h1, h2, h3, if_true, if_false]; decide +kernel)
  order j k h := by
    unfold rotatingCurrent
    by_cases h2 : 10 ≤ k <;> by_cases h3 : 10 ≤ j
    · left; simp [h2, h3]
    · right
      simp only [h2, h3, if_true, if_false]
      exact ⟨by decide, fun h => absurd h (by decide), fun h => absurd h (by decide)⟩
    · omega
    · left; simp [h2, h3]

theorem rotating : Rotating busyEnv config rotatingFiles rotatingRoot (fun v => [v.toUInt8]) rotatingLast 1 2 where
  order j k h := by unfold rotatingLast; split <;> split <;> omega
  bound k := by unfold rotatingLast; split <;> omega
  small := by decide
  present k v h h' := by
    have hv : v = 2 := by unfold rotatingLast at h'; split at h' <;> omega
    subst hv
    have h1 : 1 ≤ k := by
      by_cases h1 : 1 ≤ k
      · exact h1
      · simp [rotatingLast, h1] at h'
    unfold rotatingFiles
    by_cases h2 : 10 ≤ k <;> simp only [h1, h2, if_true, if_false] <;> decide +kernel
  absent k := by
    unfold rotatingFiles rotatingLast
    by_cases h1 : 1 ≤ k <;> by_cases h2 : 10 ≤ k <;>
      first
      | omega
      | (simp only [h1, h2, if_true, if_false]; decide +kernel)
  signed v h h' := by
    have hv : v = 1 := by omega
    subst hv
    exact ⟨⟨by decide, fun n h => by cases h; decide⟩, (verifySignatures_ok_iff ..).1 (by decide +kernel),
      (verifySignatures_ok_iff ..).1 (by decide +kernel), rfl⟩

theorem correctBoth : releaseBoth.Correct busyEnv digest config (rootC true) ∧
    releaseBoth.Correct busyEnv digest config rootE ∧ releaseNew.Correct busyEnv digest config rootE := by
  refine ⟨⟨⟨(short _).2, ?_⟩, ⟨rfl, ⟨(short _).1, .sha256, by decide +kernel,
      .inr ⟨rfl, by decide +kernel⟩⟩, ?_⟩, descr 1, by decide +kernel, rfl, ⟨(short _).1, .sha256,
      by decide +kernel, .inr ⟨rfl, by decide +kernel⟩⟩, ?_⟩,
    ⟨⟨(short _).2, ?_⟩, ⟨rfl, ⟨(short _).1, .sha256, by decide +kernel,
      .inr ⟨rfl, by decide +kernel⟩⟩, ?_⟩, descr 1, by decide +kernel, rfl, ⟨(short _).1, .sha256,
      by decide +kernel, .inr ⟨rfl, by decide +kernel⟩⟩, ?_⟩,
    ⟨⟨(short _).2, ?_⟩, ⟨rfl, ⟨(short _).1, .sha256, by decide +kernel,
      .inr ⟨rfl, by decide +kernel⟩⟩, ?_⟩, descr 2, by decide +kernel, rfl, ⟨(short _).1, .sha256,
      by decide +kernel, .inr ⟨rfl, by decide +kernel⟩⟩, ?_⟩⟩ <;>
    exact (verifySignatures_ok_iff ..).1 (by decide +kernel)

/-- The hypotheses of C92 can be met: the root is replaced while the client asks for the timestamp, and
a release for the new root only is uploaded before the second update. -/
example :
    let s := busyClient (rootC true) [0, 1, 0, 3, 9]
    let R := busy rotatingFiles 100
    Decoders busyEnv ∧ Reachable busyEnv s.tuf ∧ Orderly rotatingFiles rotatingCurrent ∧
    Rotating busyEnv config rotatingFiles rotatingRoot (fun v => [v.toUInt8]) rotatingLast 1 2 ∧
    (∀ j, (rotatingRoot (rotatingLast j)).consistentSnapshot = true) ∧ Writable R ∧
    s.tuf.root = rotatingRoot s.tuf.root.version ∧ 1 ≤ s.tuf.root.version ∧
    s.tuf.root.version ≤ rotatingLast s.io.w.now ∧
    (∀ j, Before R (rotatingRoot (rotatingLast j)).expires) ∧
    (∀ k, (rotatingCurrent k).Lasting R) ∧
    (∀ j k, j ≤ k → k ≤ j + 9 →
      (rotatingCurrent k).Correct busyEnv digest config (rotatingRoot (rotatingLast j))) ∧
    (∀ k, Behind s.tuf s.tuf.root (rotatingCurrent k).timestamp (rotatingCurrent k).snapshot
      (rotatingCurrent k).targets) ∧
    (∀ m, m ≤ 1 → (execAll busyEnv digest R config s (List.replicate (m + 1) .update)).io.w.now ≤
      (execAll busyEnv digest R config s (List.replicate m .update)).io.w.now + 9) := by
  refine ⟨decoders, reachable _ _, orderly, rotating, fun j => ?_, writable _ _, rfl, Nat.le_refl _,
    by decide, fun j _ _ => ?_, fun k => ?_, fun j k h h' => ?_,
    fun k => behind _ _ _, fun m hm => ?_⟩
  · unfold rotatingLast; split <;> rfl
  · unfold rotatingLast; split <;> exact (by decide : (100 : Int) < 1000)
  · unfold rotatingCurrent; split
    · exact (lasting _).2
    · exact (lasting _).1
  · unfold rotatingCurrent rotatingLast
    by_cases h1 : 1 ≤ j <;> by_cases h2 : 10 ≤ k <;>
      first
      | omega
      | (simp only [h1, h2, if_true, if_false]; exact correctBoth.1)
      | (simp only [h1, h2, if_true, if_false]; exact correctBoth.2.1)
      | (simp only [h1, h2, if_true, if_false]; exact correctBoth.2.2)
  · have : m = 0 ∨ m = 1 := by omega
    rcases this with rfl | rfl <;> decide +kernel

/-- After the first update the client has the old root and the first release, after the second one
the new root and the new release. -/
example :
    let R := busy rotatingFiles 100
    let s1 := execAll busyEnv digest R config (busyClient (rootC true) [0, 1, 0, 3, 9]) [.update]
    let s2 := execAll busyEnv digest R config s1 [.update]
    s1.tuf.root = rootC true ∧ s1.tuf.targets = some release1.targets ∧
      s2.tuf.root = rootE ∧ s2.tuf.targets = some release2.targets := by
  decide +kernel

end Busy

end RustTuf.Props
