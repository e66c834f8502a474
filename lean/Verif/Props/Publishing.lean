import Verif.Props.ClientHonest
import Verif.Lemmas.Keeps
import Verif.Spec.PublishingWorld

/-!
# Updating while the author publishes
-/

namespace RustTuf.Props
open Client Spec RustTuf Tuf

variable {W : Type}

theorem tri_and {σ α : Type} {P : σ → Prop} {m : M σ α} {Q Q' : α → σ → Prop} {X X' : Err → σ → Prop}
    (h : Tri P m Q X) (h' : Tri P m Q' X') :
    Tri P m (fun a s => Q a s ∧ Q' a s) (fun e s => X e s ∧ X' e s) := by
  intro s hs
  have h1 := h s hs
  have h2 := h' s hs
  cases hm : m s with
  | mk r s' =>
    rw [hm] at h1 h2
    cases r <;> exact ⟨h1, h2⟩

theorem tri_keep {σ α : Type} {P I : σ → Prop} {m : M σ α} {Q : α → σ → Prop}
    (h : Tri P m Q (fun _ _ => False)) (hk : Keeps I m) :
    Tri (fun s => P s ∧ I s) m (fun a s => Q a s ∧ I s) (fun _ _ => False) :=
  (tri_and (h.pre fun _ h => h.1) ((show Tri I m _ _ from hk).pre fun _ h => h.2)).conseq (fun _ h => h)
    (fun _ _ h => h) (fun _ _ h => h.1)

section hosts
variable {E : Env} {D : Digest} {R : World W} {files : Nat → Files} {moment : W → Nat}

theorem keeps_lift {α : Type} {J : Io W → Prop} {m : M (Io W) α} (h : Keeps J m) :
    Keeps (fun s : St W => J s.io) (lift m) := fun s hs =>
  (Tri.lift h s.tuf).conseq (fun _ h => h) (fun _ _ h => h.2) (fun _ _ h => h.2) s ⟨rfl, hs⟩

/-- After a request, the moment is that of the answer. -/
theorem hosts_answer (n : Nat) {role : Role} {p : MetadataPath} (v : MetadataVersion)
    (m : Option Nat) (h : HashData) (hc : checkRole role p = .ok ()) :
    Tri (fun io : Io W => n ≤ moment (R.remote.fetchMetadata p v m h io.w).2)
      (fetchMetadata D R .remote role p v m h) (fun _ io => n ≤ moment io.w)
      (fun _ io => n ≤ moment io.w) := by
  unfold fetchMetadata
  refine Tri.bind (Q := fun _ io => n ≤ moment (R.remote.fetchMetadata p v m h io.w).2)
    (Tri.ofExcept (fun _ _ _ h => h) (fun _ _ e _ => by rw [hc] at e; cases e)) fun _ => ?_
  refine Tri.bind (Q := fun _ (io : Io W) => n ≤ moment (R.remote.fetchMetadata p v m h io.w).2)
    (fun _ h => h) fun _ => ?_
  refine Tri.bind (Q := fun _ io => n ≤ moment io.w) (fun io hi => ?_) fun evs => ?_
  · cases hq : R.remote.fetchMetadata p v m h io.w with
    | mk r w' =>
      rw [hq] at hi
      cases r <;> simpa only [Io.call, World.provider, hq] using hi
  · exact (Keeps.ofExcept _).bind fun raw => (show Keeps _ _ from fun _ h => h).bind fun _ => Keeps.ret _

variable (hH : Hosts R files moment)
include hH

theorem hosts_fetch (n : Nat) (role : Role) (p : MetadataPath)
    (v : MetadataVersion) (m : Option Nat) (h : HashData) :
    Keeps (fun s : St W => n ≤ moment s.io.w) (lift (fetchMetadata D R .remote role p v m h)) := by
  refine keeps_lift (J := fun io => n ≤ moment io.w) ?_
  cases hc : checkRole role p with
  | ok _ => exact (hosts_answer n v m h hc).pre fun io hi => Nat.le_trans hi (hH.fetch ..)
  | error e =>
    intro io hi
    have : fetchMetadata D R .remote role p v m h io = (.error e, io) := by
      simp only [fetchMetadata, hc]
      rfl
    rw [this]
    exact hi

theorem hosts_prims (n : Nat) :
    Prims E D R (fun s : St W => n ≤ moment s.io.w) (· = .remote) True TopOp where
  fetch src hs role p v mx h := by subst hs; exact hosts_fetch hH n role p v mx h
  store _ role p v raw := by
    refine keeps_lift (J := fun io => n ≤ moment io.w) ?_
    unfold storeMetadata
    refine (Keeps.ofExcept _).bind fun _ => (show Keeps _ _ from fun _ h => h).bind fun _ io hi => ?_
    cases hq : R.storeMetadata p v raw io.w with
    | mk r w' =>
      have := hH.store p v raw io.w
      rw [hq] at this
      cases r <;> simpa only [Io.call, hq] using Nat.le_trans hi this
  clock := fun s hs => Nat.le_trans hs (hH.clock _)
  op o _ := Tri.updateTuf fun s o' t' hs _ => by cases o' <;> exact hs

/-- The timestamp stage ends at or after the moment the timestamp was fetched. -/
theorem timestamp_moment (cfg : Config) (w : W) :
    Tri (fun s : St W => s.io.w = w) (updateTimestampWithRepos E D R cfg .remote true)
      (fun _ s => moment (R.remote.fetchMetadata "timestamp".toList .none cfg.maxTimestampLength none w).2
        ≤ moment s.io.w)
      (fun _ s => moment (R.remote.fetchMetadata "timestamp".toList .none cfg.maxTimestampLength none w).2
        ≤ moment s.io.w) := by
  unfold updateTimestampWithRepos
  refine Tri.bind (Q := fun _ s => moment (R.remote.fetchMetadata "timestamp".toList .none
    cfg.maxTimestampLength none w).2 ≤ moment s.io.w) (Tri.fix fun s0 h0 => ?_) fun raw => ?_
  · exact (Tri.lift (hosts_answer (R := R) (D := D) (moment := moment) _ .none cfg.maxTimestampLength none
      (role := .timestamp) (p := MetadataPath.fromRole .timestamp) (by decide +kernel)) s0.tuf).conseq
      (fun s hs => by subst hs; subst h0; exact ⟨rfl, Nat.le_refl _⟩) (fun _ _ h => h.2)
      (fun _ _ h => h.2)
  · have hp := hosts_prims (E := E) (D := D) hH (moment
      (R.remote.fetchMetadata "timestamp".toList .none cfg.maxTimestampLength none w).2)
    exact Tri.conseq (hp.clock.bind fun c => hp.finish true (fun _ => trivial) _ (by simp [TopOp]) _ _ _)
      (fun _ h => h) (fun _ _ h => h) (fun _ _ h => h)

/-- **C92.** An update succeeds whatever is published meanwhile, as long as the repository is orderly,
and leaves the client with a release that was current at some moment of the call. -/
theorem C92_update_while_publishing (hE : Decoders E) (cfg : Config) {current : Nat → Release} {s : St W}
    (hr : Reachable E s.tuf) {r : RootMetadata} (hO : Orderly files current)
    (hfix : ∀ j k v, files j "root".toList v = files k "root".toList v)
    (hcons : r.consistentSnapshot = true) (hW : Writable R)
    (hroots : Roots E cfg (files 0) s.tuf.root r)
    (hok : ∀ k, moment s.io.w ≤ k → (current k).Correct E D cfg r ∧ (current k).Lasting R)
    (hx : Before R r.expires)
    (hb : s.tuf.root = r → ∀ k, moment s.io.w ≤ k →
      Behind s.tuf r (current k).timestamp (current k).snapshot (current k).targets) :
    ∃ b s' k, update E D R cfg s = (.ok b, s') ∧ moment s.io.w ≤ k ∧ k ≤ moment s'.io.w ∧
      Holding s'.tuf r (current k) := by
  have hkeep := fun n => hosts_prims (E := E) (D := D) hH n
  have hroot : ServesRoots R (files 0) :=
    ⟨fun v m h w b hb => hH.present _ v m h w b (.inl rfl) (by rw [← hb]; exact hfix _ _ _),
     fun v m h w hb => hH.absent _ v m h w (.inl rfl) (by rw [← hb]; exact hfix _ _ _)⟩
  have hcon := hr.consistent hE
  have call : Tri (fun s' : St W => s'.tuf = s.tuf ∧ moment s.io.w ≤ moment s'.io.w) (update E D R cfg)
      (fun _ s' => ∃ k, moment s.io.w ≤ k ∧ k ≤ moment s'.io.w ∧ Holding s'.tuf r (current k))
      (fun _ _ => False) := by
    unfold update
    refine Tri.bind (Q := fun _ s' => (∀ k, moment s.io.w ≤ k → Ready s'.tuf r (current k).timestamp
        (current k).snapshot (current k).targets) ∧ moment s.io.w ≤ moment s'.io.w)
      (tri_keep ((updateRoot_honest (D := D) hroot hW s.tuf hroots hx).post fun _ s' hs => ?_)
        ((hkeep _).updateRoot _ rfl _ fun _ => trivial)) fun b1 => ?_
    · intro k hk
      rcases hs with ⟨h1, h2⟩ | h1
      · rw [h1]
        have hb := hb h2 k hk
        exact ⟨h2, fun x => hb.timestamp x (by rw [h2]), hb.snapshot, hb.targets, hcon⟩
      · rw [h1]
        exact ⟨rfl, by simp [ofRoot], by simp [ofRoot], by simp [ofRoot],
          ⟨by simp [ofRoot], by simp [ofRoot], by simp [ofRoot]⟩⟩
    refine Tri.fix fun s1 h1 => ?_
    obtain ⟨h1, hm⟩ := h1
    obtain ⟨k, hkd⟩ : ∃ k, k = moment
      (R.remote.fetchMetadata "timestamp".toList .none cfg.maxTimestampLength none s1.io.w).2 := ⟨_, rfl⟩
    have hk : moment s.io.w ≤ k := by rw [hkd]; exact Nat.le_trans hm (hH.fetch ..)
    obtain ⟨hc, x2, x3, x4⟩ := hok k hk
    obtain ⟨l1, a1⟩ := hc.timestamp
    obtain ⟨vsn, d2, a2⟩ := hc.snapshot
    obtain ⟨m, g3, v3, d3, a3⟩ := hc.targets
    have hpub : ∀ n, publishedAs r n = .number n := fun n => by simp [publishedAs, hcons]
    refine Tri.bind (Q := fun _ s' => Ready2 s'.tuf r (current k).timestamp
        (current k).snapshot (current k).targets ∧ k ≤ moment s'.io.w) ?_ fun b2 => ?_
    · refine (tri_and (timestamp_stage (I := (· = s1.io.w)) hE hW ?_ l1 a1 vsn g3 v3 x2)
        ((timestamp_moment (E := E) (D := D) hH cfg s1.io.w).pre fun s' h => h.2)).conseq
        (fun s' h => by subst h; exact ⟨h1 k hk, rfl⟩) (fun _ s' h => ⟨h.1, by rw [hkd]; exact h.2⟩)
        (fun _ _ h => h.1)
      intro w' hw'
      subst hw'
      exact hH.present _ _ _ _ _ _ (.inr (.inl rfl)) (by rw [← hkd]; exact hO.timestamp k)
    refine Tri.bind (Q := fun t s' => t.root = r ∧ Ready2 s'.tuf r (current k).timestamp
        (current k).snapshot (current k).targets ∧ k ≤ moment s'.io.w)
      (fun s hs => ⟨hs.1.root, hs⟩) fun t => Tri.assume fun ht => ?_
    refine Tri.bind ((tri_keep (snapshot_stage (I := fun w => k ≤ moment w) hE hW ?_ d2 a2 vsn g3 v3 hx x2 _
      (by rw [ht])) ((hkeep k).updateSnapshot _ rfl _ (fun _ => trivial) _)).pre
        fun _ h => ⟨h, h.2⟩) fun b3 => ?_
    · intro m h w hw
      rw [hpub]
      exact hH.present _ _ _ _ _ _ (.inr (.inr (.inl rfl))) (hO.snapshot _ _ (Nat.le_trans hw (hH.fetch ..)))
    refine Tri.bind (Q := fun t s' => t.root = r ∧ Ready3 s'.tuf r (current k).timestamp
        (current k).snapshot (current k).targets ∧ k ≤ moment s'.io.w)
      (fun s hs => ⟨hs.1.root, hs⟩) fun t => Tri.assume fun ht => ?_
    refine Tri.bind ((tri_keep (targets_stage (I := fun w => k ≤ moment w) hE hW ?_ d3 a3 g3 v3 hx x3 x4 _
      (by rw [ht])) ((hkeep k).updateTargets _ rfl _ (fun _ => trivial) _)).pre
        fun _ h => ⟨h, h.2⟩) fun b4 => ?_
    · intro m h w hw
      rw [hpub]
      exact hH.present _ _ _ _ _ _ (.inr (.inr (.inr rfl))) (hO.targets _ _ (Nat.le_trans hw (hH.fetch ..)))
    exact Tri.ret fun s' hs => ⟨k, hk, hs.2, hs.1.1, hs.1.2, hs.1.3, hs.1.4⟩
  have := call s ⟨rfl, Nat.le_refl _⟩
  cases hu : update E D R cfg s with
  | mk x s' =>
    rw [hu] at this
    cases x with
    | error e => exact this.elim
    | ok b =>
      obtain ⟨k, h1, h2, h3⟩ := this
      exact ⟨b, s', k, rfl, h1, h2, h3⟩

end hosts

/-! ### Uploading release by release -/

theorem filesAfter_cons_ge (base : Files) (y : Release) (ys : List Release) {k : Nat} (h : 5 ≤ k) :
    filesAfter base (y :: ys) k = filesAfter ((uploads y).foldl Upload.apply base) ys (k - 5) := by
  unfold filesAfter
  rw [List.flatMap_cons, List.take_append, List.foldl_append,
    List.take_of_length_le (by simpa [uploads] using h)]
  rfl

theorem filesAfter_cons_lt (base : Files) (y : Release) (ys : List Release) {k : Nat} (h : k < 5) :
    filesAfter base (y :: ys) k = ((uploads y).take k).foldl Upload.apply base := by
  unfold filesAfter
  rw [List.flatMap_cons, List.take_append, show k - (uploads y).length = 0 by simp [uploads]; omega]
  simp

/-- At every moment the files offer the last completed release. -/
theorem filesAfter_offers (xs : List Release) : ∀ (x : Release) (base : Files), Offers base x →
    (x :: xs).Pairwise Later → ∀ k, Offers (filesAfter base xs k) (lastRelease x xs k) := by
  induction xs with
  | nil => intro x base h _ k; simpa [filesAfter, lastRelease] using h
  | cons y ys ih =>
    intro x base h hp k
    have hl : Later x y := List.rel_of_pairwise_cons hp List.mem_cons_self
    unfold lastRelease
    split
    · rename_i hk
      rw [filesAfter_cons_lt _ _ _ hk]
      obtain ⟨h1, h2, h3⟩ := h
      have e1 : x.snapshot.version = y.snapshot.version → y.rawSnapshot = x.rawSnapshot :=
        fun h => (hl.snapshot h).2.symm
      have e2 : x.targets.version = y.targets.version → y.rawTargets = x.rawTargets :=
        fun h => (hl.targets h).2.symm
      have hk' : k = 0 ∨ k = 1 ∨ k = 2 ∨ k = 3 ∨ k = 4 := by omega
      rcases hk' with rfl | rfl | rfl | rfl | rfl <;> constructor <;>
        simp [uploads, Upload.apply, Files.put] <;>
        first
          | assumption
          | (split; exacts [congrArg some (e1 ‹_›), h2])
          | (split; exacts [congrArg some (e2 ‹_›), h3])
    · rename_i hk
      rw [filesAfter_cons_ge _ _ _ (by omega)]
      refine ih y _ ?_ hp.of_cons _
      constructor <;> simp [uploads, Upload.apply, Files.put]

theorem lastRelease_mem (xs : List Release) : ∀ x k, lastRelease x xs k ∈ x :: xs := by
  induction xs with
  | nil => intro x k; exact List.mem_cons_self
  | cons y ys ih =>
    intro x k
    unfold lastRelease
    split
    · exact List.mem_cons_self
    · exact List.mem_cons_of_mem _ (ih y _)

theorem lastRelease_order (xs : List Release) : ∀ x, (x :: xs).Pairwise Later → ∀ j k, j ≤ k →
    lastRelease x xs j = lastRelease x xs k ∨ Later (lastRelease x xs j) (lastRelease x xs k) := by
  induction xs with
  | nil => intro x _ j k _; exact .inl rfl
  | cons y ys ih =>
    intro x hp j k hjk
    simp only [lastRelease]
    split
    · split
      · exact .inl rfl
      · exact .inr (List.rel_of_pairwise_cons hp (lastRelease_mem ys y _))
    · rw [if_neg (by omega)]
      exact ih y hp.of_cons _ _ (by omega)

/-- A file that later uploads can only replace by the same content stays. -/
theorem foldl_apply_kept {p : MetadataPath} {v : MetadataVersion} {b : Bytes} (us : List Upload) :
    ∀ f : Files, f p v = some b → (∀ u ∈ us, u.path = p → u.version = v → u.raw = b) →
      us.foldl Upload.apply f p v = some b := by
  induction us with
  | nil => exact fun _ h _ => h
  | cons u us ih =>
    intro f h hu
    refine ih _ ?_ fun u' h' => hu u' (List.mem_cons_of_mem _ h')
    simp only [Upload.apply, Files.put]
    split
    · rename_i h'
      rw [hu u List.mem_cons_self h'.1.symm h'.2.symm]
    · exact h

theorem filesAfter_kept {p : MetadataPath} {v : MetadataVersion} {b : Bytes} {base : Files}
    {xs : List Release} {j k : Nat} (hjk : j ≤ k) (h : filesAfter base xs j p v = some b)
    (hu : ∀ x ∈ xs, ∀ u ∈ uploads x, u.path = p → u.version = v → u.raw = b) :
    filesAfter base xs k p v = some b := by
  obtain ⟨d, rfl⟩ := Nat.exists_eq_add_of_le hjk
  unfold filesAfter
  rw [List.take_add, List.foldl_append]
  refine foldl_apply_kept _ _ h fun u hm => ?_
  obtain ⟨x, hx, hm⟩ := List.mem_flatMap.1 (List.mem_of_mem_drop (List.mem_of_mem_take hm))
  exact hu x hx u hm

/-- The documents agree wherever the versions do. -/
theorem agree_of_pairwise {xs : List Release} (hp : xs.Pairwise Later) : ∀ x ∈ xs, ∀ y ∈ xs,
    (x.snapshot.version = y.snapshot.version → x.rawSnapshot = y.rawSnapshot) ∧
      (x.targets.version = y.targets.version → x.rawTargets = y.rawTargets) := by
  induction xs with
  | nil => intro x hx; cases hx
  | cons z zs ih =>
    intro x hx y hy
    rcases List.mem_cons.1 hx with rfl | hx' <;> rcases List.mem_cons.1 hy with rfl | hy'
    · exact ⟨fun _ => rfl, fun _ => rfl⟩
    · have := List.rel_of_pairwise_cons hp hy'
      exact ⟨fun h => (this.snapshot h).2, fun h => (this.targets h).2⟩
    · have := List.rel_of_pairwise_cons hp hx'
      exact ⟨fun h => (this.snapshot h.symm).2.symm, fun h => (this.targets h.symm).2.symm⟩
    · exact ih hp.of_cons x hx' y hy'

/-- **C92.** Uploading the documents of each release in the order of `RepoBuilder::commit`, with the
timestamp last, keeps the repository usable at every moment. -/
theorem C92_commit_order_is_orderly (base : Files) (x : Release) (xs : List Release)
    (hb : Offers base x) (hp : (x :: xs).Pairwise Later) :
    Orderly (filesAfter base xs) (lastRelease x xs) where
  timestamp k := (filesAfter_offers xs x base hb hp k).timestamp
  snapshot j k hjk := by
    refine filesAfter_kept hjk (filesAfter_offers xs x base hb hp j).snapshot fun y hy u hu h1 h2 => ?_
    have := agree_of_pairwise hp _ (lastRelease_mem xs x j) y (List.mem_cons_of_mem _ hy)
    simp only [uploads, List.mem_cons, List.not_mem_nil, or_false] at hu
    rcases hu with rfl | rfl | rfl | rfl | rfl <;> simp at h1 h2
    exact (this.1 h2.symm).symm
  targets j k hjk := by
    refine filesAfter_kept hjk (filesAfter_offers xs x base hb hp j).targets fun y hy u hu h1 h2 => ?_
    have := agree_of_pairwise hp _ (lastRelease_mem xs x j) y (List.mem_cons_of_mem _ hy)
    simp only [uploads, List.mem_cons, List.not_mem_nil, or_false] at hu
    rcases hu with rfl | rfl | rfl | rfl | rfl <;> simp at h1 h2
    exact (this.2 h2.symm).symm
  order := lastRelease_order xs x hp

theorem filesAfter_root (base : Files) (xs : List Release) (k : Nat) (v : MetadataVersion) :
    filesAfter base xs k "root".toList v = base "root".toList v := by
  have : ∀ (us : List Upload) (f : Files), (∀ u ∈ us, u.path ≠ "root".toList) →
      us.foldl Upload.apply f "root".toList v = f "root".toList v := by
    intro us
    induction us with
    | nil => exact fun _ _ => rfl
    | cons u us ih =>
      intro f h
      refine (ih _ fun u' hu => h u' (List.mem_cons_of_mem _ hu)).trans ?_
      simp only [Upload.apply, Files.put]
      rw [if_neg fun h' => h u List.mem_cons_self h'.1.symm]
  refine this _ _ fun u hu => ?_
  obtain ⟨x, _, hm⟩ := List.mem_flatMap.1 (List.mem_of_mem_take hu)
  simp only [uploads, List.mem_cons, List.not_mem_nil, or_false] at hm
  rcases hm with rfl | rfl | rfl | rfl | rfl <;> simp

/-! ### Any number of updates -/

section
variable {E : Env} {D : Digest} {R : World W} {files : Nat → Files} {moment : W → Nat}

theorem update_reachable (cfg : Config) : Keeps (fun s : St W => Reachable E s.tuf) (update E D R cfg) := by
  have lifted : ∀ {α : Type} (m : M (Io W) α), Keeps (fun s : St W => Reachable E s.tuf) (lift m) := by
    intro α m s hs
    have := Tri.lift (m := m) (P := fun _ => True) (Q := fun _ _ => True) (X := fun _ _ => True)
      (fun io _ => by cases m io with | mk r s' => cases r <;> trivial) s.tuf s ⟨rfl, trivial⟩
    cases hm : lift m s with
    | mk r s' => rw [hm] at this; cases r <;> (simp only at this ⊢; rw [this.1]; exact hs)
  have prims : Prims E D R (fun s : St W => Reachable E s.tuf) (fun _ => True) True TopOp :=
    ⟨fun _ _ _ _ _ _ _ => lifted _, fun _ _ _ _ _ => lifted _, fun _ hs => hs,
      fun o _ => Tri.updateTuf fun s o' t' hs h => by
        have := Reachable.step' hs h
        cases o' <;> exact this⟩
  exact prims.update trivial trivial

theorem _root_.RustTuf.Spec.Roots.self {cfg : Config} {file : Files} {a r : RootMetadata}
    (h : Roots E cfg file a r) : Roots E cfg file r r := by
  induction h with
  | last r h1 h2 => exact .last r h1 h2
  | next _ _ _ _ _ _ _ _ _ _ ih => exact ih

/-- What a client trusts that has a release stays behind all later ones. -/
theorem _root_.RustTuf.Spec.Holding.behind {current : Nat → Release} {t : Tuf} {r : RootMetadata} {j k : Nat}
    (hO : Orderly files current) (h : Holding t r (current j)) (hjk : j ≤ k) :
    Behind t r (current k).timestamp (current k).snapshot (current k).targets := by
  obtain ⟨_, h2, h3, h4⟩ := h
  rcases hO.order j k hjk with e | e
  · rw [← e]
    exact ⟨fun x _ hx => .inl (by rw [h2] at hx; cases hx; rfl),
      fun x hx _ => by rw [h3] at hx; cases hx; rfl, fun x hx _ => by rw [h4] at hx; cases hx; rfl⟩
  · exact ⟨fun x _ hx => .inr (by rw [h2] at hx; cases hx; exact e.timestamp),
      fun x hx hv => by rw [h3] at hx; cases hx; exact (e.snapshot hv).1,
      fun x hx hv => by rw [h4] at hx; cases hx; exact (e.targets hv).1⟩

/-- **C92.** All updates of a client succeed while the author publishes. -/
theorem C92_all_updates_succeed (hE : Decoders E) (cfg : Config) {current : Nat → Release} {s : St W}
    (hr : Reachable E s.tuf) {r : RootMetadata} (hH : Hosts R files moment) (hO : Orderly files current)
    (hfix : ∀ j k v, files j "root".toList v = files k "root".toList v)
    (hcons : r.consistentSnapshot = true) (hW : Writable R)
    (hroots : Roots E cfg (files 0) s.tuf.root r)
    (hok : ∀ k, moment s.io.w ≤ k → (current k).Correct E D cfg r ∧ (current k).Lasting R)
    (hx : Before R r.expires)
    (hb : s.tuf.root = r → ∀ k, moment s.io.w ≤ k →
      Behind s.tuf r (current k).timestamp (current k).snapshot (current k).targets) (n : Nat) :
    let s1 := execAll E D R cfg s (List.replicate n .update)
    ∃ b s2 k, exec E D R cfg .update s1 = (.ok (.updated b), s2) ∧ moment s1.io.w ≤ k ∧
      k ≤ moment s2.io.w ∧ Holding s2.tuf r (current k) := by
  induction n generalizing s with
  | zero =>
    obtain ⟨b, s', k, h1, h2, h3, h4⟩ :=
      C92_update_while_publishing hH hE cfg hr hO hfix hcons hW hroots hok hx hb
    refine ⟨b, s', k, ?_, h2, h3, h4⟩
    show M.bind _ _ _ = _
    simp only [M.bind, List.replicate, execAll, List.foldl_nil, h1]
    rfl
  | succ n ih =>
    obtain ⟨b, s', k, h1, h2, h3, h4⟩ :=
      C92_update_while_publishing hH hE cfg hr hO hfix hcons hW hroots hok hx hb
    have he : exec E D R cfg .update s = (.ok (.updated b), s') := by
      show M.bind _ _ _ = _
      simp only [M.bind, h1]
      rfl
    have hr' : Reachable E s'.tuf := by
      have := (update_reachable (E := E) (D := D) (R := R) cfg).run hr
      rw [h1] at this
      exact this
    simp only [List.replicate_succ, execAll, List.foldl_cons, he]
    exact ih hr' (by rw [h4.root]; exact hroots.self) (fun j hj => hok j (by omega))
      (fun _ j hj => h4.behind hO (by omega))

/-- **C92.** A client can update at any time while the author uploads one release after another in
the order of `RepoBuilder::commit`: if consistent snapshots are used and the root does not change, every
update succeeds, and the client ends up with a release whose upload was completed before the end of
that update and that was, at its start, not yet superseded. -/
theorem C92_clients_update_while_releases_are_uploaded (hE : Decoders E) (cfg : Config) {s : St W}
    (hr : Reachable E s.tuf) {r : RootMetadata} {base : Files} {x : Release} {xs : List Release}
    (hH : Hosts R (filesAfter base xs) moment) (hbase : Offers base x)
    (hp : (x :: xs).Pairwise Later) (hcons : r.consistentSnapshot = true) (hW : Writable R)
    (hroots : Roots E cfg base s.tuf.root r)
    (hok : ∀ y ∈ x :: xs, y.Correct E D cfg r ∧ y.Lasting R) (hx : Before R r.expires)
    (hb : s.tuf.root = r → ∀ y ∈ x :: xs, Behind s.tuf r y.timestamp y.snapshot y.targets) (n : Nat) :
    let s1 := execAll E D R cfg s (List.replicate n .update)
    ∃ b s2 k, exec E D R cfg .update s1 = (.ok (.updated b), s2) ∧ moment s1.io.w ≤ k ∧
      k ≤ moment s2.io.w ∧ Holding s2.tuf r (lastRelease x xs k) := by
  refine C92_all_updates_succeed hE cfg hr hH (C92_commit_order_is_orderly base x xs hbase hp)
    (fun j k v => by rw [filesAfter_root, filesAfter_root]) hcons hW ?_
    (fun k _ => hok _ (lastRelease_mem xs x k)) hx (fun h k _ => hb h _ (lastRelease_mem xs x k)) n
  simpa [filesAfter] using hroots

end

/-! ### Examples, and what is needed -/

namespace Busy
open Toy

theorem hosts (f : Nat → Files) (t : Time) : Hosts (busy f t) f Toy.Busy.now where
  present p v m h w b _ hb := by
    refine ⟨stream b, ?_, ?_⟩
    · show (match f w.pass.now p v with | some b => _ | none => _) = _
      rw [show f w.pass.now p v = some b from hb]
    · unfold stream
      split
      · rename_i e; subst e; rfl
      · rename_i e; simp [delivered, e]
  absent p v m h w _ hb := by
    show (match f w.pass.now p v with | some b => _ | none => _) = _
    rw [show f w.pass.now p v = none from hb]
  fetch p v m h w := Nat.le_add_right _ _
  store p v raw w := Nat.le_refl _
  clock w := Nat.le_refl _

theorem decoders : Decoders busyEnv :=
  have h := busyWorld.decoders (by decide) (by decide) (by decide) (by decide)
  ⟨h.root, h.timestamp, h.snapshot, h.targets, h.coherent⟩

theorem writable (f : Nat → Files) (t : Time) : Writable (busy f t) := fun _ _ _ _ => rfl

theorem later : Later release1 release2 :=
  ⟨by decide, fun h => absurd h (by decide), fun h => absurd h (by decide)⟩

theorem offers : Offers busyBase release1 :=
  ⟨by decide +kernel, by decide +kernel, by decide +kernel⟩

theorem lasting (f : Nat → Files) : release1.Lasting (busy f 100) ∧ release2.Lasting (busy f 100) :=
  ⟨⟨fun _ _ => (by decide : (100 : Int) < 500), fun _ _ => (by decide : (100 : Int) < 500),
    fun _ _ => (by decide : (100 : Int) < 500)⟩, fun _ _ => (by decide : (100 : Int) < 500),
    fun _ _ => (by decide : (100 : Int) < 500), fun _ _ => (by decide : (100 : Int) < 500)⟩

theorem rootLasting (f : Nat → Files) (c : Bool) : Before (busy f 100) (rootC c).expires :=
  fun _ _ => (by decide : (100 : Int) < 1000)

theorem short (b : UInt8) : NotLonger (some 10) [b] ∧ NotLonger config.maxTimestampLength [b] :=
  ⟨⟨by simp, fun n h => by cases h; simp⟩, ⟨by simp, fun n h => by cases h; simp⟩⟩

theorem correct (c : Bool) : release1.Correct busyEnv digest config (rootC c) ∧
    release2.Correct busyEnv digest config (rootC c) := by
  refine ⟨⟨⟨(short _).2, ?_⟩, ⟨rfl, ⟨(short _).1, .sha256, by decide +kernel,
      .inr ⟨rfl, by decide +kernel⟩⟩, ?_⟩, descr 1, by decide +kernel, rfl, ⟨(short _).1, .sha256,
      by decide +kernel, .inr ⟨rfl, by decide +kernel⟩⟩, ?_⟩,
    ⟨⟨(short _).2, ?_⟩, ⟨rfl, ⟨(short _).1, .sha256, by decide +kernel,
      .inr ⟨rfl, by decide +kernel⟩⟩, ?_⟩, descr 2, by decide +kernel, rfl, ⟨(short _).1, .sha256,
      by decide +kernel, .inr ⟨rfl, by decide +kernel⟩⟩, ?_⟩⟩ <;>
    exact (verifySignatures_ok_iff ..).1 (by cases c <;> decide +kernel)

theorem reachable (c : Bool) (ps : List Nat) : Reachable busyEnv (busyClient (rootC c) ps).tuf := by
  cases c
  · exact ⟨_, [], .inr ⟨[3], show fromTrustedRoot busyEnv [3] = .ok ⟨rootC false, none, none, none, []⟩ by
      decide +kernel⟩, rfl⟩
  · exact ⟨_, [], .inr ⟨[1], show fromTrustedRoot busyEnv [1] = .ok ⟨rootC true, none, none, none, []⟩ by
      decide +kernel⟩, rfl⟩

theorem behind (c : Bool) (ps : List Nat) (y : Release) :
    Behind (busyClient (rootC c) ps).tuf (rootC c) y.timestamp y.snapshot y.targets :=
  ⟨fun _ _ h => (by cases h), fun _ h => (by cases h), fun _ h => (by cases h)⟩

theorem roots (c : Bool) : Roots busyEnv config busyBase (rootC c) (rootC c) :=
  .last _ (by cases c <;> decide +kernel) (by cases c <;> decide +kernel)

/-- The hypotheses of C92 can be met, whatever the pauses. -/
example (ps : List Nat) :
    Decoders busyEnv ∧ Reachable busyEnv (busyClient (rootC true) ps).tuf ∧
    Hosts (busy (filesAfter busyBase [release2]) 100) (filesAfter busyBase [release2]) Toy.Busy.now ∧
    Offers busyBase release1 ∧ [release1, release2].Pairwise Later ∧
    (rootC true).consistentSnapshot = true ∧
    Writable (busy (filesAfter busyBase [release2]) 100) ∧
    Roots busyEnv config busyBase (busyClient (rootC true) ps).tuf.root (rootC true) ∧
    (∀ y ∈ [release1, release2], y.Correct busyEnv digest config (rootC true) ∧
      y.Lasting (busy (filesAfter busyBase [release2]) 100)) ∧
    Before (busy (filesAfter busyBase [release2]) 100) (rootC true).expires ∧
    (∀ y ∈ [release1, release2],
      Behind (busyClient (rootC true) ps).tuf (rootC true) y.timestamp y.snapshot y.targets) :=
  ⟨decoders, reachable _ _, hosts _ _, offers, by simp [later], rfl, writable _ _, roots _,
    fun y hy => by
      rcases List.mem_cons.1 hy with rfl | hy
      · exact ⟨(correct _).1, (lasting _).1⟩
      · cases List.mem_singleton.1 hy
        exact ⟨(correct _).2, (lasting _).2⟩,
    rootLasting _ _, fun y _ => behind _ _ y⟩

/-- The client gets the first release although the uploads of the second one are completed between its
requests for timestamp and snapshot, and the second one with the next update. -/
example :
    let R := busy (filesAfter busyBase [release2]) 100
    let s1 := execAll busyEnv digest R config (busyClient (rootC true) [0, 1, 4]) [.update]
    let s2 := execAll busyEnv digest R config s1 [.update]
    s1.io.w.now = 5 ∧ s1.tuf.timestamp = some release1.timestamp ∧
      s1.tuf.targets = some release1.targets ∧ s2.tuf.targets = some release2.targets := by
  decide +kernel

end Busy

open Toy Busy in
/-- **C92.** Consistent snapshots are needed: without them, with everything else as in C92, an update
can fail because the snapshot is replaced after the timestamp was fetched. -/
theorem C92_consistent_snapshots_are_needed :
    ∃ (E : Env) (D : Digest) (R : World Toy.Busy) (moment : Toy.Busy → Nat) (cfg : Config)
      (s : St Toy.Busy) (r : RootMetadata) (base : Files) (x : Release) (xs : List Release),
      Decoders E ∧ Reachable E s.tuf ∧ Hosts R (filesAfter base xs) moment ∧ Offers base x ∧
      base "snapshot".toList .none = some x.rawSnapshot ∧ base "targets".toList .none = some x.rawTargets ∧
      (x :: xs).Pairwise Later ∧ r.consistentSnapshot = false ∧ Writable R ∧
      Roots E cfg base s.tuf.root r ∧ (∀ y ∈ x :: xs, y.Correct E D cfg r ∧ y.Lasting R) ∧
      Before R r.expires ∧ (∀ y ∈ x :: xs, Behind s.tuf r y.timestamp y.snapshot y.targets) ∧
      (update E D R cfg s).1 = .error .verification := by
  refine ⟨busyEnv, digest, busy (filesAfter busyBase [release2]) 100, Toy.Busy.now, config,
    busyClient (rootC false) [0, 0, 5], rootC false, busyBase, release1, [release2],
    decoders, reachable _ _, hosts _ _, offers, by decide +kernel, by decide +kernel,
    by simp [later], rfl, writable _ _, roots _, fun y hy => ?_, rootLasting _ _,
    fun y _ => behind _ _ y, by decide +kernel⟩
  rcases List.mem_cons.1 hy with rfl | hy
  · exact ⟨(correct _).1, (lasting _).1⟩
  · cases List.mem_singleton.1 hy
    exact ⟨(correct _).2, (lasting _).2⟩

open Toy Busy in
/-- **C92.** The order of the uploads matters: with the uploads of a release in another order, and
everything else as in C92, an update can fail because the new timestamp announces a snapshot that is
not there yet. -/
theorem C92_upload_order_matters :
    ∃ (E : Env) (D : Digest) (R : World Toy.Busy) (moment : Toy.Busy → Nat) (cfg : Config)
      (s : St Toy.Busy) (r : RootMetadata) (base : Files) (x y : Release) (us : List Upload),
      Decoders E ∧ Reachable E s.tuf ∧ us.Perm (uploads y) ∧
      Hosts R (fun k => (us.take k).foldl Upload.apply base) moment ∧ Offers base x ∧
      Later x y ∧ r.consistentSnapshot = true ∧ Writable R ∧ Roots E cfg base s.tuf.root r ∧
      (∀ z ∈ [x, y], z.Correct E D cfg r ∧ z.Lasting R) ∧
      Before R r.expires ∧ (∀ z ∈ [x, y], Behind s.tuf r z.timestamp z.snapshot z.targets) ∧
      (update E D R cfg s).1 = .error .notFound := by
  refine ⟨busyEnv, digest, busy (fun k => ((uploads release2).reverse.take k).foldl Upload.apply busyBase) 100,
    Toy.Busy.now, config, busyClient (rootC true) [0, 1], rootC true, busyBase, release1, release2,
    (uploads release2).reverse, decoders, reachable _ _, List.reverse_perm _, hosts _ _, offers, later, rfl,
    writable _ _, roots _, fun y hy => ?_, rootLasting _ _, fun y _ => behind _ _ y, by decide +kernel⟩
  rcases List.mem_cons.1 hy with rfl | hy
  · exact ⟨(correct _).1, (lasting _).1⟩
  · cases List.mem_singleton.1 hy
    exact ⟨(correct _).2, (lasting _).2⟩

open Toy Busy in
/-- **C92.** The root must not change during the call: if a new root with another timestamp key and a
release under it are uploaded after the client looked for new roots, the update fails. Nothing is lost:
the next one succeeds. -/
theorem C92_root_change_during_update_fails :
    ∃ (E : Env) (D : Digest) (R : World Toy.Busy) (moment : Toy.Busy → Nat) (cfg : Config)
      (s : St Toy.Busy) (r r' : RootMetadata) (base : Files) (x y : Release) (us : List Upload),
      Decoders E ∧ Reachable E s.tuf ∧
      Hosts R (fun k => (us.take k).foldl Upload.apply base) moment ∧ Offers base x ∧ Later x y ∧
      r.consistentSnapshot = true ∧ r'.consistentSnapshot = true ∧ Writable R ∧
      Roots E cfg base s.tuf.root r ∧ Roots E cfg (us.foldl Upload.apply base) s.tuf.root r' ∧
      (x.Correct E D cfg r ∧ x.Lasting R) ∧ (y.Correct E D cfg r' ∧ y.Lasting R) ∧
      Offers (us.foldl Upload.apply base) y ∧ Before R r.expires ∧ Before R r'.expires ∧
      (update E D R cfg s).1 = .error .verification ∧
      (update E D R cfg (update E D R cfg s).2).1 = .ok true := by
  let y := { release2 with rawTimestamp := [12] }
  refine ⟨busyEnv, digest, busy (fun k => (rootUploads.take k).foldl Upload.apply busyBase) 100,
    Toy.Busy.now, config, busyClient (rootC true) [0, 4], rootC true, rootE, busyBase, release1, y,
    rootUploads, decoders, reachable _ _, hosts _ _, offers,
    ⟨by decide, fun h => absurd h (by decide), fun h => absurd h (by decide)⟩, rfl, rfl,
    writable _ _, roots _, ?_, ⟨(correct _).1, (lasting _).1⟩, ⟨?_, (lasting _).2⟩,
    ⟨by decide +kernel, by decide +kernel, by decide +kernel⟩, rootLasting _ _,
    fun _ _ => (by decide : (100 : Int) < 1000), by decide +kernel, by decide +kernel⟩
  · refine .next _ rootE _ [2] (by decide +kernel)
      ⟨by decide, fun n h => by cases h; decide⟩ ((verifySignatures_ok_iff ..).1 (by decide +kernel))
      ((verifySignatures_ok_iff ..).1 (by decide +kernel)) rfl ?_
    exact .last _ (by decide +kernel) (by decide +kernel)
  · exact ⟨⟨(short _).2, (verifySignatures_ok_iff ..).1 (by decide +kernel)⟩,
      ⟨rfl, ⟨(short _).1, .sha256, by decide +kernel, .inr ⟨rfl, by decide +kernel⟩⟩,
        (verifySignatures_ok_iff ..).1 (by decide +kernel)⟩, descr 2, by decide +kernel, rfl,
      ⟨(short _).1, .sha256, by decide +kernel, .inr ⟨rfl, by decide +kernel⟩⟩,
      (verifySignatures_ok_iff ..).1 (by decide +kernel)⟩

end RustTuf.Props
