import Verif.Props.Rotating

/-!
# Downloading while the author publishes
-/

namespace RustTuf.Props
open Client Spec RustTuf Tuf

variable {W : Type} {E : Env} {D : Digest} {R : World W} {files : Nat → Files} {moment : W → Nat}
  {stock meant : Nat → TargetPath → Option Bytes} {cfg : Config}

section
variable (hH : Hosts R files moment) (hT : HostsTargets R stock moment)
include hH hT

/-- Calls do not send the moment back. -/
theorem hosts_exec (n : Nat) (c : Call) :
    Keeps (fun s : St W => n ≤ moment s.io.w) (exec E D R cfg c) := by
  have call : ∀ {α : Type} (f : W → Except Err α × W), (∀ w, moment w ≤ moment (f w).2) →
      Keeps (fun io : Io W => n ≤ moment io.w) (Io.call f) := by
    intro α f hf io hio
    unfold Io.call
    have := hf io.w
    cases hh : f io.w with
    | mk r w' => rw [hh] at this; cases r <;> exact Nat.le_trans hio this
  have note : ∀ e : LogEntry, Keeps (fun io : Io W => n ≤ moment io.w) (Io.note e) :=
    fun e io hio => hio
  have top := hosts_prims (E := E) (D := D) hH n
  have prims : Prims E D R (fun s : St W => n ≤ moment s.io.w) (fun _ => True) True DelegOp := by
    refine ⟨?_, top.store, top.clock, ?_⟩
    · intro src _ role p v mx h
      cases src with
      | remote => exact hosts_fetch hH n role p v mx h
      | cache =>
        refine keeps_lift (J := fun io => n ≤ moment io.w) ?_
        unfold fetchMetadata
        exact (Keeps.ofExcept _).bind fun _ => (note _).bind fun _ =>
          (call _ (hT.cache p v mx h)).bind fun evs => (Keeps.ofExcept _).bind fun raw =>
          (note _).bind fun _ => Keeps.ret _
    · exact fun o _ => Tri.updateTuf fun s o' t' hs _ => by cases o' <;> exact hs
  have reader : ∀ p, Keeps (fun s : St W => n ≤ moment s.io.w) (fetchTargetReader E D R cfg p) := by
    intro p
    refine prims.fetchTargetReader (fun p d => ?_) p
    refine keeps_lift (J := fun io => n ≤ moment io.w) ?_
    unfold fetchTargetStream
    refine (Keeps.ofExcept _).bind fun q => ?_
    obtain ⟨a, v⟩ := q
    exact (note _).bind fun _ => (call _ (hT.target p d)).bind fun evs =>
      (Keeps.ofExcept _).bind fun rd => Keeps.ret _
  cases c with
  | update => exact (top.update rfl trivial).bind fun _ => Keeps.ret _
  | fetchTargetDescription p => exact (prims.fetchTargetDescription p).bind fun _ => Keeps.ret _
  | fetchTarget p =>
    refine ((reader p).bind fun stream => keeps_lift (J := fun io => n ≤ moment io.w) ?_).bind
      fun _ => Keeps.ret _
    unfold storeTarget
    exact (note _).bind fun _ => call _ (hT.save _ _)
  | fetchTargetToWriter p =>
    refine ((reader p).bind fun stream => keeps_lift (J := fun io => n ≤ moment io.w) ?_).bind
      fun _ => Keeps.ret _
    have flush : ∀ io : Io W, n ≤ moment io.w → n ≤ moment (copyToWriter R [] io).2.w := by
      intro io hio
      have := hT.flush io.w
      simp only [copyToWriter]
      cases hq : R.flush io.w with
      | mk r w' => rw [hq] at this; cases r <;> exact Nat.le_trans hio this
    have : ∀ io : Io W, n ≤ moment io.w → n ≤ moment (copyToWriter R stream io).2.w := by
      induction stream with
      | nil => exact flush
      | cons ev evs ih =>
        intro io hio
        cases ev with
        | pending => exact ih io hio
        | err k => exact hio
        | data b =>
          simp only [copyToWriter]
          split
          · exact flush io hio
          · have := hT.write b io.w
            cases hq : R.write b io.w with
            | mk r w' =>
              rw [hq] at this
              cases r with
              | error e => exact Nat.le_trans hio this
              | ok _ => exact ih _ (Nat.le_trans hio this)
    intro io hio
    have := this io hio
    cases hc : copyToWriter R stream io with
    | mk r io' => rw [hc] at this; cases r <;> exact this

end

/-- The same top-level metadata. -/
def SameTop (t t' : Tuf) : Prop :=
  t'.root = t.root ∧ t'.timestamp = t.timestamp ∧ t'.snapshot = t.snapshot ∧ t'.targets = t.targets

/-- Calls other than updates leave the trusted top-level metadata alone. -/
theorem target_call_top (c : Call) (hc : c ≠ .update) (t : Tuf) :
    Keeps (fun s : St W => SameTop t s.tuf ∧ Reachable E s.tuf) (exec E D R cfg c) := by
  refine exec_walk _ (fun s hs => hs) (fun m s hs => ?_) (fun w parent role raw => ?_) c hc
  · unfold lift
    cases m s.io with
    | mk r io' => cases r <;> exact hs
  · refine Tri.updateTuf fun s o' t' hs h => ?_
    have hr := Reachable.step' hs.2 h
    have : SameTop s.tuf t' := delegation_keeps E _ _ _ _ _ _ _ h
    cases o' <;> exact ⟨⟨this.1.trans hs.1.1, this.2.1.trans hs.1.2.1, this.2.2.1.trans hs.1.2.2.1,
      this.2.2.2.trans hs.1.2.2.2⟩, hr⟩

section
variable (hH : Hosts R files moment) (hT : HostsTargets R stock moment)
include hH hT

theorem hosts_execAll (calls : List Call) (s : St W) :
    moment s.io.w ≤ moment (execAll E D R cfg s calls).io.w := by
  induction calls generalizing s with
  | nil => exact Nat.le_refl _
  | cons c cs ih => exact Nat.le_trans ((hosts_exec hH hT _ c).run (Nat.le_refl _)) (ih _)

omit hH hT in
theorem target_calls_top (calls : List Call) (hno : .update ∉ calls) (s : St W) (hr : Reachable E s.tuf) :
    SameTop s.tuf (execAll E D R cfg s calls).tuf ∧ Reachable E (execAll E D R cfg s calls).tuf := by
  have : ∀ s' : St W, SameTop s.tuf s'.tuf ∧ Reachable E s'.tuf →
      SameTop s.tuf (execAll E D R cfg s' calls).tuf ∧ Reachable E (execAll E D R cfg s' calls).tuf := by
    induction calls with
    | nil => exact fun _ h => h
    | cons c cs ih =>
      intro s' h
      rw [List.mem_cons, not_or] at hno
      exact ih hno.2 _ ((target_call_top c (Ne.symm hno.1) _).run h)
  exact this s ⟨⟨rfl, rfl, rfl, rfl⟩, hr⟩

omit hH hT in
theorem SameTop.holding {t t' : Tuf} {r : RootMetadata} {x : Release} (h : SameTop t t')
    (hh : Holding t r x) : Holding t' r x :=
  ⟨h.1.trans hh.root, h.2.1.trans hh.timestamp, h.2.2.1.trans hh.snapshot, h.2.2.2.trans hh.targets⟩

omit hH in
/-- A client that has a release finds its targets. -/
theorem stocked_now {current : Nat → Release} {r : RootMetadata} {s : St W} {k : Nat}
    (hS : Stocked D cfg r current stock meant) (hhold : Holding s.tuf r (current k))
    (hk : k ≤ moment s.io.w) (path : TargetPath) (content : Bytes) (hm : meant k path = some content) :
    ∃ name d a, s.tuf.snapshot ≠ none ∧ TopEntry cfg s.tuf path d ∧ Preferred d.hashes a (D a content) ∧
      content.length ≤ d.length ∧ content.length ≤ 18446744073709551615 ∧
      TargetFile s.tuf.root (D a content) path name ∧
      ∃ evs, (R.remote.fetchTarget name d s.io.w).1 = .ok evs ∧ delivered evs = (content, .eof) := by
  obtain ⟨name, ⟨virt, d, a, h1, h2, h3, h4, h5, h6⟩, h7⟩ := hS k path content hm
  exact ⟨name, d, a, by rw [hhold.snapshot]; simp, ⟨virt, _, h1, hhold.targets, h2⟩, h3, h4, h5,
    by rw [hhold.root]; exact h6, hT.present _ _ _ _ (h7 _ (Nat.le_trans hk (hT.target ..)))⟩

/-- **C112.** A listed target is passed to the caller's writer whatever is published meanwhile: the
caller gets the content meant by the release that the client has. -/
theorem C112_written_while_publishing {current : Nat → Release} {r : RootMetadata} {s : St W} {k : Nat}
    (hr : Reachable E s.tuf) (hS : Stocked D cfg r current stock meant) (hwrite : Accepts R)
    (hhold : Holding s.tuf r (current k)) (hk : k ≤ moment s.io.w) (others : List Call)
    (hno : .update ∉ others) (path : TargetPath) (content : Bytes) (hnew : TargetPath.new path = .ok path)
    (hm : meant k path = some content) :
    let s1 := execAll E D R cfg s others
    ∃ s2 l, exec E D R cfg (.fetchTargetToWriter path) s1 = (.ok .done, s2) ∧
      s2.io.log = s1.io.log ++ l ∧ written l = content := by
  intro s1
  have hh := (target_calls_top (D := D) (R := R) (cfg := cfg) others hno s hr).1.holding hhold
  obtain ⟨name, d, a, h1, h2, h3, h4, h5, h6, h7⟩ := stocked_now hT hS hh
    (Nat.le_trans hk (hosts_execAll (E := E) (D := D) (cfg := cfg) hH hT others s)) path content hm
  obtain ⟨s2, l, g1, -, g2, g3⟩ := written_now E D R cfg path name content a d s1 hnew h1 h2 h3 h4 h5 h6 h7 hwrite
  exact ⟨s2, l, g1, g2, g3⟩

/-- **C112.** The same for downloads into a faithful local repository. -/
theorem C112_stored_while_publishing {current : Nat → Release} {r : RootMetadata} {s : St W} {k : Nat}
    (hr : Reachable E s.tuf) (hS : Stocked D cfg r current stock meant)
    (get : W → TargetPath → Option Bytes) (hR : KeepsTargets R get) (hstore : AcceptsTargets R)
    (hhold : Holding s.tuf r (current k)) (hk : k ≤ moment s.io.w) (others : List Call)
    (hno : .update ∉ others) (path : TargetPath) (content : Bytes) (hnew : TargetPath.new path = .ok path)
    (hm : meant k path = some content) :
    let s1 := execAll E D R cfg s others
    ∃ s2, exec E D R cfg (.fetchTarget path) s1 = (.ok .done, s2) ∧ get s2.io.w path = some content := by
  intro s1
  have hh := (target_calls_top (D := D) (R := R) (cfg := cfg) others hno s hr).1.holding hhold
  obtain ⟨name, d, a, h1, h2, h3, h4, h5, h6, h7⟩ := stocked_now hT hS hh
    (Nat.le_trans hk (hosts_execAll (E := E) (D := D) (cfg := cfg) hH hT others s)) path content hm
  obtain ⟨s2, g1, -, g2⟩ := stored_now E D R cfg get hR path name content a d s1 hnew h1 h2 h3 h4 h5 h6 h7 hstore
  exact ⟨s2, g1, g2⟩

/-- **C112.** A client can update and download in any order while the author publishes: after any calls
the next update succeeds, and until the one after it every target is delivered as meant by a release that
was current at some moment of the update. -/
theorem C112_updates_and_downloads_while_publishing (hE : Decoders E) {current : Nat → Release} {s : St W}
    (hr : Reachable E s.tuf) {r : RootMetadata} (hO : Orderly files current)
    (hfix : ∀ j k v, files j "root".toList v = files k "root".toList v)
    (hcons : r.consistentSnapshot = true) (hW : Writable R)
    (hroots : Roots E cfg (files 0) s.tuf.root r)
    (hok : ∀ k, moment s.io.w ≤ k → (current k).Correct E D cfg r ∧ (current k).Lasting R)
    (hx : Before R r.expires)
    (hb : s.tuf.root = r → ∀ k, moment s.io.w ≤ k →
      Behind s.tuf r (current k).timestamp (current k).snapshot (current k).targets)
    (hS : Stocked D cfg r current stock meant) (hwrite : Accepts R) (calls : List Call) :
    let s1 := execAll E D R cfg s calls
    ∃ b s2 k, exec E D R cfg .update s1 = (.ok (.updated b), s2) ∧ moment s1.io.w ≤ k ∧
      k ≤ moment s2.io.w ∧ Holding s2.tuf r (current k) ∧
      ∀ others : List Call, .update ∉ others → ∀ path content, TargetPath.new path = .ok path →
        meant k path = some content →
        let s3 := execAll E D R cfg s2 others
        ∃ s4 l, exec E D R cfg (.fetchTargetToWriter path) s3 = (.ok .done, s4) ∧
          s4.io.log = s3.io.log ++ l ∧ written l = content := by
  have one : ∀ s : St W, Reachable E s.tuf → Roots E cfg (files 0) s.tuf.root r →
      (∀ k, moment s.io.w ≤ k → (current k).Correct E D cfg r ∧ (current k).Lasting R) →
      (s.tuf.root = r → ∀ k, moment s.io.w ≤ k →
        Behind s.tuf r (current k).timestamp (current k).snapshot (current k).targets) →
      ∃ b s2 k, exec E D R cfg .update s = (.ok (.updated b), s2) ∧ moment s.io.w ≤ k ∧
        k ≤ moment s2.io.w ∧ Holding s2.tuf r (current k) ∧ Reachable E s2.tuf := by
    intro s hr hroots hok hb
    obtain ⟨b, s', k, h1, h2, h3, h4⟩ :=
      C92_update_while_publishing hH hE cfg hr hO hfix hcons hW hroots hok hx hb
    refine ⟨b, s', k, ?_, h2, h3, h4, ?_⟩
    · show M.bind _ _ _ = _
      simp only [M.bind, h1]
      rfl
    · have := (update_reachable (E := E) (D := D) (R := R) cfg).run hr
      rw [h1] at this
      exact this
  induction calls generalizing s with
  | nil =>
    obtain ⟨b, s2, k, h1, h2, h3, h4, h5⟩ := one s hr hroots hok hb
    exact ⟨b, s2, k, h1, h2, h3, h4, fun others hno path content hnew hm =>
      C112_written_while_publishing hH hT h5 hS hwrite h4 h3 others hno path content hnew hm⟩
  | cons c cs ih =>
    by_cases hc : c = .update
    · subst hc
      obtain ⟨b, s2, k, h1, h2, h3, h4, h5⟩ := one s hr hroots hok hb
      simp only [execAll, List.foldl_cons, h1]
      exact ih h5 (by rw [h4.root]; exact hroots.self) (fun j hj => hok j (by omega))
        (fun _ j hj => h4.behind hO (by omega))
    · have h1 := (target_call_top (E := E) (D := D) (R := R) (cfg := cfg) c hc s.tuf).run
        (s := s) ⟨⟨rfl, rfl, rfl, rfl⟩, hr⟩
      have h2 := (hosts_exec (E := E) (D := D) (cfg := cfg) hH hT (moment s.io.w) c).run (s := s) (Nat.le_refl _)
      simp only [execAll, List.foldl_cons]
      refine ih h1.2 (by rw [h1.1.1]; exact hroots) (fun j hj => hok j (by omega)) (fun h j hj => ?_)
      have hb := hb (by rw [← h1.1.1]; exact h) j (by omega)
      exact ⟨fun x => by rw [h1.1.1, h1.1.2.1]; exact hb.timestamp x,
        fun x => by rw [h1.1.2.2.1]; exact hb.snapshot x, fun x => by rw [h1.1.2.2.2]; exact hb.targets x⟩

/-- **C112.** The same while roots are replaced, if no update takes longer than the time for which
releases are signed for replaced roots as well. -/
theorem C112_updates_and_downloads_while_rotating (hE : Decoders E) {current : Nat → Release} {s : St W}
    {root : Nat → RootMetadata} {raw : Nat → Bytes} {last : Nat → Nat} {first top : Nat}
    (hr : Reachable E s.tuf) (hO : Orderly files current)
    (hK : Rotating E cfg files root raw last first top)
    (hcons : ∀ j, moment s.io.w ≤ j → (root (last j)).consistentSnapshot = true) (hW : Writable R)
    (hroot : s.tuf.root = root s.tuf.root.version) (hfirst : first ≤ s.tuf.root.version)
    (hlast : s.tuf.root.version ≤ last (moment s.io.w))
    (hx : ∀ j, moment s.io.w ≤ j → Before R (root (last j)).expires)
    (hl : ∀ k, moment s.io.w ≤ k → (current k).Lasting R) (d : Nat)
    (hok : ∀ j k, moment s.io.w ≤ j → j ≤ k → k ≤ j + d → (current k).Correct E D cfg (root (last j)))
    (hb : s.tuf.root.version = last (moment s.io.w) → ∀ k, moment s.io.w ≤ k →
      Behind s.tuf s.tuf.root (current k).timestamp (current k).snapshot (current k).targets)
    (hS : ∀ j, moment s.io.w ≤ j → Stocked D cfg (root (last j)) current stock meant) (hwrite : Accepts R)
    (calls : List Call)
    (hd : ∀ pre post, calls ++ [.update] = pre ++ .update :: post →
      moment (execAll E D R cfg s (pre ++ [.update])).io.w ≤ moment (execAll E D R cfg s pre).io.w + d) :
    let s1 := execAll E D R cfg s calls
    ∃ b s2 j k, exec E D R cfg .update s1 = (.ok (.updated b), s2) ∧ moment s1.io.w ≤ j ∧ j ≤ k ∧
      k ≤ moment s2.io.w ∧ Holding s2.tuf (root (last j)) (current k) ∧
      ∀ others : List Call, .update ∉ others → ∀ path content, TargetPath.new path = .ok path →
        meant k path = some content →
        let s3 := execAll E D R cfg s2 others
        ∃ s4 l, exec E D R cfg (.fetchTargetToWriter path) s3 = (.ok .done, s4) ∧
          s4.io.log = s3.io.log ++ l ∧ written l = content := by
  have hexec : ∀ s : St W, (exec E D R cfg .update s).2 = (update E D R cfg s).2 := by
    intro s
    show (M.bind _ _ _).2 = _
    unfold M.bind
    cases update E D R cfg s with
    | mk x s' => cases x <;> rfl
  have hver : ∀ {s : St W} {j : Nat}, s.tuf.root = root s.tuf.root.version → first ≤ s.tuf.root.version →
      s.tuf.root.version ≤ last (moment s.io.w) → moment s.io.w ≤ j → (root (last j)).version = last j := by
    intro s j hroot hfirst hlast h2
    by_cases hc : last j = s.tuf.root.version
    · rw [hc, ← hroot]
    · have := hK.order _ _ h2
      have hb := hK.bound j
      obtain ⟨v, hv⟩ : ∃ v, last j = v + 1 := ⟨last j - 1, by omega⟩
      rw [hv]
      exact (hK.signed v (by omega) (by omega)).2.2.2
  have one : ∀ s : St W, Reachable E s.tuf →
      (∀ j, moment s.io.w ≤ j → (root (last j)).consistentSnapshot = true) →
      s.tuf.root = root s.tuf.root.version → first ≤ s.tuf.root.version →
      s.tuf.root.version ≤ last (moment s.io.w) →
      (∀ j, moment s.io.w ≤ j → Before R (root (last j)).expires) →
      (∀ k, moment s.io.w ≤ k → (current k).Lasting R) →
      (∀ j k, moment s.io.w ≤ j → j ≤ k → k ≤ j + d → (current k).Correct E D cfg (root (last j))) →
      (s.tuf.root.version = last (moment s.io.w) → ∀ k, moment s.io.w ≤ k →
        Behind s.tuf s.tuf.root (current k).timestamp (current k).snapshot (current k).targets) →
      moment (exec E D R cfg .update s).2.io.w ≤ moment s.io.w + d →
      ∃ b s2 j k, exec E D R cfg .update s = (.ok (.updated b), s2) ∧ moment s.io.w ≤ j ∧ j ≤ k ∧
        k ≤ moment s2.io.w ∧ Holding s2.tuf (root (last j)) (current k) ∧ Reachable E s2.tuf := by
    intro s hr hcons hroot hfirst hlast hx hl hok hb hd
    rw [hexec] at hd
    obtain ⟨b, s', j, k, h1, h2, h3, h4, h5⟩ :=
      C92_update_while_rotating (D := D) hH hE hr hO hK hcons hW hroot hfirst hlast hx hl
        (fun j k h1 h2 h3 => hok j k h1 h2 (by omega)) hb
    refine ⟨b, s', j, k, ?_, h2, h3, h4, h5, ?_⟩
    · show M.bind _ _ _ = _
      simp only [M.bind, h1]
      rfl
    · have := (update_reachable (E := E) (D := D) (R := R) cfg).run hr
      rw [h1] at this
      exact this
  induction calls generalizing s with
  | nil =>
    obtain ⟨b, s2, j, k, h1, h2, h3, h4, h5, h6⟩ :=
      one s hr hcons hroot hfirst hlast hx hl hok hb (hd [] [] rfl)
    exact ⟨b, s2, j, k, h1, h2, h3, h4, h5, fun others hno path content hnew hm =>
      C112_written_while_publishing hH hT h6 (hS j h2) hwrite h5 h4 others hno path content hnew hm⟩
  | cons c cs ih =>
    have hd' : ∀ pre post, cs ++ [.update] = pre ++ .update :: post →
        moment (execAll E D R cfg (exec E D R cfg c s).2 (pre ++ [.update])).io.w ≤
          moment (execAll E D R cfg (exec E D R cfg c s).2 pre).io.w + d :=
      fun pre post h => hd (c :: pre) post (by rw [List.cons_append, h, List.cons_append])
    by_cases hc : c = .update
    · subst hc
      obtain ⟨b, s2, j, k, h1, h2, h3, h4, h5, h6⟩ :=
        one s hr hcons hroot hfirst hlast hx hl hok hb (hd [] (cs ++ [.update]) rfl)
      rw [h1] at hd'
      have hv : s2.tuf.root.version = last j := by rw [h5.root, hver hroot hfirst hlast h2]
      simp only [execAll, List.foldl_cons, h1]
      exact ih h6 (fun j hj => hcons j (by omega)) (by rw [hv, h5.root])
        (by rw [hv]; exact Nat.le_trans hfirst (Nat.le_trans hlast (hK.order _ _ h2)))
        (by rw [hv]; exact hK.order _ _ (by omega)) (fun j hj => hx j (by omega))
        (fun j hj => hl j (by omega)) (fun j k hj => hok j k (by omega))
        (fun _ i hi => by
          have := h5.behind hO (k := i) (by omega)
          rw [h5.root]
          exact this) (fun j hj => hS j (by omega)) hd'
    · have h1 := (target_call_top (E := E) (D := D) (R := R) (cfg := cfg) c hc s.tuf).run
        (s := s) ⟨⟨rfl, rfl, rfl, rfl⟩, hr⟩
      have h2 := (hosts_exec (E := E) (D := D) (cfg := cfg) hH hT (moment s.io.w) c).run (s := s) (Nat.le_refl _)
      have h3 := hK.order _ _ h2
      simp only [execAll, List.foldl_cons]
      refine ih h1.2 (fun j hj => hcons j (by omega)) (by rw [h1.1.1]; exact hroot)
        (by rw [h1.1.1]; exact hfirst) (by rw [h1.1.1]; omega) (fun j hj => hx j (by omega))
        (fun j hj => hl j (by omega)) (fun j k hj => hok j k (by omega)) (fun h i hi => ?_)
        (fun j hj => hS j (by omega)) hd'
      have hb := hb (by rw [h1.1.1] at h; omega) i (by omega)
      rw [h1.1.1]
      exact ⟨fun x => by rw [h1.1.1, h1.1.2.1]; exact hb.timestamp x,
        fun x => by rw [h1.1.2.2.1]; exact hb.snapshot x, fun x => by rw [h1.1.2.2.2]; exact hb.targets x⟩

end

theorem updated_reachable (s : St W) (hr : Reachable E s.tuf) :
    Reachable E (execAll E D R cfg s [.update]).tuf :=
  ((show Keeps _ (exec E D R cfg .update) from (update_reachable cfg).bind fun _ => Keeps.ret _).run hr : _)

/-! ### Examples, and what is needed -/

namespace Busy
open Toy

theorem hosts' (f : Nat → Files) (g : Nat → TargetPath → Option Bytes) (t : Time) :
    Hosts (busyStock f g t) f Toy.Busy.now :=
  have h := hosts f t
  ⟨h.present, h.absent, h.fetch, h.store, h.clock⟩

theorem hostsTargets (f : Nat → Files) (g : Nat → TargetPath → Option Bytes) (t : Time) :
    HostsTargets (busyStock f g t) g Toy.Busy.now where
  present p d w b hb := by
    refine ⟨stream b, ?_, ?_⟩
    · show (match g w.pass.now p with | some b => _ | none => _) = _
      rw [show g w.pass.now p = some b from hb]
    · unfold stream
      split
      · rename_i e; subst e; rfl
      · rename_i e; simp [delivered, e]
  target p d w := Nat.le_add_right _ _
  cache p v m h w := Nat.le_refl _
  save evs p w := by
    show w.now ≤ Toy.Busy.now (Prod.snd (match content evs with | .ok b => _ | .error k => _))
    split <;> exact Nat.le_refl _
  write b w := Nat.le_refl _
  flush w := Nat.le_refl _

theorem lists (c : Bool) (j : Nat) : (lastRelease release1 [release2] j).Lists digest config (rootC c)
    "x".toList (busyName c j) (if j < 5 then [9] else [8]) := by
  have hf : ∀ (a : HashAlg) (b : Bytes) (n : TargetPath), digest a b ≠ [] →
      pieces n = [] ++ [hexText (digest a b) ++ '.' :: "x".toList] →
      TargetFile (rootC true) (digest a b) "x".toList n := by
    intro a b n h1 h2
    unfold TargetFile
    rw [if_pos (show (rootC true).consistentSnapshot = true from rfl)]
    exact ⟨h1, [], "x".toList, by decide +kernel, h2⟩
  have hf' : ∀ (v : HashValue), TargetFile (rootC false) v "x".toList "x".toList := by
    intro v
    unfold TargetFile
    rw [if_neg (by decide)]
  by_cases hj : j < 5
  · rw [if_pos hj]
    refine ⟨"x".toList, target 1, .sha256, by decide +kernel, ?_,
      ⟨by decide +kernel, .inr ⟨rfl, by decide +kernel⟩⟩, by decide, by decide, ?_⟩
    · simp only [lastRelease, hj, if_true]; decide +kernel
    · cases c
      · exact hf' _
      · simp only [busyName, hj, if_true]
        exact hf _ _ _ (by decide) (by decide +kernel)
  · rw [if_neg hj]
    refine ⟨"x".toList, newTarget, .sha256, by decide +kernel, ?_,
      ⟨by decide +kernel, .inr ⟨rfl, by decide +kernel⟩⟩, by decide, by decide, ?_⟩
    · simp only [lastRelease, hj, if_false]; decide +kernel
    · cases c
      · exact hf' _
      · simp only [busyName, hj, if_true, if_false]
        exact hf _ _ _ (by decide) (by decide +kernel)

theorem meant_some {j : Nat} {path : TargetPath} {content : Bytes} (h : busyMeant j path = some content) :
    path = "x".toList ∧ content = if j < 5 then [9] else [8] := by
  unfold busyMeant at h
  split at h
  · rename_i hp
    cases h
    exact ⟨hp, rfl⟩
  · cases h

theorem stocked : Stocked digest config (rootC true) (lastRelease release1 [release2]) busyTargets busyMeant := by
  intro j path content h
  obtain ⟨rfl, rfl⟩ := meant_some h
  refine ⟨_, lists true j, fun k hk => ?_⟩
  by_cases hj : j < 5
  · simp only [busyName, hj, if_true]
    rfl
  · simp only [busyName, hj, if_true, if_false]
    unfold busyTargets
    rw [if_neg (by decide +kernel), if_pos ⟨rfl, by omega⟩]

theorem keepsTargets (f : Nat → Files) (g : Nat → TargetPath → Option Bytes) (t : Time) :
    KeepsTargets (busyStock f g t) (fun w p => w.disk.targets.get? p) where
  ok := by
    intro evs p w w' h
    simp only [busyStock, toy_content] at h
    cases hd : delivered evs with
    | mk bs en =>
      rw [hd] at h
      cases en with
      | error k => cases h
      | eof =>
        cases h
        refine ⟨bs, rfl, by simp [Map.get?_insert], ?_⟩
        intro q hq
        simp [Map.get?_insert, hq]
  error := by
    intro evs p w e w' h
    simp only [busyStock, toy_content] at h
    cases hd : delivered evs with
    | mk bs en =>
      rw [hd] at h
      cases en <;> cases h
      rfl
  metas := fun _ _ _ _ => rfl
  fetch := fun src _ _ _ _ _ => by cases src <;> rfl
  target := fun _ _ _ => rfl
  clock := fun _ => rfl

/-- The hypotheses of C112 can be met, whatever the pauses. -/
example (ps : List Nat) :
    let R := busyStock (filesAfter busyBase [release2]) busyTargets 100
    Decoders busyEnv ∧ Reachable busyEnv (busyClient (rootC true) ps).tuf ∧
    Hosts R (filesAfter busyBase [release2]) Toy.Busy.now ∧ HostsTargets R busyTargets Toy.Busy.now ∧
    Orderly (filesAfter busyBase [release2]) (lastRelease release1 [release2]) ∧
    (∀ j k v, filesAfter busyBase [release2] j "root".toList v = filesAfter busyBase [release2] k "root".toList v) ∧
    (rootC true).consistentSnapshot = true ∧ Writable R ∧
    Roots busyEnv config (filesAfter busyBase [release2] 0) (busyClient (rootC true) ps).tuf.root (rootC true) ∧
    (∀ k, (lastRelease release1 [release2] k).Correct busyEnv digest config (rootC true) ∧
      (lastRelease release1 [release2] k).Lasting R) ∧
    Before R (rootC true).expires ∧
    (∀ k, Behind (busyClient (rootC true) ps).tuf (rootC true) (lastRelease release1 [release2] k).timestamp
      (lastRelease release1 [release2] k).snapshot (lastRelease release1 [release2] k).targets) ∧
    Stocked digest config (rootC true) (lastRelease release1 [release2]) busyTargets busyMeant ∧
    Accepts R ∧ AcceptsTargets R ∧ KeepsTargets R (fun w => w.disk.targets.get?) ∧
    TargetPath.new "x".toList = .ok "x".toList ∧ busyMeant 0 "x".toList = some [9] ∧
    busyMeant 5 "x".toList = some [8] := by
  refine ⟨decoders, reachable _ _, hosts' _ _ _, hostsTargets _ _ _,
    C92_commit_order_is_orderly _ _ _ offers (by simp [later]),
    fun j k v => by rw [filesAfter_root, filesAfter_root], rfl, fun _ _ _ _ => rfl,
    show Roots busyEnv config (filesAfter busyBase [release2] 0) (rootC true) _ by
      simpa [filesAfter] using roots true, fun k => ?_, fun _ _ => (by decide : (100 : Int) < 1000),
    fun k => behind _ _ _, stocked, ⟨fun _ _ => rfl, fun _ => rfl⟩, fun evs bs p w h => ?_, ?_,
    by decide +kernel, rfl, rfl⟩
  · rcases List.mem_cons.1 (lastRelease_mem [release2] release1 k) with h | h
    · rw [h]
      exact ⟨(correct _).1, (lasting (filesAfter busyBase [release2])).1⟩
    · rw [List.mem_singleton.1 h]
      exact ⟨(correct _).2, (lasting (filesAfter busyBase [release2])).2⟩
  · simp only [busyStock, toy_content, h]
  · exact keepsTargets _ _ _

/-- The client updates, and the second release is uploaded completely before the download starts: it still
gets the target of the first release. After the next update it gets that of the second. -/
example :
    let R := busyStock (filesAfter busyBase [release2]) busyTargets 100
    let s1 := execAll busyEnv digest R config (busyClient (rootC true) [0, 0, 0, 0, 5])
      [.update, .fetchTargetToWriter "x".toList]
    let s2 := execAll busyEnv digest R config s1 [.update, .fetchTargetToWriter "x".toList]
    s1.io.w.now = 5 ∧ written s1.io.log = [9] ∧ written s2.io.log = [9, 8] := by
  decide +kernel

/-- The hypotheses of C112 on targets can be met while roots are replaced, in the repository of the
example for C92. -/
example : (∀ j, Stocked digest config (rotatingRoot (rotatingLast j)) rotatingCurrent busyTargets
      (fun k => busyMeant (if 10 ≤ k then 5 else 0))) ∧
    HostsTargets (busyStock rotatingFiles busyTargets 100) busyTargets Toy.Busy.now ∧
    Hosts (busyStock rotatingFiles busyTargets 100) rotatingFiles Toy.Busy.now ∧
    (let calls := [.update, .fetchTargetToWriter "x".toList]
     let s := execAll busyEnv digest (busyStock rotatingFiles busyTargets 100) config
       (busyClient (rootC true) [0, 1, 0, 3, 9]) (calls ++ calls)
     written s.io.log = [9, 8] ∧ s.tuf.root = rootE) := by
  refine ⟨fun j k path content h => ?_, hostsTargets _ _ _, hosts' _ _ _, by decide +kernel⟩
  have hl := stocked _ path content h
  obtain ⟨name, ⟨virt, d, a, h1, h2, h3, h4, h5, h6⟩, h7⟩ := hl
  refine ⟨name, ⟨virt, d, a, h1, ?_, h3, h4, h5, ?_⟩, fun i hi => ?_⟩
  · by_cases hk : 10 ≤ k <;> simp only [rotatingCurrent, hk, if_true, if_false] at h2 ⊢ <;> exact h2
  · unfold rotatingLast
    split <;> exact h6
  · by_cases hk : 10 ≤ k
    · exact h7 i (by rw [if_pos hk]; omega)
    · exact h7 i (by rw [if_neg hk]; omega)

end Busy

open Toy Busy in
/-- **C112.** The targets of earlier releases must stay: if each target is there only as long as its
release is current, with everything else as in C112, a client that has the release before finds nothing. -/
theorem C112_earlier_targets_are_needed :
    ∃ (E : Env) (D : Digest) (R : World Toy.Busy) (moment : Toy.Busy → Nat) (cfg : Config)
      (s : St Toy.Busy) (r : RootMetadata) (base : Files) (x : Release) (xs : List Release)
      (stock meant : Nat → TargetPath → Option Bytes) (k : Nat) (path : TargetPath) (content : Bytes),
      Reachable E s.tuf ∧ Hosts R (filesAfter base xs) moment ∧ HostsTargets R stock moment ∧
      (∀ j path content, meant j path = some content →
        ∃ name, (lastRelease x xs j).Lists D cfg r path name content ∧ stock j name = some content) ∧
      r.consistentSnapshot = true ∧ Accepts R ∧ Holding s.tuf r (lastRelease x xs k) ∧ k ≤ moment s.io.w ∧
      TargetPath.new path = .ok path ∧ meant k path = some content ∧
      (exec E D R cfg (.fetchTargetToWriter path) s).1 = .error .notFound := by
  let R := busyStock (filesAfter busyBase [release2]) passingTargets 100
  let s := execAll busyEnv digest R config (busyClient (rootC true) [0, 0, 0, 0, 5]) [.update]
  refine ⟨busyEnv, digest, R, Toy.Busy.now, config, s, rootC true, busyBase, release1, [release2], passingTargets,
    busyMeant, 0, "x".toList, [9], updated_reachable _ (reachable true _), hosts' _ _ _, hostsTargets _ _ _,
    fun j path content h => ?_, rfl, ⟨fun _ _ => rfl, fun _ => rfl⟩,
    ⟨by decide +kernel, by decide +kernel, by decide +kernel, by decide +kernel⟩,
    Nat.zero_le _, by decide +kernel, rfl, by decide +kernel⟩
  obtain ⟨rfl, rfl⟩ := meant_some h
  exact ⟨_, lists true j, if_pos rfl⟩

open Toy Busy in
/-- **C112.** So are names with digests: if a target is replaced under its name, with everything else as
in C112, the download fails. It does not deliver what the client's release does not list. -/
theorem C112_names_with_digests_are_needed :
    ∃ (E : Env) (D : Digest) (R : World Toy.Busy) (moment : Toy.Busy → Nat) (cfg : Config)
      (s : St Toy.Busy) (r : RootMetadata) (base : Files) (x : Release) (xs : List Release)
      (stock meant : Nat → TargetPath → Option Bytes) (k : Nat) (path : TargetPath) (content : Bytes),
      Reachable E s.tuf ∧ Hosts R (filesAfter base xs) moment ∧ HostsTargets R stock moment ∧
      (∀ j path content, meant j path = some content →
        ∃ name, (lastRelease x xs j).Lists D cfg r path name content ∧ stock j name = some content) ∧
      r.consistentSnapshot = false ∧ Accepts R ∧ Holding s.tuf r (lastRelease x xs k) ∧ k ≤ moment s.io.w ∧
      TargetPath.new path = .ok path ∧ meant k path = some content ∧
      (exec E D R cfg (.fetchTargetToWriter path) s).1 = .error .opaqueErr := by
  let R := busyStock (filesAfter busyBase [release2]) busyMeant 100
  let s := execAll busyEnv digest R config (busyClient (rootC false) [0, 0, 0, 0, 5]) [.update]
  refine ⟨busyEnv, digest, R, Toy.Busy.now, config, s, rootC false, busyBase, release1, [release2], busyMeant,
    busyMeant, 0, "x".toList, [9], updated_reachable _ (reachable false _), hosts' _ _ _, hostsTargets _ _ _,
    fun j path content h => ?_, rfl, ⟨fun _ _ => rfl, fun _ => rfl⟩,
    ⟨by decide +kernel, by decide +kernel, by decide +kernel, by decide +kernel⟩,
    Nat.zero_le _, by decide +kernel, rfl, by decide +kernel⟩
  obtain ⟨rfl, rfl⟩ := meant_some h
  exact ⟨_, lists false j, rfl⟩

end RustTuf.Props
