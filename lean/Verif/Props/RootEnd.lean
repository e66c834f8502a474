import Verif.Props.ClientIdempotent
import Verif.Props.ClientUpdate
import Verif.Props.Http
import Verif.Spec.RootEnd
import Verif.Spec.ClientWorld

/-!
# C75: what ends a root update
-/

namespace RustTuf.Props
open Client Spec RustTuf Tuf

variable {W : Type}

/-- A checked read fails with the error of the source or because of the data. -/
theorem readToEnd_error {D : Digest} (evs : List Ev) : ∀ (s : SafeReader) (acc : Bytes) (k : IoKind),
    s.readToEnd D evs acc = .error k → k = .invalidData ∨ ∃ bs, delivered evs = (bs, .error k) := by
  have fin : ∀ (s : SafeReader) (k : IoKind), (s.poll D (.data [])).1 = .err k → k = .invalidData := by
    intro s k h
    simp only [SafeReader.poll] at h
    repeat' split at h
    all_goals cases h
    all_goals rfl
  induction evs with
  | nil =>
    intro s acc k h
    simp only [SafeReader.readToEnd] at h
    split at h
    · rename_i k' s' hp; cases h
      exact .inl (fin s _ (by rw [hp]))
    · cases h
  | cons ev evs ih =>
    intro s acc k h
    cases ev with
    | pending =>
      simp only [SafeReader.readToEnd, SafeReader.poll] at h
      exact ih s acc k h
    | err k' =>
      simp only [SafeReader.readToEnd, SafeReader.poll] at h
      cases h
      exact .inr ⟨[], rfl⟩
    | data b =>
      cases b with
      | nil =>
        simp only [SafeReader.readToEnd] at h
        split at h
        · rename_i s' hp
          simp only [SafeReader.poll] at hp
          repeat' split at hp
          all_goals cases hp
        · rename_i k' s' hp; cases h
          exact .inl (fin s _ (by rw [hp]))
        · cases h
        · rename_i bs s' hne hp
          simp only [SafeReader.poll] at hp
          repeat' split at hp
          all_goals first | cases hp | skip
          all_goals exact absurd rfl hne
      | cons x xs =>
        simp only [SafeReader.readToEnd, SafeReader.poll_cons] at h
        split at h
        · rename_i s' hp; split at hp <;> cases hp
        · rename_i k' s' hp; split at hp <;> cases hp
          cases h; exact .inl rfl
        · cases h
        · rename_i bs s' hne hp
          split at hp <;> cases hp
          rcases ih _ _ _ h with h | ⟨bs, h⟩
          · exact .inl h
          · refine .inr ⟨x :: xs ++ bs, ?_⟩
            simp [delivered, h]

/-- A source that fails within the limit makes a checked read fail in the same way. -/
theorem readToEnd_of_error {D : Digest} {max : Nat} {k : IoKind} {bs : Bytes} {evs : List Ev}
    {s : SafeReader} {h : HashData} (hmax : max ≤ u64Max) (hs : SafeReader.new max h = .ok s)
    (hd : delivered evs = (bs, .error k)) (hl : bs.length ≤ max) :
    s.readToEnd D evs [] = .error k := by
  rw [readToEnd_eq D max hmax h evs s hs, hd]
  simp only [checkedRead, if_neg (Nat.not_lt.2 hl)]

theorem readChecked_notFound {D : Digest} {max : Nat} {h : HashData} {evs : List Ev}
    (e : readChecked D max h evs = .error .notFound) : ∃ bs, delivered evs = (bs, .error .notFound) := by
  unfold readChecked at e
  split at e
  · rename_i e' hn
    cases e
    unfold SafeReader.new at hn
    split at hn
    · cases hn
    · split at hn
      · rename_i hc
        unfold digestContext at hc
        split at hc <;> cases hc
        cases hn
      · cases hn
  · split at e
    · rename_i k hk
      rcases readToEnd_error evs _ _ _ hk with rfl | ⟨bs, hd⟩
      · cases e
      · cases k <;> cases e
        exact ⟨bs, hd⟩
    · cases e

section
variable {E : Env} {D : Digest} {R : World W} {cfg : Config}

theorem fetch_root_missing (src : Source) (v : Nat) (m : Option Nat) (t : Tuf) (w0 : W) :
    Tri (fun s : St W => s.tuf = t ∧ Evolves R w0 s.io.w) (lift (fetchMetadata D R src .root
      (MetadataPath.fromRole .root) (.number v) m none)) (fun _ s => Evolves R w0 s.io.w)
      (fun e s => s.tuf = t ∧
        (e = .notFound → During R w0 s.io.w fun w => Missing (rootAnswer R src m v w))) := by
  refine (Tri.lift (P := fun io => Evolves R w0 io.w) (Q := fun _ io => Evolves R w0 io.w)
    (X := fun e io => e = .notFound →
      During R w0 io.w fun w => Missing (rootAnswer R src m v w)) ?_ t).conseq
    (fun _ h => h) (fun _ _ h => h.2) (fun _ _ h => h)
  unfold fetchMetadata
  refine Tri.bind (Q := fun _ (io : Io W) => Evolves R w0 io.w) (Tri.ofExcept (fun _ _ _ h => h)
    (fun e s h _ => by
      rw [show checkRole .root (MetadataPath.fromRole .root) = .ok () by decide +kernel] at h; cases h))
    fun _ => ?_
  refine Tri.bind (Q := fun _ (io : Io W) => Evolves R w0 io.w) (fun _ h => h) fun _ => ?_
  refine Tri.bind (Q := fun evs (io : Io W) => During R w0 io.w fun w => rootAnswer R src m v w = .ok evs)
    (fun io hio => ?_) fun evs => ?_
  · have key : ∀ r, ((R.provider src).fetchMetadata (MetadataPath.fromRole .root) (.number v) m none
        io.w).1 = r → rootAnswer R src m v io.w = r := by
      intro r h
      cases src <;> exact h
    have act : Evolves R io.w ((R.provider src).fetchMetadata (MetadataPath.fromRole .root) (.number v) m
        none io.w).2 := by
      cases src
      · exact .step _ _ _ (.refl _) (.fetchRemote ..)
      · exact .step _ _ _ (.refl _) (.fetchCache ..)
    unfold Io.call
    cases hr : (R.provider src).fetchMetadata (MetadataPath.fromRole .root) (.number v) m none io.w with
    | mk r w' =>
      have := key r (by rw [hr])
      rw [hr] at act
      cases r with
      | ok evs => exact ⟨_, hio, this, act⟩
      | error e => exact fun he => ⟨_, hio, .inl (by rw [this, he]), act⟩
  refine Tri.bind (Q := fun _ (io : Io W) => Evolves R w0 io.w) (Tri.ofExcept
    (fun _ _ _ ⟨x, h1, _, h2⟩ => h1.trans h2) (fun e s h hd => ?_)) fun raw => ?_
  · rintro rfl
    obtain ⟨bs, hr⟩ := readChecked_notFound h
    exact hd.imp fun x hx => .inr ⟨evs, bs, hx, hr⟩
  · exact Tri.bind (Q := fun _ (io : Io W) => Evolves R w0 io.w) (fun _ h => h) fun _ => Tri.ret fun _ h => h

theorem nextRootVersion_ok {b : Bool} {v n : Nat} (hv : v ≤ 4294967295)
    (h : nextRootVersion b v = .ok n) : n = (v + 1) % 4294967296 := by
  unfold nextRootVersion u32Max at h
  repeat' split at h
  all_goals cases h
  all_goals omega

/-- A successful root loop stops at a version whose successor is missing. -/
theorem rootLoop_end (src : Source) (persist : Bool) (w0 : W) (fuel : Nat) : ∀ upd,
    Tri (fun s : St W => s.tuf.root.version ≤ 4294967295 ∧ Evolves R w0 s.io.w)
      (rootLoop E D R cfg src persist fuel upd)
      (fun _ s => During R w0 s.io.w fun w => Missing (rootAnswer R src cfg.maxRootLength
        ((s.tuf.root.version + 1) % 4294967296) w))
      (fun _ _ => True) := by
  induction fuel with
  | zero => intro upd; exact Tri.fail fun _ _ => trivial
  | succ fuel ih =>
    intro upd
    unfold rootLoop
    refine Tri.bind (Q := fun (t : Tuf) (s : St W) => t.root.version ≤ 4294967295 ∧ s.tuf = t ∧
      Evolves R w0 s.io.w) (fun _ hs => ⟨hs.1, rfl, hs.2⟩) fun t => Tri.assume fun hv => ?_
    refine Tri.bind (Q := fun next s => nextRootVersion cfg.overflowChecks t.root.version = .ok next ∧
      s.tuf = t ∧ Evolves R w0 s.io.w) (Tri.ofExcept (fun _ _ h hs => ⟨h, hs⟩) (fun _ _ _ _ => trivial))
      fun next => ?_
    refine Tri.assume fun hn => ?_
    have hn := nextRootVersion_ok hv hn
    subst hn
    refine Tri.bind (Tri.attempt (fetch_root_missing src _ cfg.maxRootLength t w0)
      (fun _ _ => trivial)) fun r => ?_
    cases r with
    | error e =>
      cases e with
      | notFound => exact Tri.ret fun s hs => by rw [hs.1]; exact hs.2 rfl
      | _ => exact Tri.fail fun _ _ => trivial
    | ok raw =>
      refine Tri.bind (Q := fun _ s => s.tuf.root.version ≤ 4294967295 ∧ Evolves R w0 s.io.w)
        (Tri.updateTuf fun s o t'' hs hst => ?_) fun o => ?_
      · rcases root_step hst with ⟨rfl, new, hr, rfl⟩ | ⟨⟨e, rfl⟩, _⟩
        · have := hr.noOverflow
          have := hr.nextVersion
          refine ⟨?_, hs⟩
          simp only [ofRoot]; omega
        · trivial
      refine Tri.bind (Q := fun _ s => s.tuf.root.version ≤ 4294967295 ∧ Evolves R w0 s.io.w) ?_
        fun _ => ih true
      have one : ∀ v, Tri (fun s : St W => s.tuf.root.version ≤ 4294967295 ∧ Evolves R w0 s.io.w)
          (lift (storeMetadata R .root (MetadataPath.fromRole .root) v raw))
          (fun _ s => s.tuf.root.version ≤ 4294967295 ∧ Evolves R w0 s.io.w) (fun _ _ => True) := by
        intro v s hs
        have he := (acts_store .root (MetadataPath.fromRole .root) v raw).lift w0 s hs.2
        unfold lift at he ⊢
        cases hm : storeMetadata R .root (MetadataPath.fromRole .root) v raw s.io with
        | mk r io' =>
          rw [hm] at he
          cases r with
          | ok _ => exact ⟨hs.1, he⟩
          | error _ => trivial
      exact Tri.when (fun _ => Tri.bind (one _) fun _ => one _) (fun _ s hs => hs)

theorem updateRoot_end (src : Source) (persist : Bool) (w0 : W) :
    Tri (fun s : St W => s.tuf.root.version ≤ 4294967295 ∧ Evolves R w0 s.io.w)
      (updateRootWithRepos E D R cfg src persist)
      (fun _ s => During R w0 s.io.w fun w => Missing (rootAnswer R src cfg.maxRootLength
        ((s.tuf.root.version + 1) % 4294967296) w))
      (fun _ _ => True) := by
  unfold updateRootWithRepos
  refine Tri.bind (rootLoop_end src persist w0 _ _) fun b => ?_
  refine Tri.fix fun s0 h0 => ?_
  refine Tri.bind (Q := fun _ (s : St W) => s.tuf = s0.tuf ∧ Evolves R s0.io.w s.io.w)
    (Tri.getClock (by rintro s rfl; exact ⟨rfl, .step _ _ _ (.refl _) (.clock _)⟩)) fun c => ?_
  refine Tri.bind (Q := fun (_ : Tuf) (s : St W) => s.tuf = s0.tuf ∧ Evolves R s0.io.w s.io.w)
    (fun _ hs => hs) fun t => ?_
  exact Tri.ite (fun _ => Tri.fail fun s hs => trivial)
    (fun _ => Tri.ret fun s hs => by rw [hs.1]; exact h0.later hs.2)

end

/-- **C75.** An update succeeds only if the remote repository said, during this call, that the root
after the one now trusted does not exist. (The version is a `u32`: after the last one comes zero.) -/
theorem C75_next_root_was_missing (E : Env) (hE : Decoders E) (D : Digest) (R : World W) (cfg : Config)
    (s s' : St W) (b : Bool) (hv : s.tuf.root.version ≤ 4294967295) (h : update E D R cfg s = (.ok b, s')) :
    During R s.io.w s'.io.w fun w =>
      Missing (rootAnswer R .remote cfg.maxRootLength ((s'.tuf.root.version + 1) % 4294967296) w) := by
  obtain ⟨b1, b2, b3, b4, s1, s2, s3, e1, e2, e3, e4, rfl⟩ := update_parts h
  have hw := ((updateRoot_end .remote true s.io.w).run_ok ⟨hv, .refl _⟩ e1).later (parts_evolve e2 e3 e4)
  obtain ⟨w2, raw2, r2⟩ := (updateTimestamp_eff (E := E) (D := D) (R := R) (cfg := cfg) .remote true
    s1.tuf).run_ok rfl e2
  have r3 := (updateSnapshot_eff (E := E) (D := D) (R := R) .remote true _ s2.tuf).run_ok rfl e3
  have r4 := (updateTargets_eff (E := E) (D := D) (R := R) .remote true _ s3.tuf).run_ok rfl e4
  have k2 : s2.tuf.root = s1.tuf.root := by
    rcases r2 with ⟨_, r⟩ | ⟨_, r⟩
    · exact (timestamp_step hE r (by simp)).2.1
    · exact (timestamp_step hE r (by simp)).2.1
  have k3 : s3.tuf.root = s2.tuf.root := by
    rcases r3 with ⟨w, raw, _, r⟩ | ⟨_, r, _⟩
    · obtain ⟨new, _, hpost⟩ := snapshot_step r
      exact hpost.root
    · rw [r]
  have k4 : s'.tuf.root = s3.tuf.root := by
    rcases r4 with ⟨w, raw, _, r⟩ | ⟨_, r, _⟩
    · obtain ⟨new, _, hpost⟩ := targets_step r
      rw [hpost]
    · rw [r]
  rw [k4, k3, k2]
  exact hw

/-- **C75.** For an HTTP repository: the server answered the request for the next root with status
404 during this call. -/
theorem C75_http_next_root_404 (E : Env) (hE : Decoders E) (D : Digest) (R : World W) (cfg : Config)
    (s s' : St W) (b : Bool) (hv : s.tuf.root.version ≤ 4294967295)
    (request : W → Uri → Except Err (Nat × List Ev)) (base : Uri) (pre : Option (List Str))
    (hhttp : OverHttp R request base pre) (h : update E D R cfg s = (.ok b, s')) :
    ∃ uri, extendUri base pre (MetadataPath.components "root".toList
        (.number ((s'.tuf.root.version + 1) % 4294967296))) = .ok uri ∧
      During R s.io.w s'.io.w fun w => ∃ body, request w uri = .ok (404, body) := by
  obtain ⟨w, hw1, hw, hw2⟩ := C75_next_root_was_missing E hE D R cfg s s' b hv h
  have ha := hhttp.answer "root".toList (.number ((s'.tuf.root.version + 1) % 4294967296))
    cfg.maxRootLength none w
  rcases hw with hw | ⟨evs, bs, h1, h2⟩
  · have hw' : httpFetch (request w) base pre (MetadataPath.components "root".toList
        (.number ((s'.tuf.root.version + 1) % 4294967296))) = .error .notFound := by
      rw [← ha]; exact hw
    unfold httpFetch at hw'
    split at hw'
    · rename_i e he
      cases hw'
      exfalso
      unfold extendUri at he
      simp only at he
      split at he
      · rename_i e hp
        cases he
        unfold parsePathAndQuery at hp
        simp only at hp
        repeat' split at hp
        all_goals cases hp
      · unfold uriFromParts at he
        repeat' split at he
        all_goals cases he
    · rename_i uri hu
      split at hw'
      · rename_i e he
        cases hw'
        exact absurd he (hhttp.transport w uri)
      · rename_i code body hq
        split at hw'
        · rename_i e he
          cases hw'
          unfold statusResult at he
          repeat' split at he
          all_goals first | cases he | skip
          rename_i hc
          subst hc
          exact ⟨uri, hu, w, hw1, ⟨body, hq⟩, hw2⟩
        · cases hw'
  · have h1' : httpFetch (request w) base pre (MetadataPath.components "root".toList
        (.number ((s'.tuf.root.version + 1) % 4294967296))) = .ok evs := by
      rw [← ha]; exact h1
    obtain ⟨uri, _, hq⟩ := (C61_content_iff (request w) base pre _ evs).1 h1'
    exact absurd (by rw [h2]) (hhttp.body w uri 200 evs hq)

/-- **C75.** If the remote repository answers the request for the next root with an error other than
`NotFound`, the update fails with this error and trusts nothing new. -/
theorem C75_other_errors_stop_the_update (E : Env) (D : Digest) (R : World W) (cfg : Config)
    (s : St W) (e : Err) (hv : s.tuf.root.version < 4294967295)
    (ha : rootAnswer R .remote cfg.maxRootLength (s.tuf.root.version + 1) s.io.w = .error e)
    (hne : e ≠ .notFound) :
    ∃ s', update E D R cfg s = (.error e, s') ∧ s'.tuf = s.tuf := by
  have hf : ∃ io', lift (fetchMetadata D R .remote .root (MetadataPath.fromRole .root)
      (.number (s.tuf.root.version + 1)) cfg.maxRootLength none) s = (.error e, ⟨s.tuf, io'⟩) := by
    cases hq : R.remote.fetchMetadata (MetadataPath.fromRole .root) (.number (s.tuf.root.version + 1))
        cfg.maxRootLength none s.io.w with
    | mk r w' =>
      have hr : r = .error e := by
        have : (R.remote.fetchMetadata (MetadataPath.fromRole .root)
          (.number (s.tuf.root.version + 1)) cfg.maxRootLength none s.io.w).1 = .error e := ha
        rw [hq] at this; exact this
      subst hr
      refine ⟨⟨w', s.io.log ++ [.fetch .remote (MetadataPath.fromRole .root)
        (.number (s.tuf.root.version + 1)) cfg.maxRootLength none]⟩, ?_⟩
      have hc : checkRole .root (MetadataPath.fromRole .root) = .ok () := by decide +kernel
      have : fetchMetadata D R .remote .root (MetadataPath.fromRole .root)
          (.number (s.tuf.root.version + 1)) cfg.maxRootLength none s.io = (.error e, ⟨w',
            s.io.log ++ [.fetch .remote (MetadataPath.fromRole .root)
            (.number (s.tuf.root.version + 1)) cfg.maxRootLength none]⟩) := by
        simp only [fetchMetadata, hc]
        show M.bind _ _ _ = _
        simp only [M.bind, M.ofExcept, Bind.bind, Io.note, Io.call, World.provider, hq]
      simp only [lift, this]
  obtain ⟨io', hf⟩ := hf
  have hn : nextRootVersion cfg.overflowChecks s.tuf.root.version = .ok (s.tuf.root.version + 1) := by
    unfold nextRootVersion u32Max
    rw [if_neg (by omega)]
  refine ⟨⟨s.tuf, io'⟩, ?_, rfl⟩
  have hl : rootLoop E D R cfg .remote true rootFuel false s = (.error e, ⟨s.tuf, io'⟩) := by
    show rootLoop E D R cfg .remote true (u32Max + 1 + 1) false s = _
    unfold rootLoop
    show M.bind _ _ s = _
    simp only [M.bind, Client.getTuf, Bind.bind, M.ofExcept, hn, M.attempt, hf]
    cases e <;> first | rfl | exact absurd rfl hne
  have hu : updateRootWithRepos E D R cfg .remote true s = (.error e, ⟨s.tuf, io'⟩) := by
    show M.bind _ _ s = _
    simp only [M.bind, hl]
  show M.bind _ _ s = _
  simp only [M.bind, hu]

/-- **C75.** If the remote repository says that the next root is missing, in either way, the root
update ends without a change; it succeeds if the trusted root is unexpired. -/
theorem C75_missing_root_ends_the_search (E : Env) (D : Digest) (R : World W) (cfg : Config)
    (s : St W) (hv : s.tuf.root.version < 4294967295) (n : Nat) (hm : cfg.maxRootLength = some n)
    (hn64 : n ≤ 18446744073709551615)
    (ha : rootAnswer R .remote (some n) (s.tuf.root.version + 1) s.io.w = .error .notFound ∨
      ∃ evs bs, rootAnswer R .remote (some n) (s.tuf.root.version + 1) s.io.w = .ok evs ∧
        delivered evs = (bs, .error .notFound) ∧ bs.length ≤ n)
    (hclk : ∀ w, (R.clock w).1 .root < s.tuf.root.expires) :
    ∃ s', updateRootWithRepos E D R cfg .remote true s = (.ok false, s') ∧ s'.tuf = s.tuf := by
  have hc : checkRole .root (MetadataPath.fromRole .root) = .ok () := by decide +kernel
  have hf : ∃ io', lift (fetchMetadata D R .remote .root (MetadataPath.fromRole .root)
      (.number (s.tuf.root.version + 1)) cfg.maxRootLength none) s = (.error .notFound, ⟨s.tuf, io'⟩) := by
    rw [hm]
    cases hq : R.remote.fetchMetadata (MetadataPath.fromRole .root) (.number (s.tuf.root.version + 1))
        (some n) none s.io.w with
    | mk r w' =>
      have hr : rootAnswer R .remote (some n) (s.tuf.root.version + 1) s.io.w = r := by
        have : (R.remote.fetchMetadata (MetadataPath.fromRole .root)
          (.number (s.tuf.root.version + 1)) (some n) none s.io.w).1 = r := by rw [hq]
        exact this
      rw [hr] at ha
      refine ⟨⟨w', s.io.log ++ [.fetch .remote (MetadataPath.fromRole .root)
        (.number (s.tuf.root.version + 1)) (some n) none]⟩, ?_⟩
      have : fetchMetadata D R .remote .root (MetadataPath.fromRole .root)
          (.number (s.tuf.root.version + 1)) (some n) none s.io = (.error .notFound, ⟨w',
            s.io.log ++ [.fetch .remote (MetadataPath.fromRole .root)
            (.number (s.tuf.root.version + 1)) (some n) none]⟩) := by
        simp only [fetchMetadata, hc]
        show M.bind _ _ _ = _
        rcases ha with rfl | ⟨evs, bs, rfl, hd, hl⟩
        · simp only [M.bind, M.ofExcept, Bind.bind, Io.note, Io.call, World.provider, hq]
        · have hrd : readChecked D n none evs = .error .notFound := by
            unfold readChecked
            simp only [SafeReader.new]
            rw [readToEnd_of_error (h := none) hn64 rfl hd hl]
            rfl
          simp only [M.bind, M.ofExcept, Bind.bind, Io.note, Io.call, World.provider, hq,
            Option.getD_some, hrd]
      simp only [lift, this]
  obtain ⟨io', hf⟩ := hf
  have hn : nextRootVersion cfg.overflowChecks s.tuf.root.version = .ok (s.tuf.root.version + 1) := by
    unfold nextRootVersion u32Max
    rw [if_neg (by omega)]
  have hl : rootLoop E D R cfg .remote true rootFuel false s = (.ok false, ⟨s.tuf, io'⟩) := by
    show rootLoop E D R cfg .remote true (u32Max + 1 + 1) false s = _
    unfold rootLoop
    show M.bind _ _ s = _
    simp only [M.bind, Client.getTuf, Bind.bind, M.ofExcept, hn, M.attempt, hf]
    rfl
  refine ⟨⟨s.tuf, ⟨(R.clock io'.w).2, io'.log⟩⟩, ?_, rfl⟩
  show M.bind _ _ s = _
  have hx := hclk io'.w
  simp only [M.bind, hl, Bind.bind, getClock, Client.getTuf]
  rw [if_neg (Int.not_le.2 hx)]
  rfl

/-- The toy repository has no root 3: an update succeeds, and the next root is missing. If the
request for root 2 fails otherwise, so does the update. -/
example :
    Decoders Toy.env ∧ Toy.client0.tuf.root.version ≤ 4294967295 ∧
    (update Toy.env Toy.digest Toy.remoteRepo Toy.config Toy.client0).1 = .ok true ∧
    (update Toy.env Toy.digest Toy.remoteRepo Toy.config Toy.client0).2.tuf.root.version = 2 ∧
    (let R : World Toy.Disk := { Toy.remoteRepo with
       remote := { Toy.remoteRepo.remote with
         fetchMetadata := fun _ _ _ _ w => (.error (.badHttpStatus 500), w) } }
     rootAnswer R .remote Toy.config.maxRootLength (Toy.client0.tuf.root.version + 1) Toy.client0.io.w =
       .error (.badHttpStatus 500) ∧
     (update Toy.env Toy.digest R Toy.config Toy.client0).1 = .error (.badHttpStatus 500)) ∧
    (let R : World Toy.Disk := { Toy.remoteRepo with
       remote := { Toy.remoteRepo.remote with
         fetchMetadata := fun _ _ _ _ w => (.ok [.data [1], .err .notFound], w) } }
     (updateRootWithRepos Toy.env Toy.digest R Toy.config .remote true Toy.client0).1 = .ok false) := by
  refine ⟨Toy.env_decoders, by decide +kernel, by decide +kernel, by decide +kernel,
    ⟨by decide +kernel, by decide +kernel⟩, by decide +kernel⟩

/-- **C61.** What the status of the answer to the request for the next root does to an update: 404 ends
the root update normally and without a change, any other status than 200 makes the update fail with that
status and trust nothing new. -/
theorem C61_status_of_next_root (E : Env) (D : Digest) (R : World W) (cfg : Config) (s : St W)
    (request : W → Uri → Except Err (Nat × List Ev)) (base : Uri) (pre : Option (List Str))
    (hhttp : OverHttp R request base pre) (hv : s.tuf.root.version < 4294967295)
    (uri : Uri) (hu : extendUri base pre (MetadataPath.components "root".toList
      (.number (s.tuf.root.version + 1))) = .ok uri)
    (code : Nat) (body : List Ev) (hr : request s.io.w uri = .ok (code, body)) :
    (code = 404 → ∀ n, cfg.maxRootLength = some n → n ≤ 18446744073709551615 →
      (∀ w, (R.clock w).1 .root < s.tuf.root.expires) →
      ∃ s', updateRootWithRepos E D R cfg .remote true s = (.ok false, s') ∧ s'.tuf = s.tuf) ∧
    (code ≠ 200 → code ≠ 404 →
      ∃ s', update E D R cfg s = (.error (.badHttpStatus code), s') ∧ s'.tuf = s.tuf) := by
  have h := C61_other_statuses (request s.io.w) base pre _ uri code body hu hr
  have ha : ∀ m, rootAnswer R .remote m (s.tuf.root.version + 1) s.io.w =
      httpFetch (request s.io.w) base pre (MetadataPath.components "root".toList
        (.number (s.tuf.root.version + 1))) := fun m => hhttp.answer _ _ m none _
  constructor
  · intro hc n hm hn hclk
    exact C75_missing_root_ends_the_search E D R cfg s hv n hm hn (.inl (by rw [ha, h.1 hc])) hclk
  · intro h1 h2
    exact C75_other_errors_stop_the_update E D R cfg s _ hv (by rw [ha, h.2 h1 h2]) (by simp)

/-- An HTTP repository whose server has nothing. -/
example : OverHttp { Toy.remoteRepo with remote := { Toy.remoteRepo.remote with
      fetchMetadata := fun p v _ _ w => (httpFetch (fun _ => .ok (404, []))
        ⟨some "http".toList, some "h".toList, none⟩ none (MetadataPath.components p v), w) } }
    (fun _ _ => .ok (404, [])) ⟨some "http".toList, some "h".toList, none⟩ none where
  answer := fun _ _ _ _ _ => rfl
  transport := fun _ _ h => by cases h
  body := fun _ _ _ _ h => by cases h; decide

/-- The next root has an address there. -/
example : Toy.client0.tuf.root.version < 4294967295 ∧
    (extendUri ⟨some "http".toList, some "h".toList, none⟩ none (MetadataPath.components "root".toList
      (.number (Toy.client0.tuf.root.version + 1)))).toOption =
      some ⟨some "http".toList, some "h".toList, some ("/2.root.json".toList, none)⟩ := by
  decide +kernel

end RustTuf.Props
