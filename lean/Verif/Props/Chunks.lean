import Verif.Spec.Chunks
import Verif.Lemmas.Readers
import Verif.Props.Ephemeral
import Verif.Props.ClientTargets
import Verif.Props.ClientRestart
import Verif.Props.ClientHonest

/-! C113: how the network cuts data into chunks does not matter to clients. -/

namespace RustTuf
open Spec Client Props

/-! ## The checked reader -/

/-- How a checked read of these bytes ends. -/
def verdict (D : Digest) (max : Nat) (expect : Option (HashAlg × HashValue)) (bs : Bytes) :
    Ending → Ending := fun e =>
  if bs.length ≤ u64Max ∧ bs.length ≤ max then
    match e with
    | .error k => .error k
    | .eof =>
      match expect with
      | none => .eof
      | some (a, v) => if D a bs = v then .eof else .error .invalidData
  else .error .invalidData

theorem polls_verdict (D : Digest) (max : Nat) (expect : Option (HashAlg × HashValue)) (evs : List Ev) :
    ∀ (s : SafeReader) (acc : Bytes), s.At max expect acc →
      acc.length ≤ u64Max → acc.length ≤ max →
      (delivered (s.polls D (evs ++ [.data []]))).2 =
        verdict D max expect (acc ++ (delivered evs).1) (delivered evs).2 ∧
      ((delivered (s.polls D (evs ++ [.data []]))).2 = .eof →
        (delivered (s.polls D (evs ++ [.data []]))).1 = (delivered evs).1) := by
  have fin : ∀ (s : SafeReader) (acc : Bytes) (rest : List Ev), s.At max expect acc →
      acc.length ≤ u64Max → acc.length ≤ max →
      delivered (s.polls D (.data [] :: rest)) = ([], verdict D max expect acc .eof) := by
    intro s acc rest hs h1 h2
    simp only [SafeReader.polls, SafeReader.poll, hs.2.2, verdict, h1, h2, and_self, if_true]
    cases expect with
    | none => simp [delivered]
    | some e =>
      by_cases h : D e.1 acc = e.2 <;> simp [delivered, h]
  induction evs with
  | nil =>
    intro s acc hs h1 h2
    rw [List.nil_append, fin s acc [] hs h1 h2]
    simp [delivered]
  | cons ev evs ih =>
    intro s acc hs h1 h2
    cases ev with
    | pending => simpa [SafeReader.polls, SafeReader.poll, delivered] using ih s acc hs h1 h2
    | err k => simp [SafeReader.polls, SafeReader.poll, delivered, verdict, h1, h2]
    | data bs =>
      cases bs with
      | nil =>
        rw [List.cons_append, fin s acc _ hs h1 h2]
        simp [delivered]
      | cons b bs =>
        rw [List.cons_append, SafeReader.polls, SafeReader.poll_cons]
        have hl : s.bytesRead + (b :: bs).length = (acc ++ b :: bs).length := by
          rw [hs.2.1]; simp
        rw [hl, hs.1]
        split
        · rename_i hb
          have := ih _ _ (hs.push b bs) hb.1 hb.2
          rw [hl, hs.1] at this
          have e : ∀ l, delivered (.data (b :: bs) :: l) =
              (b :: bs ++ (delivered l).1, (delivered l).2) := fun l => by simp [delivered]
          rw [e, e, ← List.append_assoc]
          exact ⟨this.1, fun h => congrArg (b :: bs ++ ·) (this.2 h)⟩
        · rename_i hb
          have e : ∀ l, delivered (.data (b :: bs) :: l) =
              (b :: bs ++ (delivered l).1, (delivered l).2) := fun l => by simp [delivered]
          rw [e, show ∀ l, delivered (.err .invalidData :: l) = ([], .error .invalidData) from fun _ => rfl]
          have : ¬((acc ++ (b :: bs ++ (delivered evs).1)).length ≤ u64Max ∧
              (acc ++ (b :: bs ++ (delivered evs).1)).length ≤ max) := by
            simp only [List.length_append] at hb ⊢
            omega
          refine ⟨?_, fun h => by cases h⟩
          unfold verdict
          rw [if_neg this]

theorem polls_alike (D : Digest) {max : Nat} {expect : Option (HashAlg × HashValue)} {s : SafeReader}
    (h : SafeReader.new max expect = .ok s) {evs evs' : List Ev} (hd : delivered evs = delivered evs') :
    EndAlike (s.polls D (evs ++ [.data []])) (s.polls D (evs' ++ [.data []])) := by
  obtain ⟨h1, h2⟩ := polls_verdict D max expect evs s [] (SafeReader.new_at h) (Nat.zero_le _) (Nat.zero_le _)
  obtain ⟨h1', h2'⟩ := polls_verdict D max expect evs' s [] (SafeReader.new_at h) (Nat.zero_le _)
    (Nat.zero_le _)
  rw [← hd] at h1' h2'
  cases hv : verdict D max expect ([] ++ (delivered evs).1) (delivered evs).2 with
  | eof =>
    rw [hv] at h1 h1'
    exact .inl ⟨(delivered evs).1, Prod.ext (h2 h1) h1, Prod.ext (h2' h1') h1'⟩
  | error k =>
    rw [hv] at h1 h1'
    exact .inr ⟨_, _, k, Prod.ext rfl h1, Prod.ext rfl h1'⟩

theorem readToEnd_polls (D : Digest) (evs : List Ev) : ∀ (s : SafeReader) (acc : Bytes),
    s.readToEnd D evs acc =
      match delivered (s.polls D (evs ++ [.data []])) with
      | (bs, .eof) => .ok (acc ++ bs)
      | (_, .error k) => .error k := by
  have fin : ∀ (s : SafeReader), (∃ k, (s.poll D (.data [])).1 = .err k) ∨ (s.poll D (.data [])).1 = .data [] := by
    intro s
    simp only [SafeReader.poll]
    split
    · split
      · exact .inl ⟨_, rfl⟩
      · exact .inr rfl
    · exact .inr rfl
  have key : ∀ (s : SafeReader) (acc : Bytes) (ev : Ev) (evs rest : List Ev),
      (∀ (s : SafeReader) (acc : Bytes), s.readToEnd D evs acc =
        match delivered (s.polls D rest) with
        | (bs, .eof) => .ok (acc ++ bs)
        | (_, .error k) => .error k) →
      s.readToEnd D (ev :: evs) acc =
        match delivered (s.polls D (ev :: rest)) with
        | (bs, .eof) => .ok (acc ++ bs)
        | (_, .error k) => .error k := by
    intro s acc ev evs rest ih
    simp only [SafeReader.readToEnd, SafeReader.polls]
    rcases s.poll D ev with ⟨ev', s'⟩
    cases ev' with
    | pending => simp only [delivered]; exact ih s' acc
    | err k => rfl
    | data bs =>
      cases bs with
      | nil => simp [delivered]
      | cons b bs =>
        simp only [delivered, reduceCtorEq, if_false]
        rw [ih s']
        rcases delivered (s'.polls D rest) with ⟨bs', e⟩
        cases e with
        | eof => simp
        | error k => rfl
  induction evs with
  | nil =>
    intro s acc
    simp only [SafeReader.readToEnd, List.nil_append, SafeReader.polls]
    rcases fin s with ⟨k, h⟩ | h
    · rcases hp : s.poll D (.data []) with ⟨ev, s'⟩
      rw [hp] at h
      subst h
      rfl
    · rcases hp : s.poll D (.data []) with ⟨ev, s'⟩
      rw [hp] at h
      subst h
      simp [delivered]
  | cons ev evs ih => exact fun s acc => key s acc ev evs _ ih

theorem readChecked_chunks (D : Digest) (max : Nat) (hash : HashData) {evs evs' : List Ev}
    (hd : delivered evs = delivered evs') : readChecked D max hash evs = readChecked D max hash evs' := by
  unfold readChecked
  cases h : SafeReader.new max hash with
  | error e => rfl
  | ok s =>
    simp only [readToEnd_polls]
    rcases polls_alike D h hd with ⟨bs, h1, h2⟩ | ⟨bs, bs', k, h1, h2⟩ <;> rw [h1, h2]

/-! ## Client functions -/

variable {W : Type} {R R' : World W}

theorem Spec.SameButChunks.provider (h : SameButChunks R R') (src : Source) :
    SameProvider (R.provider src) (R'.provider src) := by
  cases src
  · exact h.remote
  · exact h.cache

theorem call_eq {α : Type} (f : W → Except Err α × W) (s : Io W) {r : Except Err α} {w : W}
    (h : f s.w = (r, w)) : Io.call f s = (r, { s with w := w }) := by
  unfold Io.call
  rw [h]

theorem fetchMetadata_chunks (h : SameButChunks R R') (D : Digest) :
    @fetchMetadata W D R = fetchMetadata D R' := by
  funext src role path ver max hash s
  unfold fetchMetadata
  simp only [bind, M.bind]
  rcases M.ofExcept (checkRole role path) s with ⟨r, s1⟩
  cases r with
  | error e => rfl
  | ok u =>
    simp only
    rcases Io.note (.fetch src path ver max hash) s1 with ⟨r, s2⟩
    cases r with
    | error e => rfl
    | ok u =>
      obtain ⟨h1, h2⟩ := (h.provider src).metadata path ver max hash s2.w
      rcases hx : (R.provider src).fetchMetadata path ver max hash s2.w with ⟨r, w⟩
      rcases hx' : (R'.provider src).fetchMetadata path ver max hash s2.w with ⟨r', w'⟩
      simp only [call_eq _ _ hx, call_eq _ _ hx']
      rw [hx, hx'] at h1 h2
      obtain rfl : w = w' := h2
      cases r with
      | error e => cases r' with
        | error e' => cases h1; rfl
        | ok evs' => exact h1.elim
      | ok evs => cases r' with
        | error e' => exact h1.elim
        | ok evs' =>
          have := readChecked_chunks D (max.getD usizeMax) hash h1
          dsimp only
          rw [this]

theorem storeMetadata_chunks (h : SameButChunks R R') : @storeMetadata W R = storeMetadata R' := by
  funext role path ver raw
  unfold storeMetadata
  rw [h.storeMetadata]

theorem getClock_chunks (h : SameButChunks R R') : getClock R = getClock R' := by
  funext s
  unfold getClock
  rw [h.clock]

theorem rootLoop_chunks (h : SameButChunks R R') (E : Env) (D : Digest) (cfg : Config) (src : Source)
    (persist : Bool) : ∀ fuel, rootLoop E D R cfg src persist fuel = rootLoop E D R' cfg src persist fuel := by
  intro fuel
  induction fuel with
  | zero => rfl
  | succ n ih =>
    funext u
    unfold rootLoop
    rw [fetchMetadata_chunks h, storeMetadata_chunks h, ih]

theorem updateRoot_chunks (h : SameButChunks R R') (E : Env) (D : Digest) (cfg : Config) (src : Source)
    (persist : Bool) : updateRootWithRepos E D R cfg src persist = updateRootWithRepos E D R' cfg src persist := by
  unfold updateRootWithRepos
  rw [rootLoop_chunks h, getClock_chunks h]

theorem updateTimestamp_chunks (h : SameButChunks R R') (E : Env) (D : Digest) (cfg : Config)
    (src : Source) (persist : Bool) :
    updateTimestampWithRepos E D R cfg src persist = updateTimestampWithRepos E D R' cfg src persist := by
  unfold updateTimestampWithRepos
  rw [fetchMetadata_chunks h, storeMetadata_chunks h, getClock_chunks h]

theorem updateSnapshot_chunks (h : SameButChunks R R') (E : Env) (D : Digest)
    (src : Source) (persist consistent : Bool) : updateSnapshotWithRepos E D R src persist consistent =
      updateSnapshotWithRepos E D R' src persist consistent := by
  unfold updateSnapshotWithRepos
  rw [fetchMetadata_chunks h, storeMetadata_chunks h, getClock_chunks h]

theorem updateTargets_chunks (h : SameButChunks R R') (E : Env) (D : Digest)
    (src : Source) (persist consistent : Bool) : updateTargetsWithRepos E D R src persist consistent =
      updateTargetsWithRepos E D R' src persist consistent := by
  unfold updateTargetsWithRepos
  rw [fetchMetadata_chunks h, storeMetadata_chunks h, getClock_chunks h]

theorem update_chunks (h : SameButChunks R R') (E : Env) (D : Digest) (cfg : Config) :
    update E D R cfg = update E D R' cfg := by
  unfold update
  simp only [updateRoot_chunks h, updateTimestamp_chunks h, updateSnapshot_chunks h, updateTargets_chunks h]

theorem new_chunks (h : SameButChunks R R') (E : Env) (D : Digest) (cfg : Config) :
    Client.new E D R cfg = Client.new E D R' cfg := by
  funext t io
  unfold Client.new loadLocal
  simp only [updateRoot_chunks h, updateTimestamp_chunks h, updateSnapshot_chunks h, updateTargets_chunks h]

theorem fetchLocalOrRemote_chunks (h : SameButChunks R R') (D : Digest) :
    @fetchLocalOrRemote W D R = fetchLocalOrRemote D R' := by
  funext role path ver max hash
  unfold fetchLocalOrRemote
  rw [fetchMetadata_chunks h]

theorem construct_chunks (h : SameButChunks R R') (E : Env) (D : Digest) (cfg : Config) (start : Start) :
    construct E D R cfg start = construct E D R' cfg start := by
  cases start with
  | trustedRoot raw => unfold construct withTrustedRoot; rw [new_chunks h]
  | trustedLocal => unfold construct withTrustedLocal; rw [new_chunks h, fetchMetadata_chunks h]
  | trustedRootKeys v n keys =>
    unfold construct withTrustedRootKeys
    rw [new_chunks h, fetchLocalOrRemote_chunks h, storeMetadata_chunks h]

theorem lookupLoop_chunks (h : SameButChunks R R') (E : Env) (D : Digest)
    (rec : Bool → TargetsMetadata → MetadataPath → M (St W) Found) (dflt : Bool)
    (target : VirtualTargetPath) (sn : SnapshotMetadata) (parent : MetadataPath) (ds : List Delegation) :
    lookupLoop E D R rec dflt target sn parent ds = lookupLoop E D R' rec dflt target sn parent ds := by
  induction ds with
  | nil => rfl
  | cons d ds ih =>
    unfold lookupLoop
    rw [ih, fetchMetadata_chunks h, storeMetadata_chunks h, getClock_chunks h]

theorem lookupIn_chunks (h : SameButChunks R R') (E : Env) (D : Digest)
    (target : VirtualTargetPath) (sn : SnapshotMetadata) : ∀ n,
    lookupIn E D R target sn n = lookupIn E D R' target sn n := by
  intro n
  induction n with
  | zero => rfl
  | succ n ih =>
    funext dflt ta role
    unfold lookupIn
    simp only [ih, lookupLoop_chunks h]

theorem description_chunks (h : SameButChunks R R') (E : Env) (D : Digest) (cfg : Config)
    (p : TargetPath) : fetchTargetDescription E D R cfg p = fetchTargetDescription E D R' cfg p := by
  unfold fetchTargetDescription
  simp only [lookupIn_chunks h]

/-! ## Targets -/

/-- The same error, or streams that end alike. -/
def AlikeResult : Except Err (List Ev) → Except Err (List Ev) → Prop
  | .error e, .error e' => e = e'
  | .ok evs, .ok evs' => EndAlike evs evs'
  | _, _ => False

theorem fetchTargetStream_chunks (h : SameButChunks R R') (D : Digest) (path : TargetPath)
    (descr : TargetDescription) (s : Io W) :
    AlikeResult (fetchTargetStream D R path descr s).1 (fetchTargetStream D R' path descr s).1 ∧
    (fetchTargetStream D R path descr s).2 = (fetchTargetStream D R' path descr s).2 := by
  unfold fetchTargetStream
  simp only [bind, M.bind]
  rcases M.ofExcept (hashPreference descr.hashes) s with ⟨r, s1⟩
  cases r with
  | error e => exact ⟨rfl, rfl⟩
  | ok av =>
    simp only
    rcases Io.note (.fetchTarget path) s1 with ⟨r, s2⟩
    cases r with
    | error e => exact ⟨rfl, rfl⟩
    | ok u =>
      obtain ⟨h1, h2⟩ := h.remote.target path descr s2.w
      rcases hx : R.remote.fetchTarget path descr s2.w with ⟨r, w⟩
      rcases hx' : R'.remote.fetchTarget path descr s2.w with ⟨r', w'⟩
      simp only [call_eq _ _ hx, call_eq _ _ hx']
      rw [hx, hx'] at h1 h2
      obtain rfl : w = w' := h2
      cases r with
      | error e => cases r' with
        | error e' => cases h1; exact ⟨rfl, rfl⟩
        | ok evs' => exact h1.elim
      | ok evs => cases r' with
        | error e' => exact h1.elim
        | ok evs' =>
          simp only [M.ofExcept]
          cases hn : SafeReader.new descr.length (some (av.1, av.2)) with
          | error e => exact ⟨rfl, rfl⟩
          | ok rd => exact ⟨polls_alike D hn h1, rfl⟩

theorem lift_alike {m m' : M (Io W) (List Ev)} (h : ∀ s, AlikeResult (m s).1 (m' s).1 ∧ (m s).2 = (m' s).2)
    (s : St W) : AlikeResult (lift m s).1 (lift m' s).1 ∧ (lift m s).2 = (lift m' s).2 := by
  have := h s.io
  unfold lift
  revert this
  rcases m s.io with ⟨r, io⟩
  rcases m' s.io with ⟨r', io'⟩
  rintro ⟨h1, rfl⟩
  exact ⟨h1, rfl⟩

theorem bind_alike {α : Type} (m : M (St W) α) {f f' : α → M (St W) (List Ev)}
    (h : ∀ a s, AlikeResult (f a s).1 (f' a s).1 ∧ (f a s).2 = (f' a s).2) (s : St W) :
    AlikeResult ((m >>= f) s).1 ((m >>= f') s).1 ∧ ((m >>= f) s).2 = ((m >>= f') s).2 := by
  simp only [bind, M.bind]
  rcases m s with ⟨r, s1⟩
  cases r with
  | error e => exact ⟨rfl, rfl⟩
  | ok a => exact h a s1

theorem reader_chunks (h : SameButChunks R R') (E : Env) (D : Digest) (cfg : Config) (p : TargetPath)
    (s : St W) :
    AlikeResult (fetchTargetReader E D R cfg p s).1 (fetchTargetReader E D R' cfg p s).1 ∧
    (fetchTargetReader E D R cfg p s).2 = (fetchTargetReader E D R' cfg p s).2 := by
  unfold fetchTargetReader
  rw [description_chunks h]
  refine bind_alike _ (fun d => bind_alike _ fun t => ?_) s
  split
  · refine bind_alike _ fun av => bind_alike _ fun path => ?_
    exact lift_alike (fetchTargetStream_chunks h D path d)
  · exact lift_alike (fetchTargetStream_chunks h D p d)

theorem fetchTarget_chunks (h : SameButChunks R R') (E : Env) (D : Digest) (cfg : Config)
    (p : TargetPath) : fetchTarget E D R cfg p = fetchTarget E D R' cfg p := by
  funext s
  have := reader_chunks h E D cfg p s
  unfold fetchTarget
  simp only [bind, M.bind]
  revert this
  rcases fetchTargetReader E D R cfg p s with ⟨r, s1⟩
  rcases fetchTargetReader E D R' cfg p s with ⟨r', s1'⟩
  rintro ⟨h1, rfl⟩
  cases r with
  | error e => cases r' with
    | error e' => cases h1; rfl
    | ok evs' => exact h1.elim
  | ok evs => cases r' with
    | error e' => exact h1.elim
    | ok evs' =>
      simp only [lift, storeTarget, bind, M.bind, Io.call]
      rcases Io.note (.storeTarget p) s1.io with ⟨r, s2⟩
      cases r with
      | error e => rfl
      | ok u => simp only [h.storeTarget evs evs' p s2.w h1]

/-! ## C113 How the network cuts data into chunks does not matter to clients -/

/-- Updates, descriptions of targets and downloads to the local repository: what is returned, what is
trusted afterwards and what is in the local repository do not depend on how the streams are cut. -/
theorem C113_calls (h : SameButChunks R R') (E : Env) (D : Digest) (cfg : Config) (c : Call)
    (hc : ToStore c) : exec E D R cfg c = exec E D R' cfg c := by
  cases c with
  | update => simp only [exec, update_chunks h]
  | fetchTarget p => simp only [exec, fetchTarget_chunks h]
  | fetchTargetToWriter p => exact hc.elim
  | fetchTargetDescription p => simp only [exec, description_chunks h]

/-- Nor does the life of a client from its construction on. -/
theorem C113_sessions (h : SameButChunks R R') (E : Env) (D : Digest) (cfg : Config) (start : Start)
    (cs : List Call) (hcs : ∀ c ∈ cs, ToStore c) (io : Io W) :
    session E D R cfg start cs io = session E D R' cfg start cs io := by
  have calls : ∀ cs s, (∀ c ∈ cs, ToStore c) → replies E D R cfg s cs = replies E D R' cfg s cs := by
    intro cs
    induction cs with
    | nil => intro s _; rfl
    | cons c cs ih =>
      intro s hcs
      unfold replies
      rw [C113_calls h E D cfg c (hcs c (.head _))]
      simp only [ih _ fun c hc => hcs c (.tail _ hc)]
  unfold session
  rw [construct_chunks h]
  simp only [calls cs _ hcs]

theorem readToEnd_alike {evs evs' : List Ev} (h : EndAlike evs evs') : readToEnd evs [] = readToEnd evs' [] := by
  rw [Props.readToEnd_eq, Props.readToEnd_eq]
  rcases h with ⟨bs, h1, h2⟩ | ⟨bs, bs', k, h1, h2⟩ <;> rw [h1, h2]

theorem same_provider_rfl (P : Provider W) : SameProvider P P := by
  have : ∀ r : Except Err (List Ev), SameAnswer r r := by
    intro r
    cases r <;> rfl
  exact ⟨fun _ _ _ _ _ => ⟨this _, rfl⟩, fun _ _ _ => ⟨this _, rfl⟩⟩

theorem outside_chunks {O L : Type} {X X' : Outside O} (h : SameOutside X X') (S : Storage L)
    (hS : ∀ fault evs evs' p l, EndAlike evs evs' → S.storeTarget fault evs p l = S.storeTarget fault evs' p l) :
    SameButChunks (X.world S) (X'.world S) where
  remote :=
    { metadata := fun p v m hd w => by
        have := h.remote.metadata p v m hd w.1
        exact ⟨this.1, congrArg (·, w.2) this.2⟩
      target := fun p d w => by
        have := h.remote.target p d w.1
        exact ⟨this.1, congrArg (·, w.2) this.2⟩ }
  cache := same_provider_rfl _
  storeMetadata := by unfold Outside.world; simp only [h.fault]
  storeTarget := by
    intro evs evs' p w he
    unfold Outside.world
    simp only [h.targetFault, hS _ _ _ _ _ he]
  write := by unfold Outside.world; simp only [h.write]
  flush := by unfold Outside.world; simp only [h.flush]
  clock := by unfold Outside.world; simp only [h.clock]

/-- The repositories of the library meet the condition: with an in-memory repository, … -/
theorem C113_in_memory {O : Type} {X X' : Outside O} (h : SameOutside X X') (E : Env) (D : Digest)
    (cfg : Config) (start : Start) (cs : List Call) (hcs : ∀ c ∈ cs, ToStore c) (io : Io (O × Ephemeral)) :
    session E D (X.world Ephemeral.storage) cfg start cs io =
      session E D (X'.world Ephemeral.storage) cfg start cs io := by
  refine C113_sessions (outside_chunks h _ fun _ evs evs' p l he => ?_) E D cfg start cs hcs io
  simp only [Ephemeral.storage, Ephemeral.storeTarget, readToEnd_alike he]

/-- … and with one in the file system. -/
theorem C113_on_disk {O : Type} {X X' : Outside O} (h : SameOutside X X') (f : FileSystem) (E : Env)
    (D : Digest) (cfg : Config) (start : Start) (cs : List Call) (hcs : ∀ c ∈ cs, ToStore c)
    (io : Io (O × Tree)) :
    session E D (X.world f.storage) cfg start cs io = session E D (X'.world f.storage) cfg start cs io := by
  refine C113_sessions (outside_chunks h _ fun _ evs evs' p l he => ?_) E D cfg start cs hcs io
  simp only [FileSystem.storage, FileSystem.storeTarget, Tree.storeFile, readToEnd_alike he]

/-! ### The caller's writer -/

theorem copy_result (hR : Accepts R) (evs : List Ev) : ∀ io : Io W,
    (copyToWriter R evs io).1 =
      match (delivered evs).2 with
      | .eof => .ok ()
      | .error k => .error k.toErr := by
  have fin : ∀ io : Io W, (copyToWriter R [] io).1 = .ok () := by
    intro io
    have := hR.2 io.w
    simp only [copyToWriter]
    split
    · rfl
    · rename_i k w' h
      rw [h] at this
      cases this
  induction evs with
  | nil => exact fin
  | cons ev evs ih =>
    intro io
    cases ev with
    | pending => exact ih io
    | err k => rfl
    | data bs =>
      by_cases hb : bs = []
      · subst hb
        exact fin io
      · simp only [copyToWriter, delivered, hb, if_false]
        have := hR.1 bs io.w
        split
        · exact ih _
        · rename_i k w' h
          rw [h] at this
          cases this

theorem copy_state (hR : Accepts R) (hs : Seamless R) (evs : List Ev) : ∀ (io : Io W) (bs : Bytes),
    delivered evs = (bs, .eof) → (copyToWriter R evs io).2.w =
      (R.flush (if bs = [] then io.w else (R.write bs io.w).2)).2 := by
  have fin : ∀ io : Io W, (copyToWriter R [] io).2.w = (R.flush io.w).2 := by
    intro io
    simp only [copyToWriter]
    split <;> rename_i h <;> rw [h]
  induction evs with
  | nil =>
    intro io bs h
    cases h
    exact fin io
  | cons ev evs ih =>
    intro io bs h
    cases ev with
    | pending => exact ih io bs h
    | err k => cases h
    | data b =>
      by_cases hb : b = []
      · subst hb
        cases h
        exact fin io
      · simp only [delivered, hb, if_false, Prod.mk.injEq] at h
        obtain ⟨rfl, h2⟩ := h
        have ok := hR.1 b io.w
        rw [if_neg (by simp [hb])]
        simp only [copyToWriter, hb, if_false]
        split
        · rename_i w' hw
          rw [ih _ _ (Prod.ext rfl h2)]
          simp only
          split
          · rename_i he
            have he : (delivered evs).fst = [] := he
            rw [he, List.append_nil, hw]
          · rename_i he
            rw [hs b _ io.w hb he ok, hw]
        · rename_i k w' hw
          rw [hw] at ok
          cases ok

/-- Downloads to the caller's writer, if the writer takes everything: they succeed with both, or fail
with the same error; the same metadata is trusted afterwards. If they succeed, the writer has got the
same bytes, and a writer to which the chunks do not matter ends in the same state. -/
theorem C113_downloads_to_a_writer (h : SameButChunks R R') (hR : Accepts R) (E : Env) (D : Digest)
    (cfg : Config) (p : TargetPath) (s : St W) :
    (exec E D R cfg (.fetchTargetToWriter p) s).1 = (exec E D R' cfg (.fetchTargetToWriter p) s).1 ∧
    (exec E D R cfg (.fetchTargetToWriter p) s).2.tuf = (exec E D R' cfg (.fetchTargetToWriter p) s).2.tuf ∧
    ∀ r, (exec E D R cfg (.fetchTargetToWriter p) s).1 = .ok r →
      written (exec E D R cfg (.fetchTargetToWriter p) s).2.io.log =
        written (exec E D R' cfg (.fetchTargetToWriter p) s).2.io.log ∧
      (Seamless R → (exec E D R cfg (.fetchTargetToWriter p) s).2.io.w =
        (exec E D R' cfg (.fetchTargetToWriter p) s).2.io.w) := by
  have hR' : Accepts R' := ⟨h.write ▸ hR.1, h.flush ▸ hR.2⟩
  have := reader_chunks h E D cfg p s
  simp only [exec, fetchTargetToWriter, bind, M.bind]
  revert this
  rcases fetchTargetReader E D R cfg p s with ⟨r, s1⟩
  rcases fetchTargetReader E D R' cfg p s with ⟨r', s1'⟩
  rintro ⟨h1, rfl⟩
  cases r with
  | error e => cases r' with
    | error e' => cases h1; exact ⟨rfl, rfl, fun r h => by cases h⟩
    | ok evs' => exact h1.elim
  | ok evs => cases r' with
    | error e' => exact h1.elim
    | ok evs' =>
      simp only [lift]
      have c := copy_result hR evs s1.io
      have c' := copy_result hR' evs' s1.io
      obtain ⟨l, w1, -, w2⟩ := copyToWriter_written (R := R) evs s1.io
      obtain ⟨l', w1', -, w2'⟩ := copyToWriter_written (R := R') evs' s1.io
      have z := copy_state hR (evs := evs) (io := s1.io)
      have z' := copy_state hR' (evs := evs') (io := s1.io)
      revert c c' w1 w2 w1' w2' z z'
      rcases copyToWriter R evs s1.io with ⟨x, io⟩
      rcases copyToWriter R' evs' s1.io with ⟨x', io'⟩
      intro c c' w1 w2 w1' w2' z z'
      rcases h1 with ⟨bs, e, e'⟩ | ⟨bs, bs', k, e, e'⟩
      · rw [e] at c
        rw [e'] at c'
        cases c
        cases c'
        refine ⟨rfl, rfl, fun _ _ => ⟨?_, fun hs => ?_⟩⟩
        · have a := w2 () rfl
          have a' := w2' () rfl
          rw [e] at a
          rw [e'] at a'
          simp only [pure, M.pure] at w1 w1' ⊢
          rw [w1, w1', written_append, written_append]
          cases a
          simpa using congrArg Prod.fst a'
        · have hs' : Seamless R' := by unfold Seamless; rw [← h.write]; exact hs
          have := z hs bs e
          have := z' hs' bs e'
          simp only [pure, M.pure] at *
          simp_all [h.write, h.flush]
      · rw [e] at c
        rw [e'] at c'
        cases c
        cases c'
        exact ⟨rfl, rfl, fun _ h => by cases h⟩

/-! ### A slow network -/

theorem delivered_drip (evs : List Ev) : delivered (drip evs) = delivered evs := by
  have bytes : ∀ (bs : Bytes) (l : List Ev), delivered (bs.flatMap (fun b => [.pending, .data [b]]) ++ l) =
      (bs ++ (delivered l).1, (delivered l).2) := by
    intro bs l
    induction bs with
    | nil => rfl
    | cons b bs ih => simp [delivered, ih]
  induction evs with
  | nil => rfl
  | cons ev evs ih =>
    cases ev with
    | pending => simpa [drip, delivered] using ih
    | err k => rfl
    | data bs =>
      by_cases hb : bs = []
      · subst hb; rfl
      · simp only [drip, hb, if_false, bytes, delivered, ih]

theorem dripping_same (P : Provider W) : SameProvider P (dripping P) := by
  have : ∀ r : Except Err (List Ev), SameAnswer r (r.map drip) := by
    intro r
    cases r with
    | error e => rfl
    | ok evs => exact (delivered_drip evs).symm
  exact ⟨fun _ _ _ _ _ => ⟨this _, rfl⟩, fun _ _ _ => ⟨this _, rfl⟩⟩

theorem toy_slow (files targets now) :
    SameButChunks (Toy.repos files targets now) (slow (Toy.repos files targets now)) where
  remote := dripping_same _
  cache := dripping_same _
  storeMetadata := rfl
  storeTarget := by
    intro evs evs' p w h
    simp only [slow, Toy.repos, toy_content]
    rcases h with ⟨bs, h1, h2⟩ | ⟨bs, bs', k, h1, h2⟩ <;> rw [h1, h2]
  write := rfl
  flush := rfl
  clock := rfl

/-- The theorems apply to the toy repository, where an update and a download succeed. -/
example : SameButChunks Toy.remoteRepo (slow Toy.remoteRepo) ∧ Accepts Toy.remoteRepo ∧
    Seamless Toy.remoteRepo ∧
    (session Toy.env Toy.digest (slow Toy.remoteRepo) Toy.config (.trustedRoot [1])
      [.update, .fetchTarget "x".toList] ⟨Toy.Disk.empty, []⟩).1.map (·.1) =
        .ok [.ok (.updated true), .ok .done] := by
  refine ⟨toy_slow _ _ _, ⟨fun _ _ => rfl, fun _ => rfl⟩, fun a b w _ _ _ => ?_, by decide +kernel⟩
  simp [Toy.remoteRepo, Toy.repos]

/-- What a writer has got when a download fails does depend on the chunks: here the file is longer
than announced. -/
theorem C113_partial_output_depends_on_chunks :
    ∃ (R : World Toy.Disk) (s : St Toy.Disk), SameButChunks R (slow R) ∧ Accepts R ∧ Seamless R ∧
      (exec Toy.env Toy.digest R Toy.config (.fetchTargetToWriter "x".toList) s).1 = .error .opaqueErr ∧
      (exec Toy.env Toy.digest R Toy.config (.fetchTargetToWriter "x".toList) s).2.io.w.written = [] ∧
      (exec Toy.env Toy.digest (slow R) Toy.config (.fetchTargetToWriter "x".toList) s).2.io.w.written ≠ [] := by
  refine ⟨Toy.repos Toy.remoteFiles [("x".toList, [9, 9, 9, 9, 9, 9, 9, 9, 9, 9, 9, 9])] 100,
    ⟨⟨Toy.root 2 1000, some (Toy.snapshot 1 500 [("targets", 1), ("a", 1), ("b", 1)]), some Toy.topTargets,
      some (Toy.timestamp 1 500 1), []⟩, ⟨Toy.Disk.empty, []⟩⟩, toy_slow _ _ _,
    ⟨fun _ _ => rfl, fun _ => rfl⟩, fun a b w _ _ _ => ?_, by decide +kernel, by decide +kernel,
    by decide +kernel⟩
  simp [Toy.repos]

end RustTuf
