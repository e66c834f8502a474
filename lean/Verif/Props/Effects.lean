import Verif.Spec.Effects
import Verif.Props.Clocks
import Verif.Props.Fetching

/-! C120: every call touches only what it has to. -/

namespace RustTuf.Props
open Spec Client Tuf

section Effects
variable {W : Type} {E : Env} {D : Digest} {R : World W} {cfg : Config}

/-- An update asks the remote repository for metadata, verifies and stores metadata, and does nothing
else. -/
theorem C120_update (E : Env) (D : Digest) (R : World W) (cfg : Config) (s : St W) :
    ∃ l, (exec E D R cfg .update s).2.io.log = s.io.log ++ l ∧ ∀ e ∈ l, UpdateEntry e := by
  have prims : Prims E D R (fun x : St W => Grown UpdateEntry s.io.log x.io.log) (fun src => src = .remote)
      True TopOp := by
    refine ⟨?_, ?_, ?_, ?_⟩
    · rintro src rfl role p v mx h
      exact lift_keeps (fetchMetadata_grown D R .remote role p v mx h UpdateEntry rfl (fun _ _ => rfl) _)
    · intro _ role p v raw
      refine lift_keeps (I := fun io : Io W => Grown UpdateEntry s.io.log io.log) (Tri.fix fun s0 hs0 => ?_)
      refine (storeMetadata_log (R := R) role p v raw s0.log).conseq (by rintro s rfl; rfl) ?_ ?_
      · intro _ x hx
        rw [hx]
        exact Grown.snoc hs0 trivial
      · rintro _ x (hx | hx) <;> rw [hx]
        · exact hs0
        · exact Grown.snoc hs0 trivial
    · exact Tri.getClock fun s hs => hs
    · intro o ho
      refine Tri.updateTuf fun x out t' hx _ => ?_
      have := Grown.snoc (e := .op o out) hx ho
      cases out <;> exact this
  have := ((prims.update (cfg := cfg) rfl trivial).bind fun b => Keeps.ret (Reply.updated b)).run
    (s := s) (Grown.refl _ _)
  exact this

theorem allowed_path {p : MetadataPath} (h : Role.fuzzyMatchesPath .targets p = true) :
    p ≠ "root".toList ∧ p ≠ "snapshot".toList := by
  constructor <;> (rintro rfl; revert h; decide)

theorem search_fetch (L : List LogEntry) (src : Source) (p : MetadataPath) (v : MetadataVersion)
    (mx : Option Nat) (h : HashData) :
    Keeps (fun s : St W => Grown SearchEntry L s.io.log) (lift (fetchMetadata D R src .targets p v mx h)) := by
  by_cases hp : Role.fuzzyMatchesPath .targets p = true
  · exact lift_keeps (fetchMetadata_grown D R src .targets p v mx h SearchEntry (allowed_path hp)
      (fun _ _ => allowed_path hp) _)
  · have : fetchMetadata D R src .targets p v mx h = M.fail .illegalArgument := by
      funext s
      show M.bind _ _ s = _
      simp only [M.bind, M.ofExcept, checkRole, hp]
      rfl
    rw [this]
    exact lift_keeps (I := fun io : Io W => Grown SearchEntry L io.log) (Keeps.fail _)

theorem search_store (L : List LogEntry) (p : MetadataPath) (raw : Bytes) :
    Keeps (fun s : St W => Grown SearchEntry L s.io.log) (lift (storeMetadata R .targets p .none raw)) := by
  refine lift_keeps (I := fun io : Io W => Grown SearchEntry L io.log) ?_
  by_cases hp : Role.fuzzyMatchesPath .targets p = true
  · refine Tri.fix fun s0 hs0 => ?_
    have hP : SearchEntry (.store p .none raw) := ⟨rfl, allowed_path hp⟩
    refine (storeMetadata_log (R := R) .targets p .none raw s0.log).conseq (by rintro s rfl; rfl) ?_ ?_
    · intro _ x hx
      rw [hx]
      exact Grown.snoc hs0 hP
    · rintro _ x (hx | hx) <;> rw [hx]
      · exact hs0
      · exact Grown.snoc hs0 hP
  · have : storeMetadata R .targets p .none raw = M.fail .illegalArgument := by
      funext s
      show M.bind _ _ s = _
      simp only [M.bind, M.ofExcept, checkRole, hp]
      rfl
    rw [this]
    exact Keeps.fail _

theorem search_lookup (L : List LogEntry) (target : VirtualTargetPath) (sn : SnapshotMetadata) (rem : Nat) :
    ∀ b m r, Keeps (fun s : St W => Grown SearchEntry L s.io.log) (Client.lookupIn E D R target sn rem b m r) := by
  induction rem with
  | zero => intro b m r; exact Keeps.ret _
  | succ rem ih =>
    intro b m r
    unfold Client.lookupIn
    split
    · exact Keeps.ret _
    · split
      · exact Keeps.ret _
      · refine (lookupLoop_walk (fun s : St W => Grown SearchEntry L s.io.log) _ b target sn r
          (Tri.getClock fun s hs => hs) _ (fun d _ src v mx h => search_fetch L src d.role v mx h)
          (fun d _ raw => search_store L d.role raw) (fun d _ w raw => ?_)
          (fun d _ b md => (ih b md d.role).pre fun s hs => hs.1)).post fun _ _ h => h.2
        refine Tri.updateTuf fun x out t' hx _ => ?_
        have := Grown.snoc (P := SearchEntry) (e := .op (.delegation (R.clock w).1 r d.role raw) out) hx
          ⟨_, _, _, _, rfl⟩
        cases out <;> exact this

theorem search_description (L : List LogEntry) (p : TargetPath) :
    Keeps (fun s : St W => Grown SearchEntry L s.io.log) (fetchTargetDescription E D R cfg p) := by
  unfold fetchTargetDescription
  refine (Keeps.ofExcept _).bind fun virt => (keeps_getTuf _).bind fun t => ?_
  cases t.snapshot with
  | none => exact Keeps.fail _
  | some sn =>
    cases t.targets with
    | none => exact Keeps.fail _
    | some ta =>
      dsimp only
      exact (search_lookup L virt sn _ _ _ _).bind fun x => Keeps.ofExcept _

theorem description_error {p : TargetPath} {s : St W} (hn : ∀ d, ¬ TopEntry cfg s.tuf p d) :
    ∃ e, (fetchTargetDescription E D R cfg p s).1 = .error e := by
  rcases h : fetchTargetDescription E D R cfg p s with ⟨r, s'⟩
  cases r with
  | error e => exact ⟨e, rfl⟩
  | ok d => exact absurd (fetchTargetDescription_ok h) (hn d)

/-- A call for a target that is not listed fails. It has searched the delegated roles: it has asked for
their metadata and verified and stored them, but no target was asked for, stored or passed to the writer,
and the trusted root, timestamp, snapshot and targets metadata are what they were. -/
theorem C120_other_targets (E : Env) (D : Digest) (R : World W) (cfg : Config) (c : Call) (p : TargetPath)
    (hc : asks p c) (s : St W) (hr : Reachable E s.tuf) (hn : ∀ d, ¬ TopEntry cfg s.tuf p d) :
    (∃ e, (exec E D R cfg c s).1 = .error e) ∧
    (∃ l, (exec E D R cfg c s).2.io.log = s.io.log ++ l ∧ ∀ e ∈ l, SearchEntry e) ∧
    (exec E D R cfg c s).2.tuf.root = s.tuf.root ∧ (exec E D R cfg c s).2.tuf.timestamp = s.tuf.timestamp ∧
    (exec E D R cfg c s).2.tuf.snapshot = s.tuf.snapshot ∧ (exec E D R cfg c s).2.tuf.targets = s.tuf.targets := by
  have hupd : c ≠ .update := by rintro rfl; exact hc
  have htop := ((target_call_top (E := E) (D := D) (R := R) (cfg := cfg) c hupd s.tuf).run (s := s)
    ⟨⟨rfl, rfl, rfl, rfl⟩, hr⟩).1
  obtain ⟨e, he⟩ := description_error (E := E) (D := D) (R := R) hn
  have hg : Grown SearchEntry s.io.log (fetchTargetDescription E D R cfg p s).2.io.log :=
    (search_description s.io.log p).run (Grown.refl _ _)
  have key : (exec E D R cfg c s).1 = .error e ∧
      (exec E D R cfg c s).2 = (fetchTargetDescription E D R cfg p s).2 := by
    rcases h : fetchTargetDescription E D R cfg p s with ⟨r, s'⟩
    rw [h] at he
    dsimp only at he
    subst he
    cases c with
    | update => exact hc.elim
    | fetchTargetDescription q =>
      cases hc
      have : exec E D R cfg (.fetchTargetDescription p) s = (.error e, s') := by
        show M.bind _ _ s = _
        simp only [M.bind, h]
      rw [this]; exact ⟨rfl, rfl⟩
    | fetchTarget q =>
      cases hc
      have : exec E D R cfg (.fetchTarget p) s = (.error e, s') := by
        show M.bind (M.bind (M.bind _ _) _) _ s = _
        simp only [M.bind, h]
      rw [this]; exact ⟨rfl, rfl⟩
    | fetchTargetToWriter q =>
      cases hc
      have : exec E D R cfg (.fetchTargetToWriter p) s = (.error e, s') := by
        show M.bind (M.bind (M.bind _ _) _) _ s = _
        simp only [M.bind, h]
      rw [this]; exact ⟨rfl, rfl⟩
  refine ⟨⟨e, key.1⟩, ?_, htop.1, htop.2.1, htop.2.2.1, htop.2.2.2⟩
  rw [key.2]
  exact hg

theorem fileOf_hashed {p q : TargetPath} {v : HashValue} (h : TargetPath.withHashPrefix p v = .ok q) :
    ∃ dirs file, pieces p = dirs ++ [file] ∧ pieces q = dirs ++ [hexText v ++ '.' :: file] := by
  unfold TargetPath.withHashPrefix TargetPath.components at h
  have e := (accepted_iff_target.1 h).1
  refine ⟨(splitOn '/' p).dropLast, (splitOn '/' p).getLastD [], ?_, ?_⟩
  · rw [pieces_eq, dropLast_append_getLastD _ (splitOn_ne_nil '/' p)]
  · rw [pieces_eq, e, ← hexLower_eq, splitOn_hashed]

theorem stream_log (n : TargetPath) (d : TargetDescription) (L : List LogEntry) :
    Tri (fun io : Io W => io.log = L) (fetchTargetStream D R n d) (fun _ io => io.log = L ++ [.fetchTarget n])
      (fun _ io => io.log = L ∨ io.log = L ++ [.fetchTarget n]) := by
  unfold fetchTargetStream
  refine Tri.bind (Q := fun _ io => io.log = L) (Tri.ofExcept (fun _ _ _ h => h) (fun _ _ _ h => .inl h))
    fun av => ?_
  refine Tri.bind (Q := fun _ io => io.log = L ++ [.fetchTarget n])
    (note_tri _ (fun s hs => by simp [hs])) fun _ => ?_
  refine Tri.bind ((call_log _ _).conseq (fun _ h => h) (fun _ _ h => h) (fun _ _ h => .inr h)) fun evs => ?_
  exact Tri.bind (Q := fun _ io => io.log = L ++ [.fetchTarget n])
    (Tri.ofExcept (fun _ _ _ h => h) (fun _ _ _ h => .inr h)) fun rd => Tri.ret fun _ h => h

/-- What a reader for a listed target has done. -/
theorem reader_log {p : TargetPath} {d : TargetDescription} {s : St W} (htop : TopEntry cfg s.tuf p d)
    (hsn : s.tuf.snapshot ≠ none) :
    (fetchTargetReader E D R cfg p s).2.tuf = s.tuf ∧
    match fetchTargetReader E D R cfg p s with
    | (.ok _, s') => ∃ n, FileOf s.tuf.root d p n ∧ s'.io.log = s.io.log ++ [.fetchTarget n]
    | (.error _, s') => s'.io.log = s.io.log ∨
        ∃ n, FileOf s.tuf.root d p n ∧ s'.io.log = s.io.log ++ [.fetchTarget n] := by
  have key : ∀ n, FileOf s.tuf.root d p n →
      (lift (fetchTargetStream D R n d) s).2.tuf = s.tuf ∧
      match lift (fetchTargetStream D R n d) s with
      | (.ok _, s') => ∃ n, FileOf s.tuf.root d p n ∧ s'.io.log = s.io.log ++ [.fetchTarget n]
      | (.error _, s') => s'.io.log = s.io.log ∨
          ∃ n, FileOf s.tuf.root d p n ∧ s'.io.log = s.io.log ++ [.fetchTarget n] := by
    intro n hn
    have h := stream_log (D := D) (R := R) n d s.io.log s.io rfl
    unfold lift
    rcases hx : fetchTargetStream D R n d s.io with ⟨r, io'⟩
    rw [hx] at h
    cases r with
    | ok x => exact ⟨rfl, n, hn, h⟩
    | error e => exact ⟨rfl, h.imp id fun h => ⟨n, hn, h⟩⟩
  have e : fetchTargetReader E D R cfg p s =
      (if s.tuf.root.consistentSnapshot then do
        let (_, value) ← M.ofExcept (hashPreference d.hashes)
        let path ← M.ofExcept (TargetPath.withHashPrefix p value)
        lift (fetchTargetStream D R path d)
      else lift (fetchTargetStream D R p d) : M (St W) (List Ev)) s := by
    show M.bind _ _ s = _
    simp only [M.bind, topEntry_description E D cfg htop hsn R]
    rfl
  rw [e]
  by_cases hcons : s.tuf.root.consistentSnapshot = true
  · rw [if_pos hcons]
    cases hp : hashPreference d.hashes with
    | error e => exact ⟨rfl, .inl rfl⟩
    | ok av =>
      obtain ⟨a, v⟩ := av
      cases hq : TargetPath.withHashPrefix p v with
      | error e =>
        have : (do
            let path ← M.ofExcept (TargetPath.withHashPrefix p v)
            lift (fetchTargetStream D R path d) : M (St W) (List Ev)) s = (.error e, s) := by
          rw [hq]; rfl
        exact (congrArg (fun x : Except Err (List Ev) × St W => x.2.tuf = s.tuf ∧ match x with
          | (.ok _, s') => ∃ n, FileOf s.tuf.root d p n ∧ s'.io.log = s.io.log ++ [.fetchTarget n]
          | (.error _, s') => s'.io.log = s.io.log ∨
              ∃ n, FileOf s.tuf.root d p n ∧ s'.io.log = s.io.log ++ [.fetchTarget n]) this).mpr
          ⟨rfl, .inl rfl⟩
      | ok n =>
        have hn : FileOf s.tuf.root d p n := by
          unfold FileOf
          rw [if_pos hcons]
          obtain ⟨dirs, file, h1, h2⟩ := fileOf_hashed hq
          exact ⟨a, v, dirs, file, preferred_of hp, h1, h2⟩
        have : (do
            let path ← M.ofExcept (TargetPath.withHashPrefix p v)
            lift (fetchTargetStream D R path d) : M (St W) (List Ev)) s = lift (fetchTargetStream D R n d) s := by
          rw [hq]; rfl
        exact (congrArg (fun x : Except Err (List Ev) × St W => x.2.tuf = s.tuf ∧ match x with
          | (.ok _, s') => ∃ n, FileOf s.tuf.root d p n ∧ s'.io.log = s.io.log ++ [.fetchTarget n]
          | (.error _, s') => s'.io.log = s.io.log ∨
              ∃ n, FileOf s.tuf.root d p n ∧ s'.io.log = s.io.log ++ [.fetchTarget n]) this).mpr (key n hn)
  · rw [if_neg hcons]
    exact key p (by unfold FileOf; rw [if_neg hcons])

theorem copy_log (evs : List Ev) : ∀ io : Io W,
    ∃ chunks : List Bytes, (copyToWriter R evs io).2.log = io.log ++ chunks.map .wrote := by
  have flush : ∀ io : Io W, (copyToWriter R [] io).2.log = io.log := by
    intro io
    simp only [copyToWriter]
    rcases R.flush io.w with ⟨r, w'⟩
    cases r <;> rfl
  induction evs with
  | nil => exact fun io => ⟨[], by simp [flush]⟩
  | cons ev evs ih =>
    intro io
    cases ev with
    | pending => exact ih io
    | err k => exact ⟨[], (List.append_nil _).symm⟩
    | data b =>
      simp only [copyToWriter]
      split
      · exact ⟨[], by
          rcases R.flush io.w with ⟨r, w'⟩
          cases r <;> simp⟩
      · rcases R.write b io.w with ⟨r, w'⟩
        cases r with
        | error e => exact ⟨[], (List.append_nil _).symm⟩
        | ok _ =>
          obtain ⟨cs, h⟩ := ih { w := w', log := io.log ++ [.wrote b] }
          exact ⟨b :: cs, by rw [h]; simp⟩

/-- A call for a listed target asks for no metadata and changes nothing that is trusted. If only the
description is wanted, it does nothing at all. Otherwise it asks for the file of that target, once, and then
hands what it gets to the local repository or to the caller's writer; if it succeeds, it has taken all these
steps. -/
theorem C120_listed_targets (E : Env) (D : Digest) (R : World W) (cfg : Config) (c : Call) (p : TargetPath)
    (hc : asks p c) (s : St W) (hsn : s.tuf.snapshot ≠ none) (d : TargetDescription)
    (htop : TopEntry cfg s.tuf p d) :
    (exec E D R cfg c s).2.tuf = s.tuf ∧
    ∃ l, (exec E D R cfg c s).2.io.log = s.io.log ++ l ∧ HandsOver (FileOf s.tuf.root d p) c l ∧
      ∀ r, (exec E D R cfg c s).1 = .ok r →
        match c with
        | .update => False
        | .fetchTargetDescription _ => r = .description d ∧ (exec E D R cfg c s).2 = s
        | .fetchTarget _ => .storeTarget p ∈ l
        | .fetchTargetToWriter _ => l ≠ [] := by
  have hrd := reader_log (E := E) (D := D) (R := R) htop hsn
  cases c with
  | update => exact hc.elim
  | fetchTargetDescription q =>
    cases hc
    have : exec E D R cfg (.fetchTargetDescription p) s = (.ok (.description d), s) := by
      show M.bind _ _ s = _
      simp only [M.bind, topEntry_description E D cfg htop hsn R]
      rfl
    rw [this]
    exact ⟨rfl, [], by simp, rfl, by rintro r ⟨⟩; exact ⟨rfl, rfl⟩⟩
  | fetchTarget q =>
    cases hc
    rcases h : fetchTargetReader E D R cfg p s with ⟨r, s'⟩
    rw [h] at hrd
    cases r with
    | error e =>
      have : exec E D R cfg (.fetchTarget p) s = (.error e, s') := by
        show M.bind (M.bind _ _) _ s = _
        simp only [M.bind, h]
      rw [this]
      refine ⟨hrd.1, ?_⟩
      rcases hrd.2 with h2 | ⟨n, hn, h2⟩
      · exact ⟨[], by rw [h2]; simp, .inl rfl, by rintro r ⟨⟩⟩
      · exact ⟨_, h2, .inr ⟨n, hn, .inl rfl⟩, by rintro r ⟨⟩⟩
    | ok stream =>
      obtain ⟨h1, n, hn, h2⟩ := hrd
      have e1 : (exec E D R cfg (.fetchTarget p) s).2 =
          ⟨s'.tuf, ⟨(R.storeTarget stream p s'.io.w).2, s'.io.log ++ [.storeTarget p]⟩⟩ := by
        show (M.bind (M.bind _ _) _ s).2 = _
        simp only [M.bind, h, lift, storeTarget, Bind.bind, Io.note, Io.call]
        rcases hq : R.storeTarget stream p s'.io.w with ⟨r, w'⟩
        have hq' : R.4 stream p s'.io.w = (r, w') := hq
        simp only [hq']
        cases r <;> rfl
      rw [e1]
      exact ⟨h1, [.fetchTarget n, .storeTarget p], by show s'.io.log ++ _ = _; rw [h2]; simp,
        .inr ⟨n, hn, .inr rfl⟩, fun _ _ => by simp⟩
  | fetchTargetToWriter q =>
    cases hc
    rcases h : fetchTargetReader E D R cfg p s with ⟨r, s'⟩
    rw [h] at hrd
    cases r with
    | error e =>
      have : exec E D R cfg (.fetchTargetToWriter p) s = (.error e, s') := by
        show M.bind (M.bind _ _) _ s = _
        simp only [M.bind, h]
      rw [this]
      refine ⟨hrd.1, ?_⟩
      rcases hrd.2 with h2 | ⟨n, hn, h2⟩
      · exact ⟨[], by rw [h2]; simp, .inl rfl, by rintro r ⟨⟩⟩
      · exact ⟨_, h2, .inr ⟨n, [], hn, rfl⟩, by rintro r ⟨⟩⟩
    | ok stream =>
      obtain ⟨h1, n, hn, h2⟩ := hrd
      obtain ⟨cs, h3⟩ := copy_log (R := R) stream s'.io
      have e1 : (exec E D R cfg (.fetchTargetToWriter p) s).2 = ⟨s'.tuf, (copyToWriter R stream s'.io).2⟩ := by
        show (M.bind (M.bind _ _) _ s).2 = _
        simp only [M.bind, h, lift]
        rcases copyToWriter R stream s'.io with ⟨r, io'⟩
        cases r <;> rfl
      rw [e1]
      exact ⟨h1, .fetchTarget n :: cs.map .wrote, by show (copyToWriter R stream s'.io).2.log = _; rw [h3, h2]; simp,
        .inr ⟨n, cs, hn, rfl⟩, fun _ _ => by simp⟩

/-- As long as no snapshot is trusted, a call for a target fails and does nothing. -/
theorem C120_without_snapshot (E : Env) (D : Digest) (R : World W) (cfg : Config) (c : Call) (p : TargetPath)
    (hc : asks p c) (s : St W) (hsn : s.tuf.snapshot = none) : ∃ e, exec E D R cfg c s = (.error e, s) := by
  have : ∃ e, fetchTargetDescription E D R cfg p s = (.error e, s) := by
    rw [missing_description E D cfg hsn R]
    split <;> exact ⟨_, rfl⟩
  obtain ⟨e, h⟩ := this
  refine ⟨e, ?_⟩
  cases c with
  | update => exact hc.elim
  | fetchTargetDescription q =>
    cases hc
    show M.bind _ _ s = _
    simp only [M.bind, h]
  | fetchTarget q =>
    cases hc
    show M.bind (M.bind (M.bind _ _) _) _ s = _
    simp only [M.bind, h]
  | fetchTargetToWriter q =>
    cases hc
    show M.bind (M.bind (M.bind _ _) _) _ s = _
    simp only [M.bind, h]

end Effects

/-! ### Examples -/

namespace Effects

/-- A client that has updated itself. -/
def client : St Toy.Disk := (exec Toy.env Toy.digest Toy.remoteRepo Toy.config .update Toy.client0).2

theorem client_reachable : Reachable Toy.env client.tuf := by
  have h := (update_reachable (E := Toy.env) (D := Toy.digest) (R := Toy.remoteRepo) Toy.config).run
    (s := Toy.client0) ⟨_, [], .inr ⟨[1], by decide +kernel⟩, rfl⟩
  have e : client = (update Toy.env Toy.digest Toy.remoteRepo Toy.config Toy.client0).2 := by
    unfold client exec
    show (M.bind _ _ _).2 = _
    unfold M.bind
    rcases update Toy.env Toy.digest Toy.remoteRepo Toy.config Toy.client0 with ⟨r, s⟩
    cases r <;> rfl
  rw [e]
  exact h

/-- A listed target; the two steps of its download. -/
example : client.tuf.snapshot ≠ none ∧ TopEntry Toy.config client.tuf "x".toList (Toy.target 1) ∧
    (exec Toy.env Toy.digest Toy.remoteRepo Toy.config (.fetchTarget "x".toList) client).1 = .ok .done ∧
    (exec Toy.env Toy.digest Toy.remoteRepo Toy.config (.fetchTarget "x".toList) client).2.io.log.length =
      client.io.log.length + 2 :=
  ⟨by decide +kernel, ⟨"x".toList, Toy.topTargets, by decide +kernel, by decide +kernel, by decide +kernel⟩,
    by decide +kernel, by decide +kernel⟩

/-- A target that is not listed, for which the metadata of a role are fetched, verified and stored. -/
example : (∀ d, ¬ TopEntry Toy.config client.tuf "q/z".toList d) ∧ Reachable Toy.env client.tuf ∧
    (exec Toy.env Toy.digest Toy.remoteRepo Toy.config (.fetchTarget "q/z".toList) client).2.io.w.metas.length =
      client.io.w.metas.length + 1 := by
  refine ⟨fun d hd => ?_, client_reachable, by decide +kernel⟩
  obtain ⟨s', h⟩ := (C35_top_level_targets_found_partial Toy.env Toy.digest Toy.remoteRepo Toy.config
    "q/z".toList client d).2 ⟨by decide +kernel, hd⟩
  have h1 : (exec Toy.env Toy.digest Toy.remoteRepo Toy.config (.fetchTargetDescription "q/z".toList)
    client).1 = .error .notFound := by decide +kernel
  rw [h] at h1
  cases h1

/-- A client without a snapshot. -/
example : Toy.client0.tuf.snapshot = none := rfl

end Effects

end RustTuf.Props
