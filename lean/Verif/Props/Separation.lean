import Verif.Props.Client

/-!
# C89: Who is asked when
Starting a client needs and believes the local repository only; updating it needs and believes the
remote repository only. Stated as: another remote (or local) repository makes no difference at all.
-/

namespace RustTuf.Props
open RustTuf RustTuf.Client RustTuf.Spec

section
variable {W : Type} (E : Env) (D : Digest) (R : World W) (cfg : Config)

theorem fetch_other_remote (p : Provider W) (role : Role) (path : MetadataPath) (ver : MetadataVersion)
    (max : Option Nat) (hash : HashData) :
    fetchMetadata D { R with remote := p } .cache role path ver max hash =
      fetchMetadata D R .cache role path ver max hash := rfl

theorem fetch_other_cache (p : Provider W) (role : Role) (path : MetadataPath) (ver : MetadataVersion)
    (max : Option Nat) (hash : HashData) :
    fetchMetadata D { R with cache := p } .remote role path ver max hash =
      fetchMetadata D R .remote role path ver max hash := rfl

theorem rootLoop_other_remote (p : Provider W) (persist : Bool) (fuel : Nat) (u : Bool) :
    rootLoop E D { R with remote := p } cfg .cache persist fuel u =
      rootLoop E D R cfg .cache persist fuel u := by
  induction fuel generalizing u with
  | zero => rfl
  | succ n ih =>
    unfold rootLoop
    simp only [fetch_other_remote, ih]
    rfl

theorem rootLoop_other_cache (p : Provider W) (persist : Bool) (fuel : Nat) (u : Bool) :
    rootLoop E D { R with cache := p } cfg .remote persist fuel u =
      rootLoop E D R cfg .remote persist fuel u := by
  induction fuel generalizing u with
  | zero => rfl
  | succ n ih =>
    unfold rootLoop
    simp only [fetch_other_cache, ih]
    rfl

theorem loadLocal_other_remote (p : Provider W) :
    loadLocal E D { R with remote := p } cfg = loadLocal E D R cfg := by
  unfold loadLocal updateRootWithRepos
  rw [rootLoop_other_remote]
  rfl

theorem new_other_remote (p : Provider W) :
    Client.new E D { R with remote := p } cfg = Client.new E D R cfg := by
  funext t io
  unfold Client.new
  rw [loadLocal_other_remote]

/-- **C89.** A client that is constructed from a given root or from local metadata does not use the remote
repository: with any other remote repository the result, everything stored and every request is the
same. -/
theorem C89_start_ignores_remote (start : Start) (hs : ∀ v n keys, start ≠ .trustedRootKeys v n keys)
    (p : Provider W) : construct E D { R with remote := p } cfg start = construct E D R cfg start := by
  cases start with
  | trustedRoot raw => unfold construct withTrustedRoot; rw [new_other_remote]
  | trustedLocal => unfold construct withTrustedLocal; rw [new_other_remote, fetch_other_remote]
  | trustedRootKeys v n keys => exact absurd rfl (hs v n keys)

/-- What the local repository answers when asked for the root of this version. -/
abbrev localRoot (v : MetadataVersion) (io : Io W) : Except Err Bytes :=
  (fetchMetadata D R .cache .root (MetadataPath.fromRole .root) v cfg.maxRootLength none io).1

theorem keys_local (v : MetadataVersion) (n : Nat) (keys : List PublicKey) (io io1 : Io W) (raw : Bytes)
    (h : fetchMetadata D R .cache .root (MetadataPath.fromRole .root) v cfg.maxRootLength none io =
      (.ok raw, io1)) :
    construct E D R cfg (.trustedRootKeys v n keys) io =
      M.bind (M.ofExcept (Tuf.fromRootWithTrustedKeys E raw n keys)) (Client.new E D R cfg) io1 := by
  simp only [construct, withTrustedRootKeys, fetchLocalOrRemote, bind, M.bind, M.attempt, h]
  rfl

theorem keys_error (v : MetadataVersion) (n : Nat) (keys : List PublicKey) (io io1 : Io W) (x : Err)
    (h : fetchMetadata D R .cache .root (MetadataPath.fromRole .root) v cfg.maxRootLength none io =
      (.error x, io1)) (hx : x ≠ .notFound) :
    construct E D R cfg (.trustedRootKeys v n keys) io = (.error x, io1) := by
  simp only [construct, withTrustedRootKeys, fetchLocalOrRemote, bind, M.bind, M.attempt, h]
  cases x <;> first | rfl | exact absurd rfl hx

/-- **C89.** A client that is constructed from keys uses the remote repository only if the local
repository says that it has no such root: otherwise any other remote repository makes no difference, and
nothing is stored. -/
theorem C89_keys_start_prefers_local (v : MetadataVersion) (n : Nat) (keys : List PublicKey) (io : Io W)
    (hl : localRoot D R cfg v io ≠ .error .notFound) (p : Provider W) :
    construct E D { R with remote := p } cfg (.trustedRootKeys v n keys) io =
      construct E D R cfg (.trustedRootKeys v n keys) io ∧
    ∃ l, (construct E D R cfg (.trustedRootKeys v n keys) io).2.log = io.log ++ l ∧
      ∀ q ver raw, .store q ver raw ∉ l := by
  have hno := fetchMetadata_grown D R .cache .root (MetadataPath.fromRole .root) v cfg.maxRootLength none
    NoStore (by simp [NoStore]) (fun raw _ => by simp [NoStore]) io.log
  have hno := hno.run (s := io) (Grown.refl _ _)
  cases hf : fetchMetadata D R .cache .root (MetadataPath.fromRole .root) v cfg.maxRootLength none io with
  | mk r io1 =>
    rw [localRoot, hf] at hl
    rw [hf] at hno
    have hf' : fetchMetadata D { R with remote := p } .cache .root (MetadataPath.fromRole .root) v
        cfg.maxRootLength none io = (r, io1) := hf
    cases r with
    | error x =>
      have hx : x ≠ .notFound := fun e => hl (by rw [e])
      rw [keys_error E D R cfg v n keys io io1 x hf hx, keys_error E D _ cfg v n keys io io1 x hf' hx]
      obtain ⟨l, h1, h2⟩ := hno
      exact ⟨rfl, l, h1, fun q ver raw hm => h2 _ hm q ver raw rfl⟩
    | ok raw =>
      rw [keys_local E D R cfg v n keys io io1 raw hf, keys_local E D _ cfg v n keys io io1 raw hf',
        new_other_remote]
      refine ⟨rfl, ?_⟩
      obtain ⟨l, h1, h2⟩ : Grown NoStore io.log (M.bind (M.ofExcept (Tuf.fromRootWithTrustedKeys E raw n keys))
          (Client.new E D R cfg) io1).2.log := by
        cases Tuf.fromRootWithTrustedKeys E raw n keys with
        | error x => exact hno
        | ok t => exact Grown.trans hno ((new_noStore E D R cfg t io1.log).run (Grown.refl _ _))
      exact ⟨l, h1, fun q ver raw hm => h2 _ hm q ver raw rfl⟩

/-- Trusted metadata that loading local metadata can lead to. -/
theorem new_runs (t0 t : Tuf) (io io' : Io W) (h : Client.new E D R cfg t0 io = (.ok t, io')) :
    ∃ ops, t = Tuf.run E t0 ops := by
  obtain ⟨l, _, _, h2⟩ := new_tr (E := E) (D := D) (R := R) (cfg := cfg) (t0 := t0) (L0 := io.log) t0 io
    ⟨[], by simp, Good.nil, rfl⟩ t io' h
  exact ⟨opsOf l, h2⟩

/-- **C89.** A client that is constructed from local metadata starts with version 1 of the local root. -/
theorem C89_local_start_takes_local_root (t : Tuf) (io io' : Io W)
    (h : construct E D R cfg .trustedLocal io = (.ok t, io')) :
    ∃ raw t0 ops, localRoot D R cfg (.number 1) io = .ok raw ∧ Tuf.fromTrustedRoot E raw = .ok t0 ∧
      t = Tuf.run E t0 ops := by
  obtain ⟨raw, io1, h1, h2⟩ := bind_ok h
  obtain ⟨t0, io2, h3, h4⟩ := bind_ok h2
  cases hf : Tuf.fromTrustedRoot E raw with
  | error e => rw [hf] at h3; cases h3
  | ok x =>
    rw [hf] at h3; cases h3
    obtain ⟨ops, hops⟩ := new_runs E D R cfg _ _ _ _ h4
    exact ⟨raw, t0, ops, by rw [localRoot, h1], hf, hops⟩

/-- **C89.** A client that is constructed from keys starts with the local root of the given version if
there is one; if the local repository says that there is none, with the remote root, which must then be
stored under its version before the client is there. -/
theorem C89_keys_start_takes_root (v : MetadataVersion) (n : Nat) (keys : List PublicKey) (t : Tuf)
    (io io' : Io W) (h : construct E D R cfg (.trustedRootKeys v n keys) io = (.ok t, io')) :
    ∃ raw t0 ops, Tuf.fromRootWithTrustedKeys E raw n keys = .ok t0 ∧ t = Tuf.run E t0 ops ∧
      (localRoot D R cfg v io = .ok raw ∨
        (localRoot D R cfg v io = .error .notFound ∧
          ∃ io1 io2, fetchMetadata D R .remote .root (MetadataPath.fromRole .root) v cfg.maxRootLength none
              io1 = (.ok raw, io2) ∧
            (R.storeMetadata (MetadataPath.fromRole .root) (.number t0.root.version) raw io2.w).1 = .ok () ∧
            .store (MetadataPath.fromRole .root) (.number t0.root.version) raw ∈ io'.log)) := by
  cases hf : fetchMetadata D R .cache .root (MetadataPath.fromRole .root) v cfg.maxRootLength none io with
  | mk r io1 =>
    have hl : localRoot D R cfg v io = r := by rw [localRoot, hf]
    cases r with
    | ok raw =>
      rw [keys_local E D R cfg v n keys io io1 raw hf] at h
      obtain ⟨t0, io2, h3, h4⟩ := bind_ok h
      cases hg : Tuf.fromRootWithTrustedKeys E raw n keys with
      | error e => rw [hg] at h3; cases h3
      | ok x =>
        rw [hg] at h3; cases h3
        obtain ⟨ops, hops⟩ := new_runs E D R cfg _ _ _ _ h4
        exact ⟨raw, t0, ops, hg, hops, .inl hl⟩
    | error x =>
      by_cases hx : x = .notFound
      · subst hx
        cases hr : fetchMetadata D R .remote .root (MetadataPath.fromRole .root) v cfg.maxRootLength none
            io1 with
        | mk r2 io2 =>
          simp only [construct, withTrustedRootKeys, fetchLocalOrRemote, bind, M.bind, M.attempt, hf, hr] at h
          cases r2 with
          | error y => cases h
          | ok raw =>
            simp only [M.pure, pure, M.ofExcept, M.when, if_true] at h
            cases hg : Tuf.fromRootWithTrustedKeys E raw n keys with
            | error e => rw [hg] at h; cases h
            | ok t0 =>
              rw [hg] at h
              dsimp only at h
              cases hst : storeMetadata R .root (MetadataPath.fromRole .root) (.number t0.root.version) raw
                  io2 with
              | mk r3 io3 =>
                rw [hst] at h
                cases r3 with
                | error e => cases h
                | ok u =>
                  obtain ⟨ops, hops⟩ := new_runs E D R cfg _ _ _ _ h
                  have hst' : ((R.storeMetadata (MetadataPath.fromRole .root) (.number t0.root.version) raw
                        io2.w).1, (⟨(R.storeMetadata (MetadataPath.fromRole .root) (.number t0.root.version)
                        raw io2.w).2, io2.log ++ [.store (MetadataPath.fromRole .root)
                        (.number t0.root.version) raw]⟩ : Io W)) = (.ok u, io3) := hst
                  obtain ⟨e1, e2⟩ := Prod.mk.inj hst'
                  obtain ⟨l, g1, -⟩ := (new_noStore E D R cfg t0 io3.log).run (s := io3) (Grown.refl _ _)
                  have h' : Client.new E D R cfg t0 io3 = (.ok t, io') := h
                  rw [h'] at g1
                  refine ⟨raw, t0, ops, hg, hops, .inr ⟨hl, io1, io2, hr, e1, ?_⟩⟩
                  rw [g1, ← e2]
                  simp
      · rw [keys_error E D R cfg v n keys io io1 x hf hx] at h
        cases h

theorem update_other_cache (p : Provider W) : update E D { R with cache := p } cfg = update E D R cfg := by
  unfold update updateRootWithRepos
  rw [rootLoop_other_cache]
  rfl

/-- **C89.** An update does not use what is stored locally: if someone changes or removes local files
while the client runs, the next update does exactly the same. -/
theorem C89_update_ignores_local (p : Provider W) :
    exec E D { R with cache := p } cfg .update = exec E D R cfg .update := by
  simp only [exec, update_other_cache]

end

/-! ### Examples -/

/-- The hypothesis of C89_keys_start_prefers_local. -/
example : localRoot Toy.digest Toy.remoteRepo Toy.config (.number 2)
      (⟨⟨Toy.files [("root", some 2, 99)], [], []⟩, []⟩ : Io Toy.Disk) ≠ .error .notFound := by
  decide +kernel
/-- The hypothesis of C89_keys_start_takes_root; here the root is remote. -/
example : localRoot Toy.digest Toy.remoteRepo Toy.config (.number 2)
      (⟨Toy.Disk.empty, []⟩ : Io Toy.Disk) = .error .notFound ∧
    (construct Toy.env Toy.digest Toy.remoteRepo Toy.config
      (.trustedRootKeys (.number 2) 2 [Toy.key "k".toList 7, Toy.key "d".toList 8]) ⟨Toy.Disk.empty, []⟩).1 =
      .ok ⟨Toy.root 2 1000, none, none, none, []⟩ := by
  decide +kernel

/-- The hypothesis of C89_local_start_takes_local_root. -/
example : (construct Toy.env Toy.digest Toy.remoteRepo Toy.config .trustedLocal
    (⟨⟨Toy.files [("root", some 1, 1)], [], []⟩, []⟩ : Io Toy.Disk)).1 = .ok Toy.boot := by
  decide +kernel

end RustTuf.Props
