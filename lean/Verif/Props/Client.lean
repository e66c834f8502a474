import Verif.Lemmas.Client
import Verif.Lemmas.Keeps
import Verif.Spec.ClientWorld
import Verif.Props.TufHistory

/-!
# What a client does, for arbitrary repositories, clocks and writers
-/

namespace RustTuf.Props
open Client Spec RustTuf



theorem startsWith_fresh {E : Env} {start : Start} {t : Tuf} (h : StartsWith E start t) :
    Fresh E t := by
  cases start with
  | trustedRoot raw => exact .inr ⟨raw, h⟩
  | trustedLocal => exact .inr h
  | trustedRootKeys v n keys => obtain ⟨raw, h⟩ := h; exact .inl ⟨raw, n, keys, h⟩



variable {W : Type}

/-- What `?` does. -/
theorem bind_ok {σ α β : Type} {m : M σ α} {f : α → M σ β} {s s' : σ} {b : β}
    (h : (m >>= f) s = (.ok b, s')) : ∃ a s1, m s = (.ok a, s1) ∧ f a s1 = (.ok b, s') := by
  change M.bind m f s = _ at h
  unfold M.bind at h
  split at h
  · exact ⟨_, _, by assumption, h⟩
  · cases h

/-- The record of a constructor: entries before there is a trusted root, then a good record. -/
theorem construct_good (E : Env) (D : Digest) (R : World W) (cfg : Config) (start : Start)
    (io io' : Io W) (t : Tuf) (h : construct E D R cfg start io = (.ok t, io')) :
    ∃ t0 L, StartsWith E start t0 ∧ Tr E D cfg t0 L (⟨t, io'⟩ : St W) := by
  have fin : ∀ (t0 : Tuf) (io1 : Io W), Client.new E D R cfg t0 io1 = (.ok t, io') →
      Tr E D cfg t0 io1.log (⟨t, io'⟩ : St W) := fun t0 io1 h =>
    new_tr t0 io1 ⟨[], by simp, Good.nil, rfl⟩ t io' h
  cases start with
  | trustedRoot raw =>
    obtain ⟨t0, io1, h1, h2⟩ := bind_ok h
    cases hf : Tuf.fromTrustedRoot E raw with
    | error e => rw [hf] at h1; cases h1
    | ok x => rw [hf] at h1; cases h1; exact ⟨t0, _, hf, fin _ _ h2⟩
  | trustedLocal =>
    obtain ⟨raw, io1, _, h2⟩ := bind_ok h
    obtain ⟨t0, io2, h1, h2⟩ := bind_ok h2
    cases hf : Tuf.fromTrustedRoot E raw with
    | error e => rw [hf] at h1; cases h1
    | ok x => rw [hf] at h1; cases h1; exact ⟨t0, _, ⟨raw, hf⟩, fin _ _ h2⟩
  | trustedRootKeys v n keys =>
    obtain ⟨⟨fetched, raw⟩, io1, _, h2⟩ := bind_ok h
    obtain ⟨t0, io2, h1, h2⟩ := bind_ok h2
    obtain ⟨_, io3, _, h3⟩ := bind_ok h2
    cases hf : Tuf.fromRootWithTrustedKeys E raw n keys with
    | error e => rw [hf] at h1; cases h1
    | ok x => rw [hf] at h1; cases h1; exact ⟨t0, _, ⟨raw, hf⟩, fin _ _ h3⟩

/-! ### C28 -/

/-- **C28.** Whatever the repositories, the clock and the writer do: the trusted metadata of a client
after construction and any calls is the result of verified update calls on a store created from the
initial root. -/
theorem C28_client_refines_tuf (E : Env) (D : Digest) (R : World W) (cfg : Config) (start : Start)
    (io io' : Io W) (t : Tuf) (h : construct E D R cfg start io = (.ok t, io'))
    (calls : List Call) :
    ∃ t0 ops, StartsWith E start t0 ∧ (execAll E D R cfg ⟨t, io'⟩ calls).tuf = Tuf.run E t0 ops := by
  obtain ⟨t0, L, h0, h1⟩ := construct_good E D R cfg start io io' t h
  obtain ⟨l, _, _, h2⟩ := execAll_tr (R := R) calls _ h1
  exact ⟨t0, opsOf l, h0, h2⟩

/-- **C28.** So the trusted root is always linked to the initial root by a chain of roots, each
signed by its predecessor and by itself. -/
theorem C28_client_root_chain (E : Env) (D : Digest) (R : World W) (cfg : Config) (start : Start)
    (io io' : Io W) (t : Tuf) (h : construct E D R cfg start io = (.ok t, io'))
    (calls : List Call) :
    ∃ t0, StartsWith E start t0 ∧ RootChain E t0.root (execAll E D R cfg ⟨t, io'⟩ calls).tuf.root := by
  obtain ⟨t0, ops, h0, h1⟩ := C28_client_refines_tuf E D R cfg start io io' t h calls
  exact ⟨t0, h0, by rw [h1]; exact C09_root_chain E t0 ops⟩

/-- **C28.** And the pieces of trusted metadata always agree with each other. -/
theorem C28_client_consistent (E : Env) (hE : Decoders E) (D : Digest) (R : World W) (cfg : Config)
    (start : Start) (io io' : Io W) (t : Tuf) (h : construct E D R cfg start io = (.ok t, io'))
    (calls : List Call) : Consistent (execAll E D R cfg ⟨t, io'⟩ calls).tuf := by
  obtain ⟨t0, ops, h0, h1⟩ := C28_client_refines_tuf E D R cfg start io io' t h calls
  rw [h1]
  exact C14_consistent E hE t0 (startsWith_fresh h0) ops

/-- A client that is constructed, updates itself to root 2 and the rest, and finds a target. -/
example : (construct Toy.env Toy.digest Toy.remoteRepo Toy.config (.trustedRoot [1])
      ⟨Toy.Disk.empty, []⟩).1 = .ok Toy.boot ∧
    (execAll Toy.env Toy.digest Toy.remoteRepo Toy.config Toy.client0 [.update, .fetchTarget "x".toList]).tuf =
      ⟨Toy.root 2 1000, Toy.full.snapshot, Toy.full.targets, Toy.full.timestamp, []⟩ ∧
    (execAll Toy.env Toy.digest Toy.remoteRepo Toy.config Toy.client0
      [.update, .fetchTarget "x".toList]).io.w.targets = [("x".toList, [9])] := by decide +kernel

/-! ### C30 -/

/-- **C30.** In the course of any client calls, every document written to the local repository was
accepted by verification in the update call right before (only other writes of the same document may
come in between), and is written under the path of its own role: unversioned, and a root also under
its own version. -/
theorem C30_only_verified_is_stored (E : Env) (D : Digest) (R : World W) (cfg : Config) (s : St W)
    (calls : List Call) :
    ∃ l, (execAll E D R cfg s calls).io.log = s.io.log ++ l ∧
      ∀ pre p v raw post, l = pre ++ .store p v raw :: post →
        ∃ (k : Kind) (o : Tuf.Op) (out : Tuf.Outcome) (pre' mid : List LogEntry),
          pre = pre' ++ .op o out :: mid ∧ (∀ e ∈ mid, ∃ v', e = .store p v' raw) ∧
          (Tuf.step E (after E s.tuf pre') o).1 = out ∧
          Submits o k raw ∧ k.path = p ∧ Accepted o out ∧ StoredAs (after E s.tuf pre) k v := by
  have h0 : Tr E D cfg s.tuf s.io.log s := ⟨[], by simp, Good.nil, rfl⟩
  obtain ⟨l, h1, h2, _⟩ := execAll_tr (R := R) calls s h0
  refine ⟨l, h1, ?_⟩
  intro pre p v raw post hl
  obtain ⟨k, o, out, pre', mid, e1, e2, e3, e4, e5, e6⟩ := h2 pre _ post hl
  refine ⟨k, o, out, pre', mid, e1, e2, ?_, e3, e4, e5, e6⟩
  exact (h2 pre' (.op o out) (mid ++ .store p v raw :: post) (by rw [hl, e1]; simp)).1

/-- The record has grown by entries satisfying `P`. -/
def Grown (P : LogEntry → Prop) (L : List LogEntry) (log : List LogEntry) : Prop :=
  ∃ l, log = L ++ l ∧ ∀ e ∈ l, P e

theorem Grown.refl (P : LogEntry → Prop) (L : List LogEntry) : Grown P L L := ⟨[], by simp, by simp⟩

theorem Grown.snoc {P : LogEntry → Prop} {L log : List LogEntry} {e : LogEntry} (h : Grown P L log)
    (he : P e) : Grown P L (log ++ [e]) := by
  obtain ⟨l, rfl, h2⟩ := h
  refine ⟨l ++ [e], by simp, ?_⟩
  intro x hx
  rcases List.mem_append.1 hx with hx | hx
  · exact h2 x hx
  · rw [List.mem_singleton.1 hx]; exact he

theorem Grown.trans {P : LogEntry → Prop} {A B C : List LogEntry} (h : Grown P A B)
    (h' : Grown P B C) : Grown P A C := by
  obtain ⟨l, rfl, h2⟩ := h
  obtain ⟨l', rfl, h3⟩ := h'
  refine ⟨l ++ l', by simp, ?_⟩
  intro x hx
  rcases List.mem_append.1 hx with hx | hx
  · exact h2 x hx
  · exact h3 x hx

theorem Grown.mono {P Q : LogEntry → Prop} {A B : List LogEntry} (h : Grown P A B)
    (hPQ : ∀ e, P e → Q e) : Grown Q A B := by
  obtain ⟨l, rfl, h2⟩ := h
  exact ⟨l, rfl, fun e he => hPQ e (h2 e he)⟩

/-- Not a write of metadata. -/
def NoStore (e : LogEntry) : Prop := ∀ p v raw, e ≠ .store p v raw

theorem fetchMetadata_grown (D : Digest) (R : World W) (src : Source) (role : Role)
    (path : MetadataPath) (ver : MetadataVersion) (max : Option Nat) (hash : HashData)
    (P : LogEntry → Prop) (h1 : P (.fetch src path ver max hash))
    (h2 : ∀ raw, Fits D raw max hash → P (.got src path raw))
    (L : List LogEntry) :
    Keeps (fun s : Io W => Grown P L s.log) (fetchMetadata D R src role path ver max hash) := by
  refine Tri.fix fun s0 hs0 => ?_
  refine (fetchMetadata_log (D := D) (R := R) src role path ver max hash s0.log).conseq
    (by rintro s rfl; rfl) ?_ ?_
  · rintro raw s ⟨_, hf, e⟩
    have := (Grown.snoc hs0 h1).snoc (h2 raw hf)
    rw [e]; simpa using this
  · rintro _ s (e | e)
    · rw [e]; exact hs0
    · rw [e]; exact hs0.snoc h1

theorem lift_keeps {α : Type} {m : M (Io W) α} {I : Io W → Prop} (h : Keeps I m) :
    Keeps (fun s : St W => I s.io) (lift m) := by
  intro s hs
  have := h s.io hs
  unfold lift
  cases hm : m s.io with
  | mk r io' => rw [hm] at this; cases r <;> exact this

theorem loadLocal_noStore (E : Env) (D : Digest) (R : World W) (cfg : Config) (L : List LogEntry) :
    Keeps (fun s : St W => Grown NoStore L s.io.log) (loadLocal E D R cfg) := by
  have prims : Prims E D R (fun s : St W => Grown NoStore L s.io.log) (fun _ => True) False TopOp := by
    refine ⟨?_, False.elim, ?_, ?_⟩
    · intro src _ role p v mx h
      exact lift_keeps (fetchMetadata_grown D R src role p v mx h NoStore (by simp [NoStore])
        (by simp [NoStore]) L)
    · exact Tri.getClock fun s hs => hs
    · intro o _
      refine Tri.updateTuf fun s out t' hs _ => ?_
      have := Grown.snoc (e := .op o out) hs (by simp [NoStore])
      cases out <;> exact this
  exact prims.loadLocal trivial

theorem new_noStore (E : Env) (D : Digest) (R : World W) (cfg : Config) (t : Tuf) (L : List LogEntry) :
    Keeps (fun s : Io W => Grown NoStore L s.log) (Client.new E D R cfg t) := by
  intro io hio
  have h := (loadLocal_noStore E D R cfg L).run (s := ⟨t, io⟩) hio
  have key : (Client.new E D R cfg t io).2 = (loadLocal E D R cfg ⟨t, io⟩).2.io := by
    unfold Client.new
    split <;> simp_all
  rw [← key] at h
  cases hn : Client.new E D R cfg t io with
  | mk r io' => rw [hn] at h; cases r <;> exact h

/-- **C30.** A constructor writes nothing but the root it has verified with the given keys, under
its own version. -/
theorem C30_constructors (E : Env) (D : Digest) (R : World W) (cfg : Config) (start : Start)
    (io io' : Io W) (r : Except Err Tuf) (h : construct E D R cfg start io = (r, io')) :
    ∃ l, io'.log = io.log ++ l ∧ ∀ p v raw, .store p v raw ∈ l →
      ∃ ver n keys t0, start = .trustedRootKeys ver n keys ∧ p = "root".toList ∧
        Tuf.fromRootWithTrustedKeys E raw n keys = .ok t0 ∧ v = .number t0.root.version := by
  let P : LogEntry → Prop := fun e => ∀ p v raw, e = .store p v raw →
      ∃ ver n keys t0, start = .trustedRootKeys ver n keys ∧ p = "root".toList ∧
        Tuf.fromRootWithTrustedKeys E raw n keys = .ok t0 ∧ v = .number t0.root.version
  suffices hh : Grown P io.log io'.log by
    obtain ⟨l, h1, h2⟩ := hh
    exact ⟨l, h1, fun p v raw hm => h2 _ hm p v raw rfl⟩
  have hno : ∀ e, NoStore e → P e := fun e he p v raw hx => absurd hx (he p v raw)
  let I : Io W → Prop := fun s => Grown P io.log s.log
  have hfetch : ∀ src ver, Keeps I (fetchMetadata D R src .root (MetadataPath.fromRole .root) ver
      cfg.maxRootLength none) := fun src ver =>
    fetchMetadata_grown D R src .root _ ver _ none P (hno _ (by simp [NoStore]))
      (fun raw _ => hno _ (by simp [NoStore])) io.log
  have hnew : ∀ t, Keeps I (Client.new E D R cfg t) := by
    intro t
    refine Tri.fix fun s0 hs0 => ?_
    have h1 := new_noStore E D R cfg t s0.log
    refine Tri.conseq h1 (by rintro s rfl; exact Grown.refl _ _) ?_ ?_ <;>
      exact fun _ s hs => Grown.trans hs0 (Grown.mono hs hno)
  have hk : Keeps I (construct E D R cfg start) := by
    cases start with
    | trustedRoot raw => exact (Keeps.ofExcept _).bind hnew
    | trustedLocal => exact (hfetch _ _).bind fun raw => (Keeps.ofExcept _).bind hnew
    | trustedRootKeys ver n keys =>
      refine Keeps.bind (m := fetchLocalOrRemote D R .root (MetadataPath.fromRole .root) ver
        cfg.maxRootLength none) ?_ fun x => ?_
      · refine (Keeps.attempt (hfetch _ _)).bind fun x => ?_
        cases x with
        | ok raw => exact Keeps.ret _
        | error e =>
          cases e <;> first
            | exact Keeps.fail _
            | exact (hfetch _ _).bind fun raw => Keeps.ret _
      · obtain ⟨fetched, raw⟩ := x
        refine Tri.bind (Q := fun t s => Tuf.fromRootWithTrustedKeys E raw n keys = .ok t ∧ I s)
          (Tri.ofExcept (fun _ _ h1 h2 => ⟨h1, h2⟩) (fun _ _ _ h2 => h2)) fun t0 =>
          Tri.assume fun ht0 => ?_
        refine Keeps.bind (Keeps.when fun _ => ?_) fun _ => hnew t0
        refine Tri.fix fun s0 hs0 => ?_
        have hP : P (.store (MetadataPath.fromRole .root) (.number t0.root.version) raw) := by
          intro p v raw' hx
          cases hx
          exact ⟨ver, n, keys, t0, rfl, rfl, ht0, rfl⟩
        refine (storeMetadata_log (R := R) .root _ (.number t0.root.version) raw s0.log).conseq
          (by rintro s rfl; rfl) ?_ ?_
        · intro _ s hs
          show Grown P io.log s.log
          rw [hs]; exact Grown.snoc hs0 hP
        · rintro _ s (hs | hs)
          · show Grown P io.log s.log
            rw [hs]; exact hs0
          · show Grown P io.log s.log
            rw [hs]; exact Grown.snoc hs0 hP
  have := hk.run (s := io) (Grown.refl _ _)
  rw [h] at this
  exact this

/-- Two updates from the toy repository: the five writes they make, in order. -/
example : ((execAll Toy.env Toy.digest Toy.remoteRepo Toy.config Toy.client0 [.update, .update]).io.w).metas.map
    Prod.fst = [("targets".toList, .none), ("snapshot".toList, .none), ("timestamp".toList, .none),
      ("root".toList, .number 2), ("root".toList, .none)] := by decide +kernel

/-! ### C65 -/

/-- **C65.** In the course of any client calls: each request is one the trusted metadata of that
moment asks for, with its file version, length limit and digest; what comes out of a request respects
that limit and digest; and only such a document, directly after its download, is submitted to
verification. -/
theorem C65_requests_limited (E : Env) (D : Digest) (R : World W) (cfg : Config) (s : St W)
    (calls : List Call) :
    ∃ l, (execAll E D R cfg s calls).io.log = s.io.log ++ l ∧
      (∀ pre src p v m h post, l = pre ++ .fetch src p v m h :: post →
        ∃ k : Kind, k.path = p ∧ Request cfg (after E s.tuf pre) k src v m h) ∧
      (∀ pre o out post, l = pre ++ .op o out :: post →
        ∃ (k : Kind) (raw : Bytes) (pre' : List LogEntry) (src : Source) (v : MetadataVersion)
          (m : Option Nat) (h : HashData), Submits o k raw ∧
          pre = pre' ++ [.fetch src k.path v m h, .got src k.path raw] ∧
          Request cfg (after E s.tuf pre') k src v m h ∧ Fits D raw m h) := by
  have h0 : Tr E D cfg s.tuf s.io.log s := ⟨[], by simp, Good.nil, rfl⟩
  obtain ⟨l, h1, h2, _⟩ := execAll_tr (R := R) calls s h0
  refine ⟨l, h1, fun pre src p v m h post hl => h2 pre _ post hl, ?_⟩
  intro pre o out post hl
  obtain ⟨_, k, raw, pre', src, v, m, h, e1, e2, e3⟩ := h2 pre _ post hl
  refine ⟨k, raw, pre', src, v, m, h, e1, e2, ?_, ?_⟩
  · rw [e2, after_got] at e3; exact e3
  · obtain ⟨pre'', v', m', h', e4, e5⟩ := h2 (pre' ++ [.fetch src k.path v m h]) (.got src k.path raw)
      (.op o out :: post) (by rw [hl, e2]; simp)
    have := List.append_inj' e4 (by simp)
    obtain ⟨_, e6⟩ := this
    cases e6
    exact e5

/-- The same for constructors, once the initial root is accepted. -/
theorem C65_constructors (E : Env) (D : Digest) (R : World W) (cfg : Config) (start : Start)
    (io io' : Io W) (t : Tuf) (h : construct E D R cfg start io = (.ok t, io')) :
    ∃ t0 L l, StartsWith E start t0 ∧ io'.log = L ++ l ∧ Good E D cfg t0 l := by
  obtain ⟨t0, L, h0, l, h1, h2, _⟩ := construct_good E D R cfg start io io' t h
  exact ⟨t0, L, l, h0, h1, h2⟩

/-- A request, for examples. -/
structure Req where
  src : Source
  path : MetadataPath
  ver : MetadataVersion
  max : Option Nat
  hash : HashData
deriving DecidableEq

/-- Requests of a run, for examples. -/
def requests : List LogEntry → List Req
  | [] => []
  | .fetch src p v m h :: l => ⟨src, p, v, m, h⟩ :: requests l
  | _ :: l => requests l

/-- The requests of an update from root 1 in the toy repository. -/
example : requests (execAll Toy.env Toy.digest Toy.remoteRepo Toy.config Toy.client0 [.update]).io.log =
    [⟨.remote, "root".toList, .number 2, some 1048576, none⟩,
     ⟨.remote, "root".toList, .number 3, some 1048576, none⟩,
     ⟨.remote, "timestamp".toList, .none, some 32768, none⟩,
     ⟨.remote, "snapshot".toList, .none, some 10, some (.sha256, [1, 2, 3])⟩,
     ⟨.remote, "targets".toList, .none, some 10, some (.sha256, [1, 2, 3])⟩] := by decide +kernel

/-! ### C67 -/

/-- **C67 is false for the code**: a client asked to start from root version 1 with pinned keys starts
from version 2 if the repository serves that under the name of version 1. -/
theorem C67_requested_version_ignored :
    ∃ (E : Env) (D : Digest) (R : World Toy.Disk) (cfg : Config) (v n : Nat) (keys : List PublicKey)
      (t : Tuf), (construct E D R cfg (.trustedRootKeys (.number v) n keys)
        ⟨Toy.Disk.empty, []⟩).1 = .ok t ∧ Spec.Decoders E ∧ t.root.version ≠ v :=
  ⟨Toy.env, Toy.digest, Toy.repos (Toy.files [("root", some 1, 2)]) [] 100, Toy.config, 1, 1,
    [Toy.key "k".toList 7], ⟨Toy.root 2 1000, none, none, none, []⟩, by decide +kernel,
    Toy.env_decoders, by decide +kernel⟩

/-- **C67 (partial).** The client starts from the root in the document served under the requested
name, signed by a threshold of the pinned keys; so the version is right if repositories serve only
roots of version `v` under that name. Missing: a check of the version by the code. -/
theorem C67_requested_version_partial (E : Env) (D : Digest) (R : World W) (cfg : Config)
    (v : MetadataVersion) (n : Nat) (keys : List PublicKey) (io io' : Io W) (t : Tuf)
    (h : construct E D R cfg (.trustedRootKeys v n keys) io = (.ok t, io')) :
    ∃ t0 src raw io1 io2, fetchMetadata D R src .root "root".toList v cfg.maxRootLength none io1 =
        (.ok raw, io2) ∧
      Tuf.fromRootWithTrustedKeys E raw n keys = .ok t0 ∧ RootChain E t0.root t.root := by
  obtain ⟨⟨fetched, raw⟩, io1, h1, h2⟩ := bind_ok h
  obtain ⟨t0, io2, h3, h4⟩ := bind_ok h2
  obtain ⟨_, io3, _, h5⟩ := bind_ok h4
  cases hf : Tuf.fromRootWithTrustedKeys E raw n keys with
  | error e => rw [hf] at h3; cases h3
  | ok x =>
    rw [hf] at h3; cases h3
    have htr : Tr E D cfg t0 io3.log (⟨t, io'⟩ : St W) :=
      new_tr t0 io3 ⟨[], by simp, Good.nil, rfl⟩ t io' h5
    obtain ⟨l, _, _, ht⟩ := htr
    have hchain : RootChain E t0.root t.root := by
      have := C09_root_chain E t0 (opsOf l)
      rw [show t = Tuf.run E t0 (opsOf l) from ht]; exact this
    obtain ⟨r, ioa, ha, hb⟩ := bind_ok h1
    have hat : ∃ ra, fetchMetadata D R .cache .root (MetadataPath.fromRole .root) v cfg.maxRootLength
        none io = (ra, ioa) ∧ r = ra := ⟨r, (M.attempt_inv ha).1, rfl⟩
    obtain ⟨ra, hra, rfl⟩ := hat
    cases r with
    | ok raw' => cases hb; exact ⟨t0, .cache, raw, io, _, hra, hf, hchain⟩
    | error e =>
      cases e with
      | notFound =>
        obtain ⟨raw', iob, hc, hd⟩ := bind_ok hb
        cases hd
        exact ⟨t0, .remote, raw, ioa, _, hc, hf, hchain⟩
      | _ => cases hb

end RustTuf.Props
