import Verif.Lemmas.Sharing
import Verif.Props.Rollback

/-!
# C110: clients that share a local repository
-/

namespace RustTuf.Props
open Client Spec Tuf

variable {W : Type} {E : Env} {D : Digest} {cfg : Config} {R : World W} {file : W → Files}
  {a : RootMetadata} {raw : Bytes}

/-- A client among others, its files and its root. -/
theorem Among.sound {t : Tuf} {io : Io W} (h : Among E D cfg file raw a t io) :
    fromTrustedRoot E raw = .ok (ofRoot a) ∧ Whole E cfg a (file io.w) ∧
      Sound E cfg a file (file io.w) ⟨t, io⟩ := by
  have here : ∀ {F : Files} {t : Tuf} {io : Io W}, Whole E cfg a F → Sound E cfg a file F ⟨t, io⟩ →
      Whole E cfg a (file io.w) ∧ Sound E cfg a file (file io.w) ⟨t, io⟩ :=
    fun hW hs => ⟨hW.others hs.since, .none, hs.chain, hs.has⟩
  induction h with
  | start R F t io io' h0 hF hO hR hc =>
    obtain ⟨r, s, hl, rfl, rfl⟩ := construct_shared h0 hc
    have hs : Sound E cfg a file (file io.w) s := by
      have := (loadLocal_shared (D := D) (F := file io.w) hR).run
        (s := ⟨ofRoot a, io⟩) ⟨.none, .refl a, .inl rfl⟩
      rw [hl] at this; exact this
    exact ⟨h0, here ((whole_of_none hF).others hO) hs⟩
  | call R t t' io io' c r _ hR hw he ih =>
    have hs : Sound E cfg a file (file io.w) ⟨t', io'⟩ := by
      have := exec_shared (D := D) hR c ⟨t, io⟩ ih.2.2
      rw [he] at this
      cases r with
      | ok _ => exact this
      | error _ => exact this.2 hw
    exact ⟨ih.1, here ih.2.1 hs⟩
  | others t io io' _ ho ih =>
    exact ⟨ih.1, here ih.2.1 (ih.2.2.move (s' := ⟨t, io'⟩) rfl ho)⟩

/-- **C110.** No root is lost: clients that started from the same root use one local repository, they
execute calls at the same time, their writes are mixed in any way, some of them see old mirrors, and
some are stopped. A client that is started then trusts the root of each of them, or a root that comes
after it. There must not be two different successors of a root. -/
theorem C110_no_root_is_lost (hno : NoForks E a) (t t' : Tuf) (io io' : Io W)
    (h : Among E D cfg file raw a t io) (hR : Shared R file (Others E cfg a))
    (hc : construct E D R cfg (.trustedRoot raw) io = (.ok t', io')) :
    RootChain E t.root t'.root := by
  obtain ⟨h0, hW, hs⟩ := Among.sound h
  obtain ⟨r, s, hl, rfl, rfl⟩ := construct_shared h0 hc
  have h1 : Sound E cfg a file (file io.w) (⟨ofRoot a, io⟩ : St W) := ⟨.none, .refl a, .inl rfl⟩
  have hchain : RootChain E a s.tuf.root := by
    have := (loadLocal_shared (D := D) hR).run h1
    rw [hl] at this; exact this.chain
  rcases hs.has with e | hn
  · rw [show t.root = a from e]; exact hchain
  have hle : t.root.version ≤ s.tuf.root.version := by
    have := loadLocal_finds (D := D) hR hW hno hn _ h1
    rw [hl] at this
    cases r <;> exact this
  have hb : t.root.version ≤ max a.version 4294967295 := by
    by_cases hv : t.root.version ≤ a.version
    · omega
    · cases hr : file io.w "root".toList (.number t.root.version) with
      | none => exact absurd hr hn
      | some x =>
        obtain ⟨b, c, _, h2, h3, _⟩ := hW.valid _ x (by omega) hr
        have := h2.bound; omega
  obtain ⟨c, c1, c2, c3⟩ := rootChain_through hchain t.root.version (rootChain_le hs.chain) hle
  rw [rootChain_unique hno hs.chain c1 c3.symm hb]
  exact c2

/-- **C110.** A client does to the files only what the others are prepared for, whatever it is shown,
and even if some of its writes fail or it is stopped. -/
theorem C110_others_can_go_on (t : Tuf) (io : Io W) (h : Among E D cfg file raw a t io)
    (hR : Shared R file (Others E cfg a)) (c : Call) (r : Except Err Reply) (s : St W)
    (he : exec E D R cfg c ⟨t, io⟩ = (r, s)) : Others E cfg a (file io.w) (file s.io.w) := by
  have := exec_shared (D := D) hR c ⟨t, io⟩ (Among.sound h).2.2
  rw [he] at this
  cases r with
  | ok _ => exact this.since
  | error _ => exact this.1

/-- **C110.** The same for a client that starts. -/
theorem C110_others_can_go_on_at_start (hR : Shared R file (Others E cfg a))
    (h0 : fromTrustedRoot E raw = .ok (ofRoot a)) (t : Tuf) (io io' : Io W)
    (hc : construct E D R cfg (.trustedRoot raw) io = (.ok t, io')) :
    Others E cfg a (file io.w) (file io'.w) := by
  obtain ⟨r, s, hl, rfl, rfl⟩ := construct_shared h0 hc
  have := (loadLocal_shared (D := D) (F := file io.w) hR).run
    (s := ⟨ofRoot a, io⟩) ⟨.none, .refl a, .inl rfl⟩
  rw [hl] at this; exact this.since

/-- **C110.** Root keys that are not stolen make sure that there are no forks, if the author gives
each version number once. -/
theorem C110_no_forks {honest : Scheme → Bytes → Prop} {author : Bytes → Prop}
    (hsig : Unforgeable E honest author) (hone : OncePerVersion author E.rootFromSlice RootMetadata.version)
    (hnow : RootGuarded honest a)
    (hlater : ∀ r, Approved author E.rootFromSlice r → a.version < r.version → RootGuarded honest r) :
    NoForks E a := by
  intro b c c' x x' hb h h'
  have go : ∀ {x c}, Succeeds E b x c → Approved author E.rootFromSlice c := by
    intro x c h
    have hc : RootChain E a c := .step a b c x hb h.byOld h.bySelf h.next
    rcases rootChain_approved hsig hc hnow hlater with e | e
    · have := rootChain_le hb
      have := h.next
      rw [e] at this; omega
    · exact e.1
  exact hone c c' (go h) (go h') (by rw [h.next, h'.next])

/-- A client that is alone. -/
theorem Faithful.shared (h : Faithful R file) : Shared R file (Others E cfg a) where
  cached p v m hash w := by
    refine ⟨file w, .none, by rw [h.cacheFetch]; exact .none, ?_⟩
    cases hf : file w p v with
    | none => exact h.absent p v m hash w hf
    | some b => exact h.present p v m hash w b hf
  remoteFetch p v m hash w := by rw [h.remoteFetch]; exact .none
  targetFetch p d w := by rw [h.targetFetch]; exact .none
  targetStore evs p w := by rw [h.targetStore]; exact .none
  write b w := by rw [h.write]; exact .none
  flush w := by rw [h.flush]; exact .none
  clock w := by rw [h.clock]; exact .none
  store p v raw w :=
    ⟨file w, .none, .inl ⟨(h.store p v raw w).1, by rw [(h.store p v raw w).2]; exact .none⟩⟩

theorem Faithful.writable (h : Faithful R file) : Writable R := fun p v raw w => (h.store p v raw w).1

/-- A call of such a client, and what it leaves to the others. -/
theorem Among.calls {t : Tuf} {io : Io W} (h : Among E D cfg file raw a t io) (hR : Faithful R file)
    (c : Call) :
    Among E D cfg file raw a (exec E D R cfg c ⟨t, io⟩).2.tuf (exec E D R cfg c ⟨t, io⟩).2.io ∧
    Others E cfg a (file io.w) (file (exec E D R cfg c ⟨t, io⟩).2.io.w) :=
  ⟨.call R t _ io _ c _ h (Faithful.shared hR) (Faithful.writable hR) rfl,
    C110_others_can_go_on t io h (Faithful.shared hR) c _ _ rfl⟩

theorem pair_of_fst {α β : Type} {x : α × β} {y : α} (h : x.1 = y) : x = (y, x.2) := by
  cases x; cases h; rfl

/-! ### Examples -/

namespace Sharing

/-- Documents 2 and 3 hold root 2, with document 4 as root 3. -/
@[reducible] def world : Toy.World where
  roots := [(1, Toy.root 1 1000), (2, Toy.root 2 1000), (3, Toy.root 2 1000), (4, Toy.root 3 1000)]
  timestamps := [(10, Toy.timestamp 2 500 1), (11, Toy.timestamp 1 700 1)]
  snapshots := [(20, Toy.snapshot 1 900 [("targets", 1)])]
  targets := [(30, Toy.targets 1 900 [("x", 1)] none)]

/-- Two mirrors. The second one has another document for root 2, no root 3, and an older timestamp. -/
def mirror1 : World Toy.Disk :=
  Toy.repos (Toy.files [("root", some 2, 2), ("root", some 3, 4), ("timestamp", none, 10),
    ("snapshot", none, 20), ("targets", none, 30)]) [] 100
@[inherit_doc mirror1] def mirror2 : World Toy.Disk :=
  Toy.repos (Toy.files [("root", some 2, 3), ("timestamp", none, 11), ("snapshot", none, 20),
    ("targets", none, 30)]) [] 100

/-- Two clients start with an empty local repository. -/
def start : Io Toy.Disk :=
  (construct world.env Toy.digest mirror1 Toy.config (.trustedRoot [1]) ⟨Toy.Disk.empty, []⟩).2

/-- The first one updates itself with the first mirror. -/
def first : St Toy.Disk := (exec world.env Toy.digest mirror1 Toy.config .update ⟨Toy.boot, start⟩).2

/-- Then the second one updates itself with the second mirror. -/
def second : St Toy.Disk := (exec world.env Toy.digest mirror2 Toy.config .update ⟨Toy.boot, first.io⟩).2

theorem faithful1 : Faithful mirror1 toyFile := toy_faithful _ _ _
theorem faithful2 : Faithful mirror2 toyFile := toy_faithful _ _ _

theorem noForks : NoForks world.env (Toy.root 1 1000) := by
  have known : ∀ (n : Nat) (ks : List PublicKey) x c,
      Authentic world.env world.env.rootFromSlice x n ks c →
      c = Toy.root 1 1000 ∨ c = Toy.root 2 1000 ∨ c = Toy.root 3 1000 := by
    intro n ks x c h
    obtain ⟨msg, -, hd⟩ := h
    change Toy.tab _ msg = _ at hd
    unfold Toy.tab at hd
    split at hd
    · rename_i v hv
      cases hd
      have := Map.mem_of_get? hv
      simp only [List.map_cons, List.map_nil, List.mem_cons, List.not_mem_nil, or_false,
        Prod.mk.injEq] at this
      rcases this with ⟨_, h⟩ | ⟨_, h⟩ | ⟨_, h⟩ | ⟨_, h⟩ <;> simp [h]
    · cases hd
  intro b c c' x x' _ h h'
  have e := h.next.trans h'.next.symm
  rcases known _ _ _ _ h.byOld with h1 | h1 | h1 <;>
    rcases known _ _ _ _ h'.byOld with h2 | h2 | h2 <;> rw [h1, h2] at e ⊢ <;>
    exact absurd e (by decide)

theorem started : Among world.env Toy.digest Toy.config toyFile [1] (Toy.root 1 1000) Toy.boot start :=
  .start mirror1 (toyFile Toy.Disk.empty) Toy.boot ⟨Toy.Disk.empty, []⟩ _ (by decide +kernel)
    (fun _ _ => rfl) .none (Faithful.shared faithful1) (Prod.ext (by decide +kernel) rfl)

theorem first_among :
    Among world.env Toy.digest Toy.config toyFile [1] (Toy.root 1 1000) first.tuf first.io := by
  unfold first
  exact (Among.calls started faithful1 .update).1

/-- The second client at the time when the first one has updated itself. -/
theorem second_before :
    Among world.env Toy.digest Toy.config toyFile [1] (Toy.root 1 1000) Toy.boot first.io := by
  unfold first
  exact .others _ _ _ started (Among.calls started faithful1 .update).2

/-- The first client after the second one has updated itself: its files have been written over. -/
theorem first_after :
    Among world.env Toy.digest Toy.config toyFile [1] (Toy.root 1 1000) first.tuf second.io := by
  unfold second
  exact .others _ _ _ first_among (Among.calls second_before faithful2 .update).2

/-- What a third client trusts when it is started then. -/
def third : Tuf :=
  ⟨Toy.root 3 1000, some (Toy.snapshot 1 900 [("targets", 1)]),
    some (Toy.targets 1 900 [("x", 1)] none), some (Toy.timestamp 1 700 1), []⟩

theorem third_starts : construct world.env Toy.digest mirror2 Toy.config (.trustedRoot [1]) second.io =
    (.ok third, (construct world.env Toy.digest mirror2 Toy.config (.trustedRoot [1]) second.io).2) :=
  pair_of_fst (by decide +kernel)

theorem first_tuf : first.tuf = ⟨Toy.root 3 1000, some (Toy.snapshot 1 900 [("targets", 1)]),
    some (Toy.targets 1 900 [("x", 1)] none), some (Toy.timestamp 2 500 1), []⟩ := by decide +kernel

/-- The hypotheses of `C110_no_root_is_lost` are met: the second client has replaced the file of root
2 and does not know root 3, but the third client trusts root 3, like the first one. -/
example : toyFile first.io.w "root".toList (.number 2) = some [2] ∧
    toyFile second.io.w "root".toList (.number 2) = some [3] ∧ second.tuf.root.version = 2 ∧
    first.tuf.root = Toy.root 3 1000 ∧ RootChain world.env first.tuf.root third.root ∧
    third.root = Toy.root 3 1000 :=
  ⟨by decide +kernel, by decide +kernel, by decide +kernel, by rw [first_tuf],
    C110_no_root_is_lost noForks _ _ _ _ first_after (Faithful.shared faithful2) third_starts, rfl⟩

end Sharing

/-- **C110, a limit.** Timestamps can be lost: of two clients with the same local repository, one trusts
timestamp 2, and the other one, which has been shown timestamp 1, writes it over the file. A client
that is started then trusts timestamp 1, under the same root, although timestamp 2 has not expired.
-/
theorem C110_timestamps_go_back :
    ∃ (E : Env) (D : Digest) (R : World Toy.Disk) (cfg : Config) (a : RootMetadata) (t t' : Tuf)
      (io io' : Io Toy.Disk) (ts ts' : TimestampMetadata),
      Decoders E ∧ NoForks E a ∧ Faithful R toyFile ∧ Among E D cfg toyFile [1] a t io ∧
      construct E D R cfg (.trustedRoot [1]) io = (.ok t', io') ∧ t'.root = t.root ∧
      t.timestamp = some ts ∧ t'.timestamp = some ts' ∧ ts'.version < ts.version ∧
      ∀ w i, (R.clock w).1 i < ts.expires :=
  ⟨Sharing.world.env, Toy.digest, Sharing.mirror2, Toy.config, Toy.root 1 1000, Sharing.first.tuf,
    Sharing.third, Sharing.second.io, _, Toy.timestamp 2 500 1, Toy.timestamp 1 700 1,
    Sharing.world.decoders (by decide) (by decide) (by decide) (by decide), Sharing.noForks,
    Sharing.faithful2, Sharing.first_after, Sharing.third_starts, by rw [Sharing.first_tuf]; rfl,
    by rw [Sharing.first_tuf], rfl, by decide, fun w i => (by decide : (100 : Time) < 500)⟩

end RustTuf.Props
