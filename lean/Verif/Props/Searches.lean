import Verif.Spec.Searches
import Verif.Props.Exhaustion
import Verif.Props.Planted
import Verif.Props.Work

/-!
# C125: without keys nobody can make searches more expensive than the author's delegations
-/

namespace RustTuf.Props
open Client Spec RustTuf Tuf

namespace Searches
variable {E : Env} {D : Digest} {cfg : Config}

theorem receivedBytes_append (a b : List LogEntry) :
    receivedBytes (a ++ b) = receivedBytes a + receivedBytes b := by
  simp [receivedBytes]

theorem requestCount_append (a b : List LogEntry) :
    requestCount (a ++ b) = requestCount a + requestCount b := by
  simp [requestCount]

/-- Documents come out of requests, so if each request has a limit of at most `n`, then what is received
is at most `n` for each request. -/
theorem received_of_good {t : Tuf} {n : Nat} (k : Nat) : ∀ l : List LogEntry, l.length ≤ k →
    Good E D cfg t l →
    (∀ pre src p v m h post, l = pre ++ .fetch src p v m h :: post → ∃ a, m = some a ∧ a ≤ n) →
    receivedBytes l ≤ requestCount l * n := by
  induction k with
  | zero =>
    intro l hl _ _
    cases l with
    | nil => exact Nat.zero_le _
    | cons _ _ => cases hl
  | succ k ih =>
    intro l hl hg hm
    rcases List.eq_nil_or_concat l with rfl | ⟨pre, e, rfl⟩
    · exact Nat.zero_le _
    · rw [List.concat_eq_append] at *
      have hlen : pre.length ≤ k := by simp at hl; omega
      have hpre := ih pre hlen (fun a e' b h => hg a e' (b ++ [e]) (by rw [h]; simp))
        (fun a src p v m h b e' => hm a src p v m h (b ++ [e]) (by rw [e']; simp))
      have hlast := hg pre e [] rfl
      rw [receivedBytes_append, requestCount_append]
      have other : receivedBytes [e] = 0 → receivedBytes pre + receivedBytes [e] ≤
          (requestCount pre + requestCount [e]) * n := fun h0 => by
        rw [h0, Nat.add_mul]
        omega
      cases e with
      | got src p raw =>
        obtain ⟨pre', v, m, h, rfl, hf⟩ := hlast
        obtain ⟨a, rfl, ha⟩ := hm pre' src p v m h [.got src p raw] (by simp)
        have hpre' := ih pre' (by simp at hlen; omega)
          (fun x y z e' => hg x y (z ++ [.fetch src p v (some a) h, .got src p raw]) (by rw [e']; simp))
          (fun x a1 a2 a3 a4 a5 z e' => hm x a1 a2 a3 a4 a5 (z ++ [.fetch src p v (some a) h, .got src p raw])
            (by rw [e']; simp))
        have := hf.length a rfl
        rw [receivedBytes_append, requestCount_append]
        have e1 : receivedBytes [.fetch src p v (some a) h] = 0 := rfl
        have e2 : requestCount [.fetch src p v (some a) h] = 1 := rfl
        have e3 : receivedBytes [.got src p raw] = raw.length := by simp [receivedBytes]
        have e4 : requestCount [.got src p raw] = 0 := rfl
        rw [e1, e2, e3, e4, Nat.add_zero, Nat.add_zero, Nat.add_mul]
        omega
      | _ => exact other rfl

/-- The limits of the requests of a client that trusts the author's metadata. -/
theorem request_limited {t : Tuf} {n : Nat} (hc : TakesAtMost cfg n)
    (hts : ∀ ts, t.timestamp = some ts → ts.snapshot.length ≤ n)
    (hsn : ∀ sn role m, t.snapshot = some sn → sn.metas.get? role = some m → m.length ≤ n)
    {k : Kind} {src : Source} {v : MetadataVersion} {m : Option Nat} {h : HashData}
    (hr : Request cfg t k src v m h) : ∃ a, m = some a ∧ a ≤ n := by
  cases hr with
  | root => exact hc.1
  | rootWrapped => exact hc.1
  | timestamp => exact hc.2
  | snapshot src ts a v h1 => exact ⟨_, rfl, hts ts h1⟩
  | targets src sn m a v h1 h2 => exact ⟨_, rfl, hsn sn _ m h1 h2⟩
  | delegated src role sn m a v h1 h2 => exact ⟨_, rfl, hsn sn _ m h1 h2⟩

end Searches

/-- **C125.** Whatever the attacker does: each call for a target asks for at most
`2 * (b + b ^ 2 + … + b ^ (depth + 1))` metadata files, where `b` bounds the number of roles to which
metadata of the author delegate, and receives at most `n` bytes for each of them, where `n` bounds the
lengths that the author states and the configured limits. The attacker must have less than a threshold of
the keys of each role of the first root, of each later root of the author, and of each role to which the
author has delegated. -/
theorem C125_searches_are_the_authors {W : Type} (E : Env) (D : Digest) (R : World W) (cfg : Config)
    (honest : Scheme → Bytes → Prop) (author : Bytes → Prop) (hsig : Unforgeable E honest author)
    (hE : Decoders E) (b n : Nat) (hm : Moderate E author b n) (start : Start)
    (hfirst : ∀ t0, StartsWith E start t0 → AllGuarded honest t0.root ∧
      ∀ r, Approved author E.rootFromSlice r → t0.root.version < r.version → AllGuarded honest r)
    (hdel : ∀ m, Approved author E.targetsFromSlice m → DelegationsGuarded honest m)
    (io io' : Io W) (t : Tuf) (h : construct E D R cfg start io = (.ok t, io')) (before : List Call)
    (s : St W) (hs : s = execAll E D R cfg ⟨t, io'⟩ before) (c : Call) (hc : c ≠ .update) :
    requestCount (recordedSince s (exec E D R cfg c s).2) ≤ 2 * chains b (cfg.maxDelegationDepth + 1) ∧
    (TakesAtMost cfg n → receivedBytes (recordedSince s (exec E D R cfg c s).2) ≤
      2 * chains b (cfg.maxDelegationDepth + 1) * n) := by
  obtain ⟨t0, ops, h0, h1⟩ := C28_client_refines_tuf E D R cfg start io io' t h before
  rw [← hs] at h1
  obtain ⟨hg, hroots⟩ := hfirst t0 h0
  have hfresh := startsWith_fresh h0
  have state : ∀ ops', AllGuarded honest (run E s.tuf ops').root ∧
      TrustsAuthor E honest author (run E s.tuf ops') := by
    intro ops'
    rw [h1, ← run_append]
    refine ⟨Planted.guards_run hsig hroots _ t0 hg (Nat.le_refl _), ?_⟩
    obtain ⟨r, rfl, -⟩ := Fresh.eq E hE t0 hfresh
    exact trustsAuthor_run hsig (fun r a b => (hroots r a b).1) hdel _ _
      { root := hg.1, targets := (fun _ e => nomatch e), delegations := (fun _ _ e => nomatch e) }
      (Nat.le_refl _)
  obtain ⟨l, hl, hcount⟩ := C95_requests_bounded E D R cfg c hc s b
  have hrec : recordedSince s (exec E D R cfg c s).2 = l := by
    unfold recordedSince
    rw [hl, List.drop_left]
  rw [hrec]
  have hle := hcount (fun ta hta => hm.targets ta ((state []).2.targets ta hta))
    (fun pre post role m _ hr => hm.targets m ((state (opsOf pre)).2.delegations role m hr))
  refine ⟨hle, fun ht => Nat.le_trans ?_ (Nat.mul_le_mul_right n hle)⟩
  obtain ⟨l', hl', hgood, -⟩ := execAll_tr (E := E) (D := D) (cfg := cfg) (R := R) (t0 := s.tuf)
    (L0 := s.io.log) [c] s ⟨[], by simp, Good.nil, rfl⟩
  have hl' : (exec E D R cfg c s).2.io.log = s.io.log ++ l' := hl'
  rw [hl] at hl'
  cases List.append_cancel_left hl'
  refine Searches.received_of_good l.length l (Nat.le_refl _) hgood fun pre src p v m h post e => ?_
  obtain ⟨k, -, hr⟩ := hgood pre _ post e
  obtain ⟨a1, a2, -⟩ := C19_signed_under_current_root E hE t0 hfresh (ops ++ opsOf pre)
  rw [run_append, ← h1] at a1 a2
  have g := (state (opsOf pre)).1.2
  refine Searches.request_limited ht (fun ts hts => ?_) (fun sn role m hsn hget => ?_) hr
  · obtain ⟨raw, ha⟩ := a1 ts hts
    exact hm.timestamps ts (C88_authentic_is_approved hsig _ raw _ _ ts g.1 ha)
  · obtain ⟨raw, ha⟩ := a2 sn hsn
    exact hm.snapshots sn role m (C88_authentic_is_approved hsig _ raw _ _ sn g.2 ha) hget

/-! ### Examples -/

namespace Searches

theorem moderate : Moderate Planted.env (· ∈ Delegated.good) 2 100 where
  targets m hm := by
    obtain ⟨msg, h1, h2⟩ := hm
    simp only [Delegated.good, List.mem_cons, List.not_mem_nil, or_false] at h1
    rcases h1 with rfl | rfl | rfl | rfl | rfl | rfl <;> cases h2 <;> intro ds e <;> cases e
    decide
  timestamps ts hts := by
    obtain ⟨msg, h1, h2⟩ := hts
    exact Toy.tab_map_ok (P := fun m : TimestampMetadata => m.snapshot.length ≤ 100)
      (l := Delegated.world.timestamps) (by decide) msg ts h2
  snapshots sn role m hsn hm := by
    obtain ⟨msg, h1, h2⟩ := hsn
    have := Toy.tab_map_ok (P := fun m : SnapshotMetadata => ∀ p ∈ m.metas, p.2.length ≤ 100)
      (l := Delegated.world.snapshots) (by decide) msg sn h2
    exact this _ (Map.mem_of_get? hm)

/-- Two levels of delegations at most. -/
def config : Config := { Exhaustion.config with maxDelegationDepth := 1 }

def start : Except Err Tuf × Io Toy.Disk :=
  construct Planted.env Toy.digest Planted.repo config (.trustedRoot [1]) ⟨Toy.Disk.empty, []⟩

/-- The client after an update. -/
def s1 : St Toy.Disk := execAll Planted.env Toy.digest Planted.repo config ⟨Toy.boot, start.2⟩ [.update]

/-- The hypotheses of the theorem. A search below one of the two delegations asks for the file of the role in
the local repository and in the remote one and receives one byte. At most twelve requests are allowed. -/
example : Unforgeable Planted.env Delegated.honest (· ∈ Delegated.good) ∧ Decoders Planted.env ∧
    Moderate Planted.env (· ∈ Delegated.good) 2 100 ∧
    (∀ t0, StartsWith Planted.env (.trustedRoot [1]) t0 → AllGuarded Delegated.honest t0.root ∧
      ∀ r, Approved (· ∈ Delegated.good) Planted.env.rootFromSlice r → t0.root.version < r.version →
        AllGuarded Delegated.honest r) ∧
    (∀ m, Approved (· ∈ Delegated.good) Planted.env.targetsFromSlice m →
      DelegationsGuarded Delegated.honest m) ∧
    start = (.ok Toy.boot, start.2) ∧ TakesAtMost config 100 ∧
    requestCount (recordedSince s1 (exec Planted.env Toy.digest Planted.repo config
      (.fetchTarget "q/z".toList) s1).2) = 2 ∧
    receivedBytes (recordedSince s1 (exec Planted.env Toy.digest Planted.repo config
      (.fetchTarget "q/z".toList) s1).2) = 1 ∧
    2 * chains 2 (config.maxDelegationDepth + 1) = 12 := by
  refine ⟨Delegated.unforgeable _, Delegated.decoders _, moderate, fun t0 h0 => ?_, Delegated.good_targets,
    Prod.ext (by decide +kernel) rfl, ⟨⟨1, rfl, by decide⟩, 1, rfl, by decide⟩, by decide +kernel,
    by decide +kernel, by decide⟩
  have e : fromTrustedRoot Planted.env [1] = .ok Toy.boot := by decide +kernel
  have h0 : fromTrustedRoot Planted.env [1] = .ok t0 := h0
  rw [e] at h0
  cases h0
  exact ⟨Planted.all_guarded 1 1000, fun r h hv => absurd hv (Delegated.no_later _ r h)⟩

end Searches

end RustTuf.Props
