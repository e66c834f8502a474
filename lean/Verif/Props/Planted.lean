import Verif.Spec.Planted
import Verif.Props.Delegates
import Verif.Props.Withdrawn

/-!
# C126: without keys nobody can plant metadata in the local repository
-/

namespace RustTuf.Props
open Client Spec RustTuf Tuf

namespace Planted
variable {E : Env} {honest : Scheme → Bytes → Prop} {author : Bytes → Prop}

/-- A document with enough signatures of guarded keys was written by the author. -/
theorem genuine_of_authentic (hsig : Unforgeable E honest author) {M : Type} {decode : Bytes → Except Err M}
    {raw : Bytes} {n : Nat} {keys : List PublicKey} {m : M} (hg : Guarded honest n keys)
    (h : Authentic E decode raw n keys m) (k : Kind) (v : MetadataVersion)
    (hr : ∀ msg, decode msg = .ok m → ReadsAs E author v msg k) : Genuine E author k.path v raw := by
  obtain ⟨msg, ⟨h1, sigs, signed, hp, hc, hids⟩, hd⟩ := h
  refine ⟨k, sigs, signed, msg, rfl, hp, hc, ?_, hr msg hd⟩
  obtain ⟨msg', ha, hd'⟩ := C88_authentic_is_approved hsig (fun b => .ok b) raw n keys msg hg
    ⟨msg, ⟨h1, sigs, signed, hp, hc, hids⟩, rfl⟩
  cases hd'
  exact ha

/-- The roots of a store stay guarded. -/
theorem guards_run (hsig : Unforgeable E honest author) {v : Nat}
    (hroots : ∀ r, Approved author E.rootFromSlice r → v < r.version → AllGuarded honest r) (ops : List Op) :
    ∀ t : Tuf, AllGuarded honest t.root → v ≤ t.root.version → AllGuarded honest (run E t ops).root := by
  induction ops with
  | nil => exact fun t h _ => h
  | cons op ops ih =>
    intro t h hv
    suffices hs : AllGuarded honest (step E t op).2.root ∧ v ≤ (step E t op).2.root.version from
      ih _ hs.1 hs.2
    have hc := step_case E t op
    generalize (step E t op).1 = o, (step E t op).2 = t' at hc
    cases hc with
    | failed => exact ⟨h, hv⟩
    | same => exact ⟨h, hv⟩
    | root raw new hr =>
      have ha := C88_authentic_is_approved hsig _ raw _ _ new h.1.1 hr.signedByOld
      have hn : new.version = t.root.version + 1 := hr.nextVersion
      exact ⟨hroots new ha (by omega), by show v ≤ new.version; omega⟩
    | timestamp => exact ⟨h, hv⟩
    | timestampExpired => exact ⟨h, hv⟩
    | snapshot clk raw new t' hr hp => rw [hp.root]; exact ⟨h, hv⟩
    | targets => exact ⟨h, hv⟩
    | delegation => exact ⟨h, hv⟩

/-- What an update call accepts, and what is then stored of it. -/
theorem accepted_is_genuine (hsig : Unforgeable E honest author)
    (hdel : ∀ m, Approved author E.targetsFromSlice m → DelegationsGuarded honest m)
    {t : Tuf} (hg : AllGuarded honest t.root) (ht : TrustsAuthor E honest author t)
    {o : Op} {k : Kind} {raw : Bytes} (hs : Submits o k raw) (hacc : Accepted o (step E t o).1)
    {v : MetadataVersion} (hv : StoredAs (step E t o).2 k v) : Genuine E author k.path v raw := by
  have delegated : ∀ parent role new, DelegationSigned E t parent role raw new → v = .none →
      Genuine E author (Kind.delegated role).path v raw := by
    rintro parent role new ⟨ds, d, ⟨p, hp, hds, pre, post, hroles, hname, -⟩, ha⟩ hv
    have hap : Approved author E.targetsFromSlice p := by
      rcases hp with ⟨-, hp⟩ | ⟨-, hp⟩
      · exact ht.targets p hp
      · exact ht.delegations parent p hp
    exact genuine_of_authentic hsig (hdel p hap ds hds d (by rw [hroles]; simp)) ha _ _
      fun msg hd => ⟨hv, ⟨new, hd⟩, p, ds, d, hap, hds, by rw [hroles]; simp, hname⟩
  have none_of : k ≠ .top .root → v = .none := fun hk => hv.elim id fun h => absurd h.1 hk
  have hc := step_case E t o
  rcases hacc with hch | ⟨hun, clk, parent, role, raw', rfl⟩
  · rw [hch] at hc
    generalize (step E t o).2 = t' at hc hv
    cases hc with
    | root raw new hr =>
      cases hs
      refine genuine_of_authentic hsig hg.1.1 hr.signedByOld _ _ fun msg hd => ⟨new, hd, ?_⟩
      exact hv.imp id fun h => h.2
    | timestamp clk raw new hr =>
      cases hs
      exact genuine_of_authentic hsig hg.2.1 hr.signed _ _ fun msg hd => ⟨none_of (by simp), new, hd⟩
    | snapshot clk raw new t' hr hp =>
      cases hs
      exact genuine_of_authentic hsig hg.2.2 hr.signed _ _ fun msg hd => ⟨none_of (by simp), new, hd⟩
    | targets clk raw new hr =>
      cases hs
      exact genuine_of_authentic hsig hg.1.2 hr.signed _ _ fun msg hd => ⟨none_of (by simp), new, hd⟩
    | delegation clk parent role raw new hr =>
      cases hs
      exact delegated parent role new hr.signed (none_of (by simp))
  · cases hs
    unfold step at hun
    rcases h : updateDelegation E clk t parent role raw with ⟨e | b, t'⟩
    · simp only [h] at hun; cases hun
    · cases b
      · obtain ⟨-, m, -, -, new, hn⟩ := (updateDelegation_false_iff E clk t t' parent role raw).1 h
        exact delegated parent role new hn (none_of (by simp))
      · simp only [h] at hun; cases hun

end Planted

section
variable {W : Type} (E : Env) (D : Digest) (R : World W) (cfg : Config) {honest : Scheme → Bytes → Prop}
  {author : Bytes → Prop} (hsig : Unforgeable E honest author)
include hsig

/-- **C126.** Whatever calls are made on a client and whatever repositories do: every metadata file that
it writes to the local repository is metadata that the author has signed, of the role and version that
its name says; a name other than those of the top-level roles is that of a role to which the author has
delegated. The attacker must have less than a threshold of the keys of each role of the first root, of
each later root of the author, and of each role to which the author has delegated. -/
theorem C126_stored_is_the_authors (hE : Decoders E) (start : Start)
    (hfirst : ∀ t0, StartsWith E start t0 → AllGuarded honest t0.root ∧
      ∀ r, Approved author E.rootFromSlice r → t0.root.version < r.version → AllGuarded honest r)
    (hdel : ∀ m, Approved author E.targetsFromSlice m → DelegationsGuarded honest m)
    (io io' : Io W) (t : Tuf) (h : construct E D R cfg start io = (.ok t, io')) (calls : List Call) :
    ∃ l, (execAll E D R cfg ⟨t, io'⟩ calls).io.log = io'.log ++ l ∧
      ∀ p v raw, .store p v raw ∈ l → Genuine E author p v raw := by
  obtain ⟨t0, ops, h0, h1⟩ := C28_client_refines_tuf E D R cfg start io io' t h []
  have h1 : t = run E t0 ops := h1
  obtain ⟨hg, hroots⟩ := hfirst t0 h0
  obtain ⟨l, hl, hst⟩ := C30_only_verified_is_stored E D R cfg ⟨t, io'⟩ calls
  refine ⟨l, hl, fun p v raw hm => ?_⟩
  obtain ⟨pre, post, e⟩ := List.append_of_mem hm
  obtain ⟨k, o, out, pre', mid, rfl, hmid, hout, hs, rfl, hacc, hv⟩ := hst pre p v raw post e
  have hst' : after E t pre' = run E t0 (ops ++ opsOf pre') := by rw [run_append, ← h1]; rfl
  have g : AllGuarded honest (after E t pre').root := by
    rw [hst']; exact Planted.guards_run hsig hroots _ t0 hg (Nat.le_refl _)
  have ta : TrustsAuthor E honest author (after E t pre') := by
    obtain ⟨r, rfl, -⟩ := Fresh.eq E hE t0 (startsWith_fresh h0)
    rw [hst']
    exact trustsAuthor_run hsig (fun r a b => (hroots r a b).1) hdel _ _
      { root := hg.1, targets := (fun _ e => nomatch e), delegations := (fun _ _ e => nomatch e) }
      (Nat.le_refl _)
  have hmid : opsOf mid = [] := by
    clear hv e
    induction mid with
    | nil => rfl
    | cons x mid ih =>
      obtain ⟨v', rfl⟩ := hmid x (by simp)
      exact ih fun y hy => hmid y (by simp [hy])
  have hafter : after E t (pre' ++ .op o out :: mid) = (step E (after E t pre') o).2 := by
    rw [after_append]
    show run E _ (o :: opsOf mid) = _
    rw [hmid]
    rfl
  refine Planted.accepted_is_genuine hsig hdel g ta hs ?_ (v := v) ?_
  · rw [hout]; exact hacc
  · rw [← hafter]; exact hv

/-- **C126.** A constructor writes at most one kind of file: the root that it was given keys for. If the
attacker has less than the required number of these keys, it is the author's. -/
theorem C126_constructors (start : Start)
    (hkeys : ∀ ver n keys, start = .trustedRootKeys ver n keys → Guarded honest n keys)
    (io io' : Io W) (r : Except Err Tuf) (h : construct E D R cfg start io = (r, io')) :
    ∃ l, io'.log = io.log ++ l ∧ ∀ p v raw, .store p v raw ∈ l → Genuine E author p v raw := by
  obtain ⟨l, hl, hst⟩ := C30_constructors E D R cfg start io io' r h
  refine ⟨l, hl, fun p v raw hm => ?_⟩
  obtain ⟨ver, n, keys, t0, hs, rfl, ht, rfl⟩ := hst p v raw hm
  unfold fromRootWithTrustedKeys at ht
  split at ht
  · cases ht
  · rename_i new hv
    split at ht
    · cases ht
    · rename_i r' hv'
      cases ht
      rw [verifySignatures_ok_iff] at hv hv'
      obtain ⟨msg', ⟨-, sigs', signed', hp', hc', -⟩, hd'⟩ := hv'
      obtain ⟨msg, ⟨h1, sigs, signed, hp, hc, hids⟩, hd⟩ := hv
      have hk := hkeys ver n keys hs
      rw [hp] at hp'
      cases hp'
      rw [hc] at hc'
      cases hc'
      exact Planted.genuine_of_authentic hsig (k := .top .root) hk
        (⟨_, ⟨h1, _, _, hp, hc, hids⟩, hd'⟩ : Authentic E E.rootFromSlice raw n keys r') _
        fun m hm => ⟨r', hm, .inr rfl⟩

end

/-- **C126.** With JSON and the crate's own writers: every metadata file that a client writes to the local
repository holds, but for the order of maps, an object that the author has made for this role. -/
theorem C126_stored_is_made {W : Type} (X : ShimLib) (ring : Scheme → Bytes → Bytes → Bytes → Bool)
    (order : Map KeyId Signature → List (KeyId × Signature)) (perm : ∀ m, (order m).Perm m)
    (L : Laws X) (D : Digest) (R : World W) (cfg : Config) (honest : Scheme → Bytes → Prop) (w : Works)
    (hw : Works.Publishable X w) (hsig : Unforgeable (jsonEnv X ring order perm) honest (w.Signs X))
    (start : Start)
    (hfirst : ∀ t0, StartsWith (jsonEnv X ring order perm) start t0 → AllGuarded honest t0.root ∧
      ∀ r, w.root r → t0.root.version < r.version → AllGuarded honest r)
    (hdel : ∀ m, w.targets m → DelegationsGuarded honest m)
    (io io' : Io W) (t : Tuf) (h : construct (jsonEnv X ring order perm) D R cfg start io = (.ok t, io'))
    (calls : List Call) :
    ∃ l, (execAll (jsonEnv X ring order perm) D R cfg ⟨t, io'⟩ calls).io.log = io'.log ++ l ∧
      ∀ p v raw, .store p v raw ∈ l → HoldsWork (jsonEnv X ring order perm) w p v raw := by
  obtain ⟨l, hl, hst⟩ := C126_stored_is_the_authors (jsonEnv X ring order perm) D R cfg hsig
    (C54_json_decoders X ring order perm) start (fun t0 h0 => ⟨(hfirst t0 h0).1, fun r hr hv => by
      obtain ⟨m, h1, h2⟩ := C121_root_is_read L hw _ hr
      obtain ⟨msg, -, hd⟩ := hr
      have k1 := (hw.root m h1).good.keys
      have k2 := (C54_root X msg r hd).keys
      have g := root_guards_same (honest := honest) h2 k1 k2
      obtain ⟨g1, g2⟩ := (hfirst t0 h0).2 m h1 (by rw [h2.version]; exact hv)
      refine ⟨⟨g.1 g1.1, g.2 g1.2⟩, ?_⟩
      unfold TimeGuarded timestampSigners snapshotSigners at g2 ⊢
      rw [← h2.timestamp, ← h2.snapshot]
      exact ⟨guarded_same h2.keys k1 k2 g2.1, guarded_same h2.keys k1 k2 g2.2⟩⟩)
    (fun m hm => by
      obtain ⟨m0, k1, k2⟩ := C121_targets_is_read L hw m hm
      obtain ⟨msg, -, hd⟩ := hm
      exact delegations_guards_same k2 (hw.targets m0 k1).good (C54_targets X msg m hd) (hdel m0 k1))
    io io' t h calls
  refine ⟨l, hl, fun p v raw hm => ?_⟩
  obtain ⟨k, sigs, signed, msg, hk, hp, hc, ha, hr⟩ := hst p v raw hm
  refine ⟨k, sigs, signed, msg, hk, hp, hc, ?_⟩
  cases k with
  | top role =>
    cases role with
    | root =>
      obtain ⟨m', hd, hv⟩ := hr
      obtain ⟨m, h1, h2⟩ := C121_root_is_read L hw m' ⟨msg, ha, hd⟩
      exact ⟨m, m', h1, hd, h2, by rw [h2.version]; exact hv⟩
    | timestamp =>
      obtain ⟨hv, m', hd⟩ := hr
      obtain ⟨m, h1, h2⟩ := C121_timestamp_is_read L hw m' ⟨msg, ha, hd⟩
      exact ⟨hv, m, m', h1, hd, h2⟩
    | snapshot =>
      obtain ⟨hv, m', hd⟩ := hr
      obtain ⟨m, h1, h2⟩ := C121_snapshot_is_read L hw m' ⟨msg, ha, hd⟩
      exact ⟨hv, m, m', h1, hd, h2⟩
    | targets =>
      obtain ⟨hv, m', hd⟩ := hr
      obtain ⟨m, h1, h2⟩ := C121_targets_is_read L hw m' ⟨msg, ha, hd⟩
      exact ⟨hv, m, m', h1, hd, h2⟩
  | delegated role =>
    obtain ⟨hv, ⟨m', hd⟩, p, ds, d, hp, hds, hd', hname⟩ := hr
    obtain ⟨m, h1, h2⟩ := C121_targets_is_read L hw m' ⟨msg, ha, hd⟩
    refine ⟨hv, ⟨m, m', h1, hd, h2⟩, ?_⟩
    obtain ⟨q, g1, g2⟩ := C121_targets_is_read L hw p hp
    have hr := g2.delegations
    rw [hds] at hr
    cases e : q.delegations with
    | none => rw [e] at hr; cases hr
    | some dq =>
      rw [e] at hr
      cases hr with
      | some hr =>
        obtain ⟨l1, l2⟩ := List.forall₂_iff_get.1 hr.roles
        obtain ⟨i, hi, rfl⟩ := List.mem_iff_getElem.1 hd'
        have hs := l2 i (by omega) hi
        simp only [List.get_eq_getElem] at hs
        exact ⟨q, dq, _, g1, e, List.getElem_mem _, hs.role.trans hname⟩

/-! ### Examples -/

namespace Planted

/-- The repository has the author's metadata for `b` and the attacker's for `a`. -/
def repo : World Toy.Disk :=
  Toy.repos (Toy.files [("timestamp", none, 10), ("snapshot", none, 20), ("targets", none, 30),
    ("a", none, 43), ("b", none, 42)]) [] 100

def env : Env := Delegated.env Delegated.good

def start : Except Err Tuf × Io Toy.Disk :=
  construct env Toy.digest repo Toy.config (.trustedRoot [1]) ⟨Toy.Disk.empty, []⟩

def calls : List Call := [.update, .fetchTarget "p/y".toList, .fetchTarget "q/z".toList]

/-- What a record says about stored metadata. -/
def stored (l : List LogEntry) : List (MetadataPath × MetadataVersion × Bytes) :=
  l.filterMap fun
    | .store p v raw => some (p, v, raw)
    | _ => none

theorem all_guarded (v e) : AllGuarded Delegated.honest (Toy.root v e) := by
  refine ⟨Delegated.root_guarded v e, Attack.guarded_all (Nat.le_refl 1) ?_,
    Attack.guarded_all (Nat.le_refl 1) ?_⟩
  all_goals
    show ∀ k ∈ [Toy.key "k".toList 7], k.value = [7] ∨ k.value = [8]
    decide +kernel

/-- The hypotheses of C126_stored_is_the_authors. The client looks for a target of `a` and for a target of
`b`. Of what it gets it stores all but the attacker's metadata. -/
example : Unforgeable env Delegated.honest (· ∈ Delegated.good) ∧ Decoders env ∧
    (∀ t0, StartsWith env (.trustedRoot [1]) t0 → AllGuarded Delegated.honest t0.root ∧
      ∀ r, Approved (· ∈ Delegated.good) env.rootFromSlice r → t0.root.version < r.version →
        AllGuarded Delegated.honest r) ∧
    (∀ m, Approved (· ∈ Delegated.good) env.targetsFromSlice m → DelegationsGuarded Delegated.honest m) ∧
    start = (.ok Toy.boot, start.2) ∧
    stored (execAll env Toy.digest repo Toy.config ⟨Toy.boot, start.2⟩ calls).io.log =
      [("timestamp".toList, .none, [10]), ("snapshot".toList, .none, [20]), ("targets".toList, .none, [30]),
       ("b".toList, .none, [42])] := by
  refine ⟨Delegated.unforgeable _, Delegated.decoders _, fun t0 h0 => ?_, Delegated.good_targets,
    Prod.ext (by decide +kernel) rfl, by decide +kernel⟩
  have e : fromTrustedRoot env [1] = .ok Toy.boot := by decide +kernel
  have h0 : fromTrustedRoot env [1] = .ok t0 := h0
  rw [e] at h0
  cases h0
  exact ⟨all_guarded 1 1000, fun r h hv => absurd hv (Delegated.no_later _ r h)⟩

/-- The keys that are expected to have signed the root. -/
def keys : List PublicKey := [Toy.key "k".toList 7, Toy.key "d".toList 8]

def rootRepo : World Toy.Disk := Toy.repos (Toy.files [("root", some 1, 1)]) [] 100

/-- The hypotheses of C126_constructors, and a constructor that stores a root. -/
example : Unforgeable env Delegated.honest (· ∈ Delegated.good) ∧ Guarded Delegated.honest 2 keys ∧
    stored (construct env Toy.digest rootRepo Toy.config (.trustedRootKeys (.number 1) 2 keys)
      ⟨Toy.Disk.empty, []⟩).2.log = [("root".toList, .number 1, [1])] :=
  ⟨Delegated.unforgeable _, Attack.guarded_all (by decide)
    (by show ∀ k ∈ keys, k.value = [7] ∨ k.value = [8]; decide +kernel), by decide +kernel⟩

end Planted

end RustTuf.Props
