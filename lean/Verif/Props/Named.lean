import Verif.Spec.Named
import Verif.Props.TufHistory
import Verif.Props.RoundTrip
import Verif.Props.Keyholders

/-!
# C105: signatures count under the key IDs that a role names
-/

namespace RustTuf.Props
open Spec RustTuf Tuf

/-- Keys that are listed under their own IDs sign under IDs that the role names. -/
theorem signedBy_named {E : Env} {raw msg : Bytes} {n : Nat} {keys : Map KeyId PublicKey}
    {ids : List KeyId} (hown : ∀ p ∈ keys, p.1 ∈ ids → p.1 = p.2.keyId) (h : SignedBy E raw msg n (keysFor keys ids)) :
    SignedUnder E raw msg n ids := by
  obtain ⟨h1, sigs, signed, h2, h3, named, h4, h5, h6⟩ := h
  refine ⟨h1, sigs, signed, h2, h3, named, h4, h5, ?_⟩
  intro id hid
  obtain ⟨k, s, hk, hs, hv⟩ := h6 id hid
  obtain ⟨hke, hkm⟩ : k.keyId = id ∧ k ∈ keysFor keys ids := by
    obtain ⟨hp, pre, post, e, -⟩ := hk
    exact ⟨hp, by rw [e]; simp⟩
  obtain ⟨hse, hsm⟩ : s.keyId = id ∧ s ∈ sigs := by
    obtain ⟨hp, pre, post, e, -⟩ := hs
    exact ⟨hp, by rw [e]; simp⟩
  refine ⟨?_, k, s, hke, hsm, hse, hv⟩
  unfold keysFor at hkm
  rw [List.mem_filterMap] at hkm
  obtain ⟨p, hp, hpk⟩ := hkm
  split at hpk
  · rename_i hc
    cases hpk
    have hm : p.1 ∈ ids := by simpa using hc
    rw [← hke, ← hown p hp hm]
    exact hm
  · cases hpk

theorem comesFrom_named {E : Env} {M : Type} {decode : Bytes → Except Err M} {raw : Bytes} {n : Nat}
    {keys : Map KeyId PublicKey} {ids : List KeyId} {m : M} (hown : ∀ p ∈ keys, p.1 ∈ ids → p.1 = p.2.keyId)
    (h : Authentic E decode raw n (keysFor keys ids) m) : ComesFrom E decode n ids m := by
  obtain ⟨msg, h1, h2⟩ := h
  exact ⟨raw, msg, signedBy_named hown h1, h2⟩

variable (X : ShimLib) (ring : Scheme → Bytes → Bytes → Bytes → Bool)
  (order : Map KeyId Signature → List (KeyId × Signature)) (perm : ∀ m, (order m).Perm m)

/-- **C105.** With JSON metadata, the trusted root and the trusted timestamp, snapshot and targets
metadata each come from a document with enough valid signatures under key IDs that the trusted root
names for the role, each by a key with this very ID. -/
theorem C105_top_level_roles (t : Tuf) (h : Fresh (jsonEnv X ring order perm) t) (ops : List Op) :
    let E := jsonEnv X ring order perm
    let t' := run E t ops
    ComesFrom E E.rootFromSlice t'.root.root.threshold t'.root.root.keyIds t'.root ∧
    (∀ m, t'.timestamp = some m →
      ComesFrom E E.timestampFromSlice t'.root.timestamp.threshold t'.root.timestamp.keyIds m) ∧
    (∀ m, t'.snapshot = some m →
      ComesFrom E E.snapshotFromSlice t'.root.snapshot.threshold t'.root.snapshot.keyIds m) ∧
    (∀ m, t'.targets = some m →
      ComesFrom E E.targetsFromSlice t'.root.targets.threshold t'.root.targets.keyIds m) := by
  intro E t'
  have hE : Decoders E := C54_json_decoders X ring order perm
  have key : ∃ raw, Authentic E E.rootFromSlice raw t'.root.root.threshold (rootSigners t'.root) t'.root := by
    obtain ⟨r, rfl, raw, hr⟩ := Fresh.eq E hE t h
    refine run_invariant E (fun t =>
      ∃ raw, Authentic E E.rootFromSlice raw t.root.root.threshold (rootSigners t.root) t.root) ?_ _
      ⟨raw, hr⟩ ops
    intro t op ht
    have hc := step_case E t op
    generalize (step E t op).1 = o at hc
    generalize (step E t op).2 = t' at hc
    cases hc with
    | failed | same | timestamp | timestampExpired | targets | delegation => exact ht
    | root raw new hr => exact ⟨raw, hr.signedBySelf⟩
    | snapshot clk raw new t' hr hp =>
      rw [hp.root]
      exact ht
  obtain ⟨raw, hr⟩ := key
  have hown : ∀ p ∈ t'.root.keys, p.1 = p.2.keyId := by
    obtain ⟨msg, -, h2⟩ := hr
    exact (C54_root X msg _ h2).own
  obtain ⟨h1, h2, h3⟩ := C19_signed_under_current_root E hE t h ops
  refine ⟨comesFrom_named (fun p hp _ => hown p hp) hr, ?_, ?_, ?_⟩
  · intro m hm
    obtain ⟨raw, ha⟩ := h1 m hm
    exact comesFrom_named (fun p hp _ => hown p hp) ha
  · intro m hm
    obtain ⟨raw, ha⟩ := h2 m hm
    exact comesFrom_named (fun p hp _ => hown p hp) ha
  · intro m hm
    obtain ⟨raw, ha⟩ := h3 m hm
    exact comesFrom_named (fun p hp _ => hown p hp) ha

/-- **C105 (partial).** The same for delegated metadata, if the delegating role lists the keys that it
names under their own IDs. Missing: the library does not check this, see `C105_foreign_key_is_accepted`. -/
theorem C105_delegated_roles_partial (E : Env) (clk : Clock) (t t' : Tuf) (parent role : MetadataPath)
    (raw : Bytes) (h : updateDelegation E clk t parent role raw = (.ok true, t')) :
    ∃ ds d new, Delegates t parent role ds d ∧ t'.delegations.get? role = some new ∧
      ((∀ p ∈ ds.keys, p.1 ∈ d.keyIds → p.1 = p.2.keyId) →
        ComesFrom E E.targetsFromSlice d.threshold d.keyIds new) := by
  obtain ⟨⟨new, hr, hn⟩, -⟩ := C18_delegation_effect E clk t t' parent role raw h
  obtain ⟨ds, d, hd, ha⟩ := hr.signed
  exact ⟨ds, d, new, hd, hn, fun hown => comesFrom_named hown ha⟩

/-- **C105 is false for delegated roles.** If the delegating role lists a key under an ID that is not
its own, and names this ID for the delegated role, then a document is accepted that is signed by this
key, under the ID of this key, although it has no signature under the ID that the delegation names. -/
theorem C105_foreign_key_is_accepted (E : Env) (clk : Clock) (t : Tuf) (parent role : MetadataPath)
    (ds : Delegations) (d : Delegation) (id : KeyId) (k : PublicKey) (hd : Delegates t parent role ds d)
    (hkeys : ds.keys = [(id, k)]) (hids : d.keyIds = [id]) (hthr : d.threshold = 1)
    (raw msg : Bytes) (sigs : List Signature) (s : Signature) (signed : E.Raw) (new : TargetsMetadata)
    (hraw : E.parseSigned raw = .ok (sigs, signed)) (hmsg : E.canonicalize signed = .ok msg)
    (hs : LastWith (fun s => s.keyId = k.keyId) sigs s) (hno : ∀ s ∈ sigs, s.keyId ≠ id) (hv : Valid E k msg s) (hnew : E.targetsFromSlice msg = .ok new)
    (m : MetadataDescription) (hctx : DelegationContext clk t role m)
    (hver : verOf (·.version) (t.delegations.get? role) < m.version) (hm : new.version = m.version)
    (hexp : clk .new < new.expires) :
    updateDelegation E clk t parent role raw =
      (.ok true, { t with delegations := t.delegations.insert role new }) ∧
    ∀ msg, ¬ SignedUnder E raw msg d.threshold d.keyIds := by
  constructor
  · rw [C18_delegation_rule]
    refine ⟨new, ⟨⟨m, hctx, hver, hm⟩, ⟨ds, d, hd, msg, ⟨by omega, sigs, signed, hraw, hmsg, [k.keyId],
      by simp, by simp [hthr], ?_⟩, hnew⟩, hexp⟩, rfl⟩
    intro id' hid
    obtain rfl : id' = k.keyId := by simpa using hid
    refine ⟨k, s, ⟨rfl, [], [], ?_, nofun⟩, hs, hv⟩
    simp [keysFor, hkeys, hids]
  · rintro msg' ⟨-, sigs, signed', h1, -, named, -, hl, hn⟩
    rw [hraw] at h1
    cases h1
    cases named with
    | nil => simp [hthr] at hl
    | cons a l =>
      obtain ⟨ha, k', s', hk', hs', hsk, -⟩ := hn a (by simp)
      rw [hids] at ha
      obtain rfl : a = id := by simpa using ha
      exact hno s' hs' hsk

/-- **C105.** Such metadata can be published: targets metadata that lists a key under an ID that is
not its own, and names this ID, is written and read back unchanged. -/
theorem C105_foreign_key_is_decoded (L : Laws X) (k : PublicKey) (hk : GoodKey X k) (id : KeyId)
    (hid : IsKeyId id) (expires : Time) (hx : GoodDate X expires) :
    ∃ j m ds d, decodeTargets X j = some m ∧ m.delegations = some ds ∧ ds.keys = [(id, k)] ∧
      ds.roles = [d] ∧ d.threshold = 1 ∧ d.keyIds = [id] := by
  let d : Delegation := { role := "a".toList, terminating := false, threshold := 1, keyIds := [id], paths := ["p/".toList] }
  let m : TargetsMetadata := { version := 1, expires := expires, targets := [], delegations := some ⟨[(id, k)], [d]⟩ }
  have hm : PublishableTargets X m := by
    refine ⟨⟨⟨show 1 ≤ 1 by decide, show 1 < 2 ^ 32 by decide⟩, nofun, List.nodup_nil, ?_⟩, hx, nofun, nofun, ?_, ?_⟩
    · rintro _ ⟨⟩
      refine ⟨by simp, ?_, by simp, nofun, nofun⟩
      intro r hr
      obtain rfl : r = d := by simpa using hr
      exact ⟨⟨Nat.le_refl _, Nat.le_refl _, by simp [d], by simpa [d] using hid⟩, nofun, by simp [d]⟩
    · rintro _ ⟨⟩ p hp
      obtain rfl : p = (id, k) := by simpa using hp
      exact ⟨hid, hk⟩
    · rintro _ ⟨⟩ r hr
      obtain rfl : r = d := by simpa using hr
      refine ⟨show 1 < 2 ^ 32 by decide, show MetadataPath.new "a".toList = .ok "a".toList by decide, ?_⟩
      intro p hp
      obtain rfl : p = "p/".toList := by simpa [d] using hp
      decide
  obtain ⟨j, m', -, h2, h3⟩ := C70_targets X L m hm
  have hds := h3.delegations
  cases hm' : m'.delegations with
  | none => rw [hm'] at hds; cases hds
  | some ds =>
    rw [hm'] at hds
    cases hds with
    | some hds =>
      have hnd := ((decodeTargets_some h2).1.delegations ds hm').keys
      have hall : ∀ p ∈ ds.keys, p = (id, k) := by
        rintro ⟨a, b⟩ hp
        have hg := Map.get?_of_mem_nodup hnd hp
        have ha : a = id := by
          apply Classical.byContradiction
          intro hne
          have := hds.keys.none a (by simp [Map.get?, Ne.symm hne])
          rw [hg] at this
          cases this
        obtain ⟨w, hw, e⟩ := hds.keys.there id k (by simp [Map.get?])
        subst ha e
        rw [hg] at hw
        cases hw
        rfl
      have hkeys : ds.keys = [(id, k)] := by
        cases hl : ds.keys with
        | nil =>
          obtain ⟨w, hw, -⟩ := hds.keys.there id k (by simp [Map.get?])
          rw [hl] at hw
          cases hw
        | cons p l =>
          rw [hl] at hall hnd
          cases l with
          | nil => rw [hall p (by simp)]
          | cons q l =>
            rw [hall p (by simp), hall q (by simp)] at hnd
            simp at hnd
      have hroles := hds.roles
      cases hl : ds.roles with
      | nil => rw [hl] at hroles; cases hroles
      | cons r l =>
        rw [hl] at hroles
        cases hroles with
        | cons hr hrest =>
          cases hrest
          refine ⟨_, m', ds, r, h2, hm', hkeys, hl, hr.threshold.symm, ?_⟩
          obtain ⟨h4, h5, h6⟩ := hr.keyIds
          cases hi : r.keyIds with
          | nil => rw [hi] at h5; cases h5
          | cons a l =>
            rw [hi] at h5 h6
            have : l = [] := List.length_eq_zero_iff.1 (by simpa [d] using h5)
            subst this
            have := (h6 a).2 (by simp)
            rw [show a = id by simpa [d] using this]

/-! ### Examples -/

open KeyholdersExample in
-- A store that starts from a published root.
example : ∃ t, Fresh jenv t := by
  obtain ⟨raw, h⟩ := starts PublishExample.id0
    ⟨match Json.canonicalize (signedRoot PublishExample.id0).metadata.1 with | .ok b => b | .error _ => [],
      by decide +kernel, by decide +kernel⟩ (by decide +kernel) (by decide +kernel)
  exact ⟨_, .inl ⟨raw, _, _, h⟩⟩

-- The keys of this delegation are listed under their own IDs.
example : ∃ t', updateDelegation Toy.env (Toy.clk 100) { Toy.full with delegations := [] }
    "targets".toList "a".toList [40] = (.ok true, t') ∧
    ∃ ta ds, Toy.full.targets = some ta ∧ ta.delegations = some ds ∧ ∀ p ∈ ds.keys, p.1 = p.2.keyId :=
  ⟨_, rfl, _, _, rfl, rfl, by decide⟩

namespace NamedExample
open Toy

/-- Delegations that list the key `d` under the ID `x`. -/
def foreign : Delegations :=
  { keys := [("x".toList, key "d".toList 8)]
    roles := [{ role := "a".toList, terminating := false, threshold := 1, keyIds := ["x".toList], paths := ["p/".toList] }] }

def store : Tuf :=
  { full with
    targets := full.targets.map fun ta => { ta with delegations := some foreign }
    delegations := [] }

-- Hypotheses and conclusion of `C105_foreign_key_is_accepted`.
example : ∃ d new m sn ta, Delegates store "targets".toList "a".toList foreign d ∧ d.keyIds = ["x".toList] ∧
    d.threshold = 1 ∧ Toy.env.parseSigned [40] = .ok ([sign "k".toList 7 [40], sign "d".toList 8 [40]], [40]) ∧
    store.snapshot = some sn ∧ sn.metas.get? "a".toList = some m ∧ store.targets = some ta ∧
    Toy.env.targetsFromSlice [40] = .ok new ∧ new.version = m.version ∧
    updateDelegation Toy.env (clk 100) store "targets".toList "a".toList [40] =
      (.ok true, { store with delegations := [("a".toList, new)] }) :=
  ⟨_, targets 1 500 [("p/y", 3)] none, descr 1, _, _, ⟨_, .inl ⟨rfl, rfl⟩, rfl, [], [], rfl, rfl, nofun⟩, rfl, rfl, by decide, rfl, by decide, rfl,
    by decide, by decide, by decide⟩

end NamedExample

-- Hypotheses of `C105_foreign_key_is_decoded`.
example : Laws PublishExample.lib ∧ GoodKey PublishExample.lib PublishExample.key ∧
    IsKeyId KeyholdersExample.id1 ∧ KeyholdersExample.id1 ≠ PublishExample.key.keyId ∧
    GoodDate PublishExample.lib 1 :=
  ⟨PublishExample.laws, PublishExample.goodKey, by decide +kernel, by decide +kernel, PublishExample.publishable.date⟩

end RustTuf.Props
