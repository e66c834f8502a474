import Verif.Lemmas.Map
import Verif.Spec.Trust
import Mathlib.Data.List.Perm.Subperm
import Mathlib.Data.List.Count

/-! Lemmas about `verifySignatures`. -/

namespace RustTuf
open Spec

theorem valid_iff (E : Env) (k : PublicKey) (msg : Bytes) (s : Signature) :
    k.verify E msg s = true ↔ Valid E k msg s := by
  unfold PublicKey.verify Valid
  cases h : k.scheme <;> simp

/-- A signature map entry counts. -/
def good (E : Env) (auth : Map KeyId PublicKey) (msg : Bytes) (p : KeyId × Signature) : Bool :=
  match auth.get? p.1 with
  | some k => k.verify E msg p.2
  | none => false

theorem countDown_cons (E : Env) (auth : Map KeyId PublicKey) (msg : Bytes)
    (p : KeyId × Signature) (l : List (KeyId × Signature)) (n : Nat) :
    countDown E auth msg (p :: l) n =
      if (if good E auth msg p then n - 1 else n) = 0 then 0
      else countDown E auth msg l (if good E auth msg p then n - 1 else n) := by
  obtain ⟨id, sig⟩ := p
  have : (match auth.get? id with
      | some k => if k.verify E msg sig then n - 1 else n
      | none => n) = if good E auth msg (id, sig) then n - 1 else n := by
    unfold good
    split <;> rename_i h
    · simp [h]
    · simp [h]
  rw [← this]
  rfl

theorem countDown_eq (E : Env) (auth : Map KeyId PublicKey) (msg : Bytes)
    (l : List (KeyId × Signature)) (n : Nat) :
    countDown E auth msg l n = n - l.countP (good E auth msg) := by
  induction l generalizing n with
  | nil => simp [countDown]
  | cons p l ih =>
    rw [countDown_cons, List.countP_cons, ih]
    by_cases hg : good E auth msg p
    · simp only [hg, if_true]
      split <;> omega
    · simp only [hg]
      simp only [Bool.false_eq_true, if_false]
      split <;> omega

theorem get?_collect_map {α K : Type} [DecidableEq K] (f : α → K) (l : List α) (k : K) (a : α) :
    Map.get? (Map.collect (l.map fun x => (f x, x))) k = some a ↔
      LastWith (fun x => f x = k) l a := by
  rw [Map.get?_collect_eq_some]
  constructor
  · rintro ⟨pre, post, e, hp⟩
    obtain ⟨pre', rest, e1, e2, e3⟩ := List.map_eq_append_iff.1 e
    obtain ⟨x, post', e4, e5, e6⟩ := List.map_eq_cons_iff.1 e3
    simp at e5
    obtain ⟨hk, rfl⟩ := e5
    refine ⟨hk, pre', post', by rw [e1, e4], ?_⟩
    intro y hy e
    exact hp (f y, y) (by rw [← e6]; exact List.mem_map.2 ⟨y, hy, rfl⟩) e
  · rintro ⟨hk, pre, post, e, hp⟩
    refine ⟨pre.map (fun x => (f x, x)), post.map (fun x => (f x, x)), ?_, ?_⟩
    · simp [e, hk]
    · intro q hq
      obtain ⟨y, hy, rfl⟩ := List.mem_map.1 hq
      exact hp y hy

/-- Entries of a map with distinct keys that count, expressed as a set of key IDs. -/
theorem countP_ge_iff (E : Env) (auth : Map KeyId PublicKey) (msg : Bytes)
    (m : Map KeyId Signature) (hm : (Map.keys m).Nodup) (n : Nat) :
    n ≤ m.countP (good E auth msg) ↔
      ∃ ids : List KeyId, ids.Nodup ∧ n ≤ ids.length ∧
        ∀ id ∈ ids, ∃ k s, auth.get? id = some k ∧ m.get? id = some s ∧ Valid E k msg s := by
  constructor
  · intro h
    refine ⟨(m.filter (good E auth msg)).map Prod.fst, ?_, ?_, ?_⟩
    · exact hm.sublist (List.filter_sublist.map _)
    · rw [List.length_map, ← List.countP_eq_length_filter]; exact h
    · intro id hid
      obtain ⟨⟨id', s⟩, hp, rfl⟩ := List.mem_map.1 hid
      obtain ⟨hp1, hp2⟩ := List.mem_filter.1 hp
      simp only [good] at hp2
      cases hk : auth.get? id' with
      | none => rw [hk] at hp2; simp at hp2
      | some k =>
        rw [hk] at hp2
        exact ⟨k, s, rfl, Map.get?_of_mem_nodup hm hp1, (valid_iff ..).1 hp2⟩
  · rintro ⟨ids, hnd, hlen, hall⟩
    have hsub : ids ⊆ (m.filter (good E auth msg)).map Prod.fst := by
      intro id hid
      obtain ⟨k, s, hk, hs, hv⟩ := hall id hid
      refine List.mem_map.2 ⟨(id, s), List.mem_filter.2 ⟨Map.mem_of_get? hs, ?_⟩, rfl⟩
      simp [good, hk, (valid_iff ..).2 hv]
    have := (List.subperm_of_subset hnd hsub).length_le
    rw [List.length_map, ← List.countP_eq_length_filter] at this
    omega

/-- Exact characterisation of the accepting path. -/
theorem verifySignatures_ok_iff (E : Env) {M : Type} (decode : Bytes → Except Err M)
    (raw : Bytes) (n : Nat) (keys : List PublicKey) (m : M) :
    verifySignatures E decode raw n keys = .ok m ↔ Authentic E decode raw n keys m := by
  unfold verifySignatures Authentic SignedBy
  by_cases hn : n < 1
  · simp only [hn, if_true]
    constructor
    · intro h; cases h
    · rintro ⟨msg, ⟨h, _⟩, _⟩; omega
  · simp only [hn, if_false]
    cases hp : E.parseSigned raw with
    | error e => simp
    | ok r =>
      obtain ⟨sigs, signed⟩ := r
      simp only
      by_cases hs : sigs.isEmpty
      · simp only [hs, if_true]
        constructor
        · intro h; cases h
        · rintro ⟨msg, ⟨_, sigs', signed', e, _, ids, hnd, hlen, hall⟩, _⟩
          cases e
          have hnil : sigs = [] := by simpa using hs
          subst hnil
          cases ids with
          | nil => simp at hlen; omega
          | cons id ids =>
            obtain ⟨k, s, _, ⟨_, pre, post, e, _⟩, _⟩ := hall id (by simp)
            simp at e
      · simp only [hs]
        cases hc : E.canonicalize signed with
        | error e =>
          simp only [Bool.false_eq_true, if_false]
          constructor
          · intro h; cases h
          · rintro ⟨msg, ⟨_, sigs', signed', e1, e2, _⟩, _⟩
            cases e1
            rw [hc] at e2; cases e2
        | ok msg =>
          simp only [Bool.false_eq_true, if_false]
          rw [countDown_eq, (E.sigOrder_perm _).countP_eq]
          have key := countP_ge_iff E (Map.collect (keys.map fun k => (k.keyId, k))) msg
            (Map.collect (sigs.map fun s => (s.keyId, s))) (Map.nodup_keys_collect _) n
          simp only [get?_collect_map] at key
          by_cases hle : n ≤ List.countP (good E (Map.collect (keys.map fun k => (k.keyId, k))) msg)
              (Map.collect (sigs.map fun s => (s.keyId, s)))
          · have hz : ¬ (n - List.countP (good E (Map.collect (keys.map fun k => (k.keyId, k))) msg)
              (Map.collect (sigs.map fun s => (s.keyId, s))) > 0) := by omega
            simp only [hz, if_false]
            constructor
            · intro h
              exact ⟨msg, ⟨by omega, sigs, signed, rfl, hc, key.1 hle⟩, h⟩
            · rintro ⟨msg', ⟨_, sigs', signed', e1, e2, _⟩, hd⟩
              cases e1
              rw [hc] at e2; cases e2
              exact hd
          · have hz : (n - List.countP (good E (Map.collect (keys.map fun k => (k.keyId, k))) msg)
              (Map.collect (sigs.map fun s => (s.keyId, s))) > 0) := by omega
            simp only [hz, if_true]
            constructor
            · intro h; cases h
            · rintro ⟨msg', ⟨_, sigs', signed', e1, e2, hids⟩, hd⟩
              cases e1
              rw [hc] at e2; cases e2
              exact absurd (key.2 hids) hle

/-- An authentic document has one content only. -/
theorem Spec.Authentic.unique {E : Env} {M : Type} {decode : Bytes → Except Err M} {raw : Bytes}
    {n n' : Nat} {keys keys' : List PublicKey} {m m' : M}
    (h : Authentic E decode raw n keys m) (h' : Authentic E decode raw n' keys' m') : m = m' := by
  obtain ⟨msg, ⟨_, sigs, signed, e1, e2, _⟩, hd⟩ := h
  obtain ⟨msg', ⟨_, sigs', signed', e1', e2', _⟩, hd'⟩ := h'
  rw [e1] at e1'; cases e1'
  rw [e2] at e2'; cases e2'
  rw [hd] at hd'; cases hd'; rfl

theorem mem_of_lastWith {α : Type} {p : α → Prop} {l : List α} {x : α} (h : LastWith p l x) :
    x ∈ l := by
  obtain ⟨_, pre, post, rfl, _⟩ := h
  simp

theorem filterKeys_eq (keys : Map KeyId PublicKey) (ids : List KeyId) :
    filterKeys keys ids = keysFor keys ids := rfl

theorem rootKeys_eq (r : RootMetadata) : r.rootKeys = rootSigners r := rfl

theorem snapshotKeys_eq (r : RootMetadata) : r.snapshotKeys = snapshotSigners r := rfl

theorem targetsKeys_eq (r : RootMetadata) : r.targetsKeys = targetsSigners r := rfl

theorem timestampKeys_eq (r : RootMetadata) : r.timestampKeys = timestampSigners r := rfl

theorem mem_keysFor (keys : Map KeyId PublicKey) (ids : List KeyId) (k : PublicKey) :
    k ∈ keysFor keys ids ↔ ∃ id ∈ ids, (id, k) ∈ keys := by
  unfold keysFor
  rw [List.mem_filterMap]
  constructor
  · rintro ⟨⟨id, k'⟩, hm, h⟩
    by_cases hc : ids.contains id
    · simp only [hc, if_true, Option.some.injEq] at h
      subst h
      exact ⟨id, by simpa using hc, hm⟩
    · rw [if_neg hc] at h; cases h
  · rintro ⟨id, hid, hm⟩
    exact ⟨(id, k), hm, by simp [hid]⟩

end RustTuf

namespace RustTuf
open Spec

theorem exists_lastWith {α : Type} {p : α → Prop} {l : List α} (h : ∃ x ∈ l, p x) :
    ∃ x, LastWith p l x := by
  induction l with
  | nil => obtain ⟨x, hx, _⟩ := h; cases hx
  | cons a l ih =>
    by_cases hl : ∃ x ∈ l, p x
    · obtain ⟨z, hz, pre, post, e, hp⟩ := ih hl
      exact ⟨z, hz, a :: pre, post, by simp [e], hp⟩
    · obtain ⟨x, hx, px⟩ := h
      rcases List.mem_cons.1 hx with rfl | hx
      · exact ⟨x, px, [], l, rfl, fun y hy py => hl ⟨y, hy, py⟩⟩
      · exact absurd ⟨x, hx, px⟩ hl

/-- Where keys are determined by their ID, the last key with an ID is any key with that ID. -/
theorem lastWith_iff_mem {l : List PublicKey}
    (hu : ∀ k ∈ l, ∀ k' ∈ l, k.keyId = k'.keyId → k = k') (id : KeyId) (k : PublicKey) :
    LastWith (fun k : PublicKey => k.keyId = id) l k ↔ k ∈ l ∧ k.keyId = id := by
  constructor
  · intro h; exact ⟨mem_of_lastWith h, h.1⟩
  · rintro ⟨hk, e⟩
    obtain ⟨z, hz⟩ := exists_lastWith (p := fun k : PublicKey => k.keyId = id) ⟨k, hk, e⟩
    have : k = z := hu k hk z (mem_of_lastWith hz) (e.trans hz.1.symm)
    rw [this]; exact hz

end RustTuf
