import Verif.Lemmas.Verify
import Verif.Spec.Toy

/-!
# Properties of signature verification (C01 to C05)
-/

namespace RustTuf.Props
open Spec

/-- **C01.** Acceptance at threshold `n` implies `n ≥ 1` and valid signatures, over the canonical
signed part from which the result is decoded, by at least `n` different authorised key IDs. -/
theorem C01_threshold_sound (E : Env) {M : Type} (decode : Bytes → Except Err M)
    (raw : Bytes) (n : Nat) (keys : List PublicKey) (m : M)
    (h : verifySignatures E decode raw n keys = .ok m) :
    1 ≤ n ∧ ∃ sigs signed msg,
      E.parseSigned raw = .ok (sigs, signed) ∧
      E.canonicalize signed = .ok msg ∧
      decode msg = .ok m ∧
      ∃ ids : List KeyId, ids.Nodup ∧ n ≤ ids.length ∧
        ∀ id ∈ ids, ∃ k ∈ keys, ∃ s ∈ sigs,
          k.keyId = id ∧ s.keyId = id ∧ Valid E k msg s := by
  obtain ⟨msg, ⟨hn, sigs, signed, e1, e2, ids, hnd, hlen, hall⟩, hd⟩ :=
    (verifySignatures_ok_iff E decode raw n keys m).1 h
  refine ⟨hn, sigs, signed, msg, e1, e2, hd, ids, hnd, hlen, ?_⟩
  intro id hid
  obtain ⟨k, s, hk, hs, hv⟩ := hall id hid
  exact ⟨k, mem_of_lastWith hk, s, mem_of_lastWith hs, hk.1, hs.1, hv⟩

/-- **C02.** If enough different authorised key IDs have a valid last-listed signature and the
signed part decodes, the document is accepted; with C01 this pins down acceptance exactly. -/
theorem C02_threshold_complete (E : Env) {M : Type} (decode : Bytes → Except Err M)
    (raw : Bytes) (n : Nat) (keys : List PublicKey) (m : M) :
    Authentic E decode raw n keys m ↔ verifySignatures E decode raw n keys = .ok m :=
  (verifySignatures_ok_iff E decode raw n keys m).symm

/-- **C02.** Signatures listed before the genuine ones, whatever they are, do not change
acceptance to rejection. -/
theorem C02_leading_junk_harmless (E : Env) {M : Type} (decode : Bytes → Except Err M)
    (raw raw' : Bytes) (n : Nat) (keys : List PublicKey) (m : M)
    (sigs junk : List Signature) (signed : E.Raw)
    (h1 : E.parseSigned raw = .ok (sigs, signed))
    (h2 : E.parseSigned raw' = .ok (junk ++ sigs, signed))
    (h : verifySignatures E decode raw n keys = .ok m) :
    verifySignatures E decode raw' n keys = .ok m := by
  rw [verifySignatures_ok_iff] at h ⊢
  obtain ⟨msg, ⟨hn, sigs', signed', e1, e2, ids, hnd, hlen, hall⟩, hd⟩ := h
  rw [h1] at e1; cases e1
  refine ⟨msg, ⟨hn, _, _, h2, e2, ids, hnd, hlen, ?_⟩, hd⟩
  intro id hid
  obtain ⟨k, s, hk, ⟨hs, pre, post, e, hp⟩, hv⟩ := hall id hid
  exact ⟨k, s, hk, ⟨hs, junk ++ pre, post, by simp [e], hp⟩, hv⟩

/-- **C02.** Appended signatures under key IDs that are not authorised do not change acceptance to
rejection. -/
theorem C02_unauthorised_junk_harmless (E : Env) {M : Type} (decode : Bytes → Except Err M)
    (raw raw' : Bytes) (n : Nat) (keys : List PublicKey) (m : M)
    (sigs junk : List Signature) (signed : E.Raw)
    (h1 : E.parseSigned raw = .ok (sigs, signed))
    (h2 : E.parseSigned raw' = .ok (sigs ++ junk, signed))
    (hj : ∀ s ∈ junk, ∀ k ∈ keys, k.keyId ≠ s.keyId)
    (h : verifySignatures E decode raw n keys = .ok m) :
    verifySignatures E decode raw' n keys = .ok m := by
  rw [verifySignatures_ok_iff] at h ⊢
  obtain ⟨msg, ⟨hn, sigs', signed', e1, e2, ids, hnd, hlen, hall⟩, hd⟩ := h
  rw [h1] at e1; cases e1
  refine ⟨msg, ⟨hn, _, _, h2, e2, ids, hnd, hlen, ?_⟩, hd⟩
  intro id hid
  obtain ⟨k, s, hk, ⟨hs, pre, post, e, hp⟩, hv⟩ := hall id hid
  refine ⟨k, s, hk, ⟨hs, pre, post ++ junk, by simp [e], ?_⟩, hv⟩
  intro y hy
  rcases List.mem_append.1 hy with hy | hy
  · exact hp y hy
  · intro e
    exact hj y hy k (mem_of_lastWith hk) (hk.1.trans e.symm)

/-- **C03.** The outcome, including which error, is the same for every visiting order. -/
theorem C03_order_independent (E : Env) {M : Type} (decode : Bytes → Except Err M)
    (raw : Bytes) (n : Nat) (keys : List PublicKey)
    (order : Map KeyId Signature → List (KeyId × Signature))
    (horder : ∀ m, (order m).Perm m) :
    verifySignatures { E with sigOrder := order, sigOrder_perm := horder } decode raw n keys =
      verifySignatures E decode raw n keys := by
  unfold verifySignatures
  by_cases hn : n < 1
  · simp only [hn, if_true]
  · simp only [hn, if_false]
    cases hp : E.parseSigned raw with
    | error e => rfl
    | ok r =>
      obtain ⟨sigs, signed⟩ := r
      simp only
      by_cases hs : sigs.isEmpty
      · simp only [hs, if_true]
      · simp only [hs]
        cases hc : E.canonicalize signed with
        | error e => rfl
        | ok msg =>
          simp only
          rw [countDown_eq, countDown_eq, (horder _).countP_eq, (E.sigOrder_perm _).countP_eq]
          rfl

/-- **C03.** The order in which the authorised keys are listed does not matter either, as long as
no key ID is listed with two different keys. -/
theorem C03_key_order_independent (E : Env) {M : Type} (decode : Bytes → Except Err M)
    (raw : Bytes) (n : Nat) (keys keys' : List PublicKey) (hperm : keys.Perm keys')
    (huniq : ∀ k ∈ keys, ∀ k' ∈ keys, k.keyId = k'.keyId → k = k') (m : M) :
    verifySignatures E decode raw n keys = .ok m ↔ verifySignatures E decode raw n keys' = .ok m := by
  have huniq' : ∀ k ∈ keys', ∀ k' ∈ keys', k.keyId = k'.keyId → k = k' :=
    fun k hk k' hk' e => huniq k (hperm.mem_iff.2 hk) k' (hperm.mem_iff.2 hk') e
  rw [verifySignatures_ok_iff, verifySignatures_ok_iff]
  unfold Authentic SignedBy
  simp only [lastWith_iff_mem huniq, lastWith_iff_mem huniq', hperm.mem_iff]

/-- **C04, disagreement.** One private key can meet a threshold of two: the same key material listed
under two key IDs (the ID covers the optional `keyid_hash_algorithms` field, so such keys exist)
counts twice. -/
theorem C04_same_material_counts_twice :
    ∃ (E : Env) (raw : Bytes) (keys : List PublicKey) (m : TimestampMetadata),
      verifySignatures E E.timestampFromSlice raw 2 keys = .ok m ∧
      ∃ v sch, ∀ k ∈ keys, k.value = v ∧ k.scheme = sch := by
  let ts : TimestampMetadata :=
    { version := 1, expires := 100, snapshot := { version := 1, length := 1, hashes := [] } }
  let k1 : PublicKey := Toy.key "a".toList 7
  let k2 : PublicKey := { Toy.key "b".toList 7 with keyidHashAlgorithms := some ["sha256".toList] }
  refine ⟨Toy.Table.env
    { docs := [([1], ([Toy.sign "a".toList 7 [2], Toy.sign "b".toList 7 [2]], [2]))]
      timestamps := [([2], ts)] }, [1], [k1, k2], ts, by decide, [7], .ed25519, ?_⟩
  intro k hk
  simp only [List.mem_cons, List.not_mem_nil, or_false] at hk
  rcases hk with rfl | rfl <;> exact ⟨rfl, rfl⟩

/-- **C04, partial.** If different authorised key IDs always stand for different key material, then
acceptance at threshold `n` needs valid signatures under `n` different pieces of key material.
Missing for the full claim: the code does not ensure that hypothesis. -/
theorem C04_distinct_material_partial (E : Env) {M : Type} (decode : Bytes → Except Err M)
    (raw : Bytes) (n : Nat) (keys : List PublicKey) (m : M)
    (hmat : ∀ k ∈ keys, ∀ k' ∈ keys, k.scheme = k'.scheme → k.value = k'.value → k.keyId = k'.keyId)
    (h : verifySignatures E decode raw n keys = .ok m) :
    ∃ sigs signed msg,
      E.parseSigned raw = .ok (sigs, signed) ∧ E.canonicalize signed = .ok msg ∧
      ∃ mats : List (Scheme × Bytes), mats.Nodup ∧ n ≤ mats.length ∧
        ∀ mat ∈ mats, ∃ k ∈ keys, ∃ s ∈ sigs,
          (k.scheme, k.value) = mat ∧ E.ringVerify mat.1 mat.2 msg s.value = true := by
  obtain ⟨_, sigs, signed, msg, e1, e2, _, ids, hnd, hlen, hall⟩ :=
    C01_threshold_sound E decode raw n keys m h
  refine ⟨sigs, signed, msg, e1, e2, ?_⟩
  have key : ∀ ids : List KeyId, ids.Nodup →
      (∀ id ∈ ids, ∃ k ∈ keys, ∃ s ∈ sigs, k.keyId = id ∧ s.keyId = id ∧ Valid E k msg s) →
      ∃ mats : List (Scheme × Bytes), mats.Nodup ∧ mats.length = ids.length ∧
        ∀ mat ∈ mats, ∃ k ∈ keys, ∃ s ∈ sigs, k.keyId ∈ ids ∧
          (k.scheme, k.value) = mat ∧ E.ringVerify mat.1 mat.2 msg s.value = true := by
    intro ids
    induction ids with
    | nil => intro _ _; exact ⟨[], by simp⟩
    | cons id ids ih =>
      intro hnd hall
      obtain ⟨hni, hnd'⟩ := List.nodup_cons.1 hnd
      obtain ⟨mats, h1, h2, h3⟩ := ih hnd' (fun i hi => hall i (List.mem_cons_of_mem _ hi))
      obtain ⟨k, hk, s, hs, e1, e2, hv⟩ := hall id (by simp)
      refine ⟨(k.scheme, k.value) :: mats, ?_, by simp [h2], ?_⟩
      · refine List.nodup_cons.2 ⟨?_, h1⟩
        intro hm
        obtain ⟨k', hk', s', hs', hid', e', _⟩ := h3 _ hm
        simp only [Prod.mk.injEq] at e'
        have := hmat k' hk' k hk e'.1 e'.2
        rw [this, e1] at hid'
        exact hni hid'
      · intro mat hmat
        rcases List.mem_cons.1 hmat with rfl | hmat
        · exact ⟨k, hk, s, hs, by simp [e1], rfl, hv.2⟩
        · obtain ⟨k', hk', s', hs', hid', e', hv'⟩ := h3 _ hmat
          exact ⟨k', hk', s', hs', List.mem_cons_of_mem _ hid', e', hv'⟩
  obtain ⟨mats, h1, h2, h3⟩ := key ids hnd hall
  refine ⟨mats, h1, by omega, ?_⟩
  intro mat hm
  obtain ⟨k, hk, s, hs, _, e, hv⟩ := h3 mat hm
  exact ⟨k, hk, s, hs, e, hv⟩

/-- **C05.** The metadata returned is the decoding of the canonical bytes that were verified. Two
documents whose signed parts have the same canonical bytes never yield different metadata, even if
they are verified against different keys. -/
theorem C05_content_binding (E : Env) {M : Type} (decode : Bytes → Except Err M)
    (raw raw' : Bytes) (n n' : Nat) (keys keys' : List PublicKey) (m m' : M)
    (sigs sigs' : List Signature) (signed signed' : E.Raw)
    (h1 : E.parseSigned raw = .ok (sigs, signed)) (h2 : E.parseSigned raw' = .ok (sigs', signed'))
    (hc : E.canonicalize signed = E.canonicalize signed')
    (h : verifySignatures E decode raw n keys = .ok m)
    (h' : verifySignatures E decode raw' n' keys' = .ok m') :
    m = m' ∧ ∃ msg, E.canonicalize signed = .ok msg ∧ decode msg = .ok m := by
  obtain ⟨_, _, _, msg, e1, e2, hd, _⟩ := C01_threshold_sound E decode raw n keys m h
  obtain ⟨_, _, _, msg', e1', e2', hd', _⟩ := C01_threshold_sound E decode raw' n' keys' m' h'
  rw [h1] at e1; cases e1
  rw [h2] at e1'; cases e1'
  rw [hc, e2'] at e2; cases e2
  rw [hd] at hd'; cases hd'
  exact ⟨rfl, msg, hc.trans e2', hd⟩

/-! ### Non-vacuity -/

namespace VerifyExample
/-- A timestamp. -/
def ts : TimestampMetadata :=
  { version := 1, expires := 100, snapshot := { version := 1, length := 1, hashes := [] } }
/-- Three signatures: one by an unknown key, one invalid by `a` overridden by a valid one, one valid
by `b`. -/
def env : Env := Toy.Table.env
  { docs := [([1], ([Toy.sign "z".toList 9 [2], Toy.sign "a".toList 3 [2],
                     Toy.sign "b".toList 8 [2], Toy.sign "a".toList 7 [2]], [2])),
             ([3], ([Toy.sign "a".toList 7 [2], Toy.sign "a".toList 7 [2]], [2]))]
    timestamps := [([2], ts)] }
/-- Two authorised keys. -/
def keys : List PublicKey := [Toy.key "a".toList 7, Toy.key "b".toList 8]

/-- Hypotheses of C01, C02, C04 (partial) and C05 are met by a document at threshold 2. -/
example : verifySignatures env env.timestampFromSlice [1] 2 keys = .ok ts := by decide
/-- Duplicates by one key do not meet threshold 2. -/
example : verifySignatures env env.timestampFromSlice [3] 2 keys = .error .verification := by decide
example : ∀ k ∈ keys, ∀ k' ∈ keys, k.scheme = k'.scheme → k.value = k'.value → k.keyId = k'.keyId := by
  decide
example : Authentic env env.timestampFromSlice [1] 2 keys ts :=
  (C02_threshold_complete _ _ _ _ _ _).2 (by decide)
/-- C03: a non-trivial order. -/
example : verifySignatures { env with
    sigOrder := fun m => m.reverse, sigOrder_perm := fun m => List.reverse_perm m }
    env.timestampFromSlice [1] 2 keys = .ok ts := by decide
end VerifyExample

end RustTuf.Props
