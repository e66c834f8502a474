import Verif.Props.Editing
import Verif.Props.PublishExample

/-!
# Examples for C108
The root key `a` is joined by `b`, and both must sign from now on; and a snapshot whose targets
metadata is replaced.
-/

namespace RustTuf.Props
open Spec RustTuf Json

namespace EditingExample
open PublishExample (laws ring goodHashes hashes)

/-- As in `PublishExample`, with a digest that tells keys apart. -/
def lib : ShimLib :=
  { PublishExample.lib with sha256 := fun b => List.replicate 31 0 ++ [b.foldl (· + ·) 0] }

theorem laws : Laws lib := ⟨PublishExample.laws.base64, PublishExample.laws.spki⟩

def keyOf (n : UInt8) : PublicKey :=
  (PublicKey.make lib .ed25519 .ed25519 none (n :: List.replicate 31 7)).getD PublishExample.key

def a : PublicKey := keyOf 1
def b : PublicKey := keyOf 2

theorem differ : a.keyId ≠ b.keyId := by decide +kernel
theorem good_a : IsKeyId a.keyId ∧ GoodKey lib a := ⟨by decide +kernel, by decide +kernel, .inl (by decide +kernel)⟩
theorem good_b : IsKeyId b.keyId ∧ GoodKey lib b := ⟨by decide +kernel, by decide +kernel, .inl (by decide +kernel)⟩

def role : RoleDefinition := ⟨1, [a.keyId]⟩

def root : RootMetadata := ⟨3, 1, true, [(a.keyId, a)], role, role, role, role⟩

theorem publishable : PublishableRoot lib root where
  good := by
    constructor
    all_goals first | decide +kernel | exact ⟨by decide +kernel, by decide +kernel, by decide +kernel, by decide +kernel⟩
  keys := by
    intro p hp
    rw [List.mem_singleton.1 hp]
    exact good_a
  date := rfl
  small := by decide +kernel

/-- The new root key; both keys must sign. -/
def calls : List RootCall := [.key .root b, .threshold .root 2, .version 4]

def edited : RootMetadata :=
  { root with version := 4, keys := [(b.keyId, b), (a.keyId, a)], root := ⟨2, [a.keyId, b.keyId]⟩ }

-- Hypothesis of `C108_root_is_edited` and `C108_no_key_is_removed`.
theorem built : ((RootBuilder.ofRoot root).calls calls).build = .ok edited := by decide +kernel

example : EditedRoot root calls edited := C108_root_is_edited _ _ _ built

example : a.keyId ∈ (roleOf root .root).keyIds := by decide +kernel
example : ∀ k ∈ calls.filterMap RootCall.key?, k.keyId ≠ a.keyId := by
  intro k hk
  have : k = b := by simpa [calls, RootCall.key?] using hk
  rw [this]
  exact differ.symm

-- Hypotheses of `C108_key_listed_already`.
example : ((RootBuilder.ofRoot root).calls [.key .root a, .version 4]).build =
    .ok { root with version := 4, root := ⟨1, [a.keyId, a.keyId]⟩ } := by decide +kernel

theorem fits : ∀ c ∈ calls, RootCall.Fits c := by
  intro c hc
  simp only [calls, List.mem_cons, List.not_mem_nil, or_false] at hc
  rcases hc with rfl | rfl | rfl
  all_goals first | trivial | (unfold RootCall.Fits; decide)

theorem keys : ∀ k ∈ calls.filterMap RootCall.key?, IsKeyId k.keyId ∧ GoodKey lib k := by
  intro k hk
  have : k = b := by simpa [calls, RootCall.key?] using hk
  rw [this]
  exact good_b

theorem distinct : DistinctIds edited := by
  intro role
  cases role <;> decide +kernel

example : PublishableRoot lib edited :=
  C108_edited_root_is_publishable lib root publishable calls edited built fits keys rfl distinct

/-! ### Signing -/

def signer (k : PublicKey) : PrivateKey := ⟨fun msg => .ok ⟨k.keyId, msg.take 3⟩, k.keyId⟩

def encoded : Json := (encodeRoot lib edited).getD .null

theorem encoded_eq : encodeRoot lib edited = some encoded := by decide +kernel

def sigOf (k : PublicKey) : Signature := ⟨k.keyId, "{\"_".toList.map fun c => c.toNat.toUInt8⟩

def first : SignedMetadata JsonValue := ⟨[sigOf a], encoded.toValue⟩
def signed : SignedMetadata JsonValue := ⟨[sigOf a, sigOf b], encoded.toValue⟩

theorem canonical : ∃ msg, Json.canonicalize encoded.toValue.1 = .ok msg ∧
    msg.take 3 = "{\"_".toList.map fun c => c.toNat.toUInt8 := by
  refine ⟨match Json.canonicalize encoded.toValue.1 with | .ok b => b | .error _ => [], ?_, ?_⟩
  · decide +kernel
  · decide +kernel

theorem own (k : PublicKey) : PrivateKey.Own (signer k) := by
  intro m s h
  cases h
  rfl

theorem canonicalize_eq (v : JsonValue) :
    (jsonInterchange (decodeRoot lib)).canonicalize v = Json.canonicalize v.1 := rfl

theorem made : Made (jsonInterchange (decodeRoot lib)) signed := by
  obtain ⟨msg, hc, ht⟩ := canonical
  have hc' : (jsonInterchange (decodeRoot lib)).canonicalize encoded.toValue = .ok msg := by
    rw [canonicalize_eq]; exact hc
  have h1 : SignedMetadata.new (jsonInterchange (decodeRoot lib)) encoded.toValue (signer a) = .ok first := by
    unfold SignedMetadata.new
    rw [hc']
    simp only [signer, ht, first, sigOf]
  have h2 : (first.addSignature (jsonInterchange (decodeRoot lib)) (signer b)).2 = signed := by
    unfold SignedMetadata.addSignature
    have : (jsonInterchange (decodeRoot lib)).canonicalize first.metadata = .ok msg := by
      rw [canonicalize_eq]; exact hc
    rw [this]
    have hf : first.signatures.filter (fun s => decide (s.keyId ≠ (signer b).publicKeyId)) = [sigOf a] := by
      decide +kernel
    simp only [signer] at hf ⊢
    rw [hf, ht]
    rfl
  rw [← h2]
  exact .add _ _ (.new _ _ _ (own a) h1) (own b)

theorem published (ks : List PublicKey) (hk : ∀ k ∈ ks, k = a ∨ k = b) (hn : ks.Nodup) (h1 : 1 ≤ ks.length) :
    Published lib ring id (fun _ => .refl _) (encodeRoot lib) (decodeRoot lib) edited signed ks ks.length := by
  obtain ⟨msg, hc, ht⟩ := canonical
  refine ⟨made, ⟨encoded, encoded_eq, rfl⟩, ?_, ?_, h1, ks, hn, Nat.le_refl _, ?_⟩
  · intro s hs
    simp only [signed, List.mem_cons, List.not_mem_nil, or_false] at hs
    rcases hs with rfl | rfl
    · exact good_a.1
    · exact good_b.1
  · intro k hk1 k' hk2 e
    rcases hk k hk1 with rfl | rfl <;> rcases hk k' hk2 with rfl | rfl
    · rfl
    · exact absurd e differ
    · exact absurd e.symm differ
    · rfl
  · intro k hk1
    refine ⟨hk1, sigOf k, ?_, rfl, fun m hm => ⟨?_, ?_⟩⟩
    · rcases hk k hk1 with rfl | rfl
      · exact List.mem_cons_self ..
      · exact List.mem_cons_of_mem _ (List.mem_singleton.2 rfl)
    · rcases hk k hk1 with rfl | rfl <;> decide +kernel
    · have hm : Json.canonicalize encoded.toValue.1 = .ok m := hm
      rw [hc] at hm
      cases hm
      show (_ == msg.take 3) = true
      rw [ht]
      exact beq_self_eq_true _

-- All hypotheses of `C108_next_root_is_accepted`.
example : ∃ raw new, signed.toRaw = .ok raw ∧
    Tuf.updateRoot (jsonEnv lib ring id fun _ => .refl _) ⟨root, none, none, none, []⟩ raw =
      (.ok (), ⟨new, none, none, none, []⟩) ∧ SameRoot edited new := by
  refine C108_next_root_is_accepted lib ring id (fun _ => .refl _) laws ⟨root, none, none, none, []⟩
    publishable calls edited built fits keys rfl distinct (by decide) signed ?_ ?_
  · have e : rootSigners root = [a] := by decide +kernel
    show Published lib ring id (fun _ => .refl _) _ _ _ _ (rootSigners root) 1
    rw [e]
    exact published [a] (by simp) (by simp) (by simp)
  · have e : rootSigners edited = [b, a] := by decide +kernel
    show Published lib ring id (fun _ => .refl _) _ _ _ _ (rootSigners edited) 2
    rw [e]
    refine published [b, a] (by simp) ?_ (by simp)
    simp only [List.nodup_cons, List.mem_singleton, List.not_mem_nil, not_false_eq_true, List.nodup_nil,
      and_true]
    exact fun h => differ (congrArg PublicKey.keyId h).symm

/-! ### Snapshot -/

def D : Digest := fun _ b => b.take 2

def description (v : Nat) : MetadataDescription := ⟨v, 100, hashes⟩

def snapshot : SnapshotMetadata := ⟨6, 1, [("targets".toList, description 4), ("r".toList, description 1)]⟩

def snapshotCalls : List SnapshotCall := [.version 7, .description "targets".toList (description 5)]

def snapshot' : SnapshotMetadata := ⟨7, 1, [("targets".toList, description 5), ("r".toList, description 1)]⟩

-- Hypotheses of `C108_snapshot_is_edited`: the entry of the delegated role is kept.
example : (SnapshotBuilder.ofSnapshot snapshot).calls D snapshotCalls =
      .ok ⟨7, 1, [("targets".toList, description 5), ("r".toList, description 1)]⟩ ∧
    (SnapshotBuilder.mk 7 1 [("targets".toList, description 5), ("r".toList, description 1)]).build =
      .ok snapshot' := ⟨by rfl, by rfl⟩

-- Hypotheses of `C108_edited_snapshot_is_publishable`.
example : GoodSnapshot snapshot ∧ (∀ p ∈ snapshot.metas, MetadataPath.new p.1 = .ok p.1) ∧
    ∀ c ∈ snapshotCalls, SnapshotCall.Fits c := by
  refine ⟨⟨by decide +kernel, ?_, by decide +kernel⟩, by decide +kernel, ?_⟩
  · intro p hp
    simp only [snapshot, List.mem_cons, List.not_mem_nil, or_false] at hp
    rcases hp with rfl | rfl <;> exact ⟨by decide +kernel, by decide, goodHashes⟩
  · intro c hc
    simp only [snapshotCalls, List.mem_cons, List.not_mem_nil, or_false] at hc
    rcases hc with rfl | rfl
    · unfold SnapshotCall.Fits; decide
    · exact ⟨by decide +kernel, by decide +kernel, by decide, goodHashes⟩

end EditingExample

end RustTuf.Props
