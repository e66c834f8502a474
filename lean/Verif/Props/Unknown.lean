import Verif.Model.JsonEnv
import Verif.Props.Verify
import Verif.Props.Shims
import Verif.Props.Cjson
import Verif.Props.ShimsExample
import Verif.Spec.Unknown

/-!
# C101: members that a reader does not know
-/

namespace RustTuf.Props
open Spec

/-- Additional members make no difference to this decoder. -/
def Ignores {α : Type} (s : Shape) (f : Json → Option α) : Prop := ∀ j j', Adds s j j' → f j' = f j

theorem ignores_any {α : Type} (f : Json → Option α) : Ignores .any f := by
  intro j j' h; cases h

theorem Ignores.all {α : Type} {s : Shape} {f : Json → Option α} (h : Ignores s f) {j j' : Json}
    (ha : AddsAll s j j') : f j' = f j := by
  induction ha with
  | refl => rfl
  | step _ _ _ h2 ih => rw [h _ _ h2, ih]

/-- One more member in the list of members, or in one of the members. -/
def Members (l : List (Str × Shape)) (m m' : List (Str × Json)) : Prop :=
  (∃ a b k v, (∀ p ∈ l, p.1 ≠ k) ∧ m = a ++ b ∧ m' = a ++ (k, v) :: b) ∨
  (∃ a b n s j j', (n, s) ∈ l ∧ Adds s j j' ∧ m = a ++ (n, j) :: b ∧ m' = a ++ (n, j') :: b)

theorem get?_skip {V : Type} (a b : List (Str × V)) (k n : Str) (v : V) (h : n ≠ k) :
    Map.get? (a ++ (k, v) :: b) n = Map.get? (a ++ b) n := by
  induction a with
  | nil => show (if k = n then _ else _) = _; rw [if_neg fun e => h e.symm]; rfl
  | cons p a ih =>
    obtain ⟨q, x⟩ := p
    show (if q = n then _ else Map.get? (a ++ (k, v) :: b) n) = if q = n then _ else Map.get? (a ++ b) n
    rw [ih]

theorem get?_swap {V : Type} (a b : List (Str × V)) (k n : Str) (v v' : V) :
    Map.get? (a ++ (k, v') :: b) n = Map.get? (a ++ (k, v) :: b) n ∨
    (k = n ∧ Map.get? (a ++ (k, v') :: b) n = some v' ∧ Map.get? (a ++ (k, v) :: b) n = some v) := by
  induction a with
  | nil =>
    by_cases h : k = n
    · refine .inr ⟨h, ?_, ?_⟩ <;> · show (if k = n then _ else _) = _; rw [if_pos h]
    · left; show (if k = n then _ else Map.get? b n) = if k = n then _ else Map.get? b n
      rw [if_neg h, if_neg h]
  | cons p a ih =>
    obtain ⟨q, x⟩ := p
    have e : ∀ c : List (Str × V), Map.get? ((q, x) :: c) n = if q = n then some x else Map.get? c n :=
      fun _ => rfl
    simp only [List.cons_append, e]
    by_cases h : q = n
    · left; rw [if_pos h, if_pos h]
    · rw [if_neg h, if_neg h]; exact ih

theorem nodup_fst {α β : Type} {l : List (α × β)} (h : (l.map (·.1)).Nodup) {a : α} {b b' : β}
    (h1 : (a, b) ∈ l) (h2 : (a, b') ∈ l) : b = b' := by
  have := List.inj_on_of_nodup_map h h1 h2 rfl
  cases this; rfl

theorem Members.field {l : List (Str × Shape)} (hl : (l.map (·.1)).Nodup) {m m' : List (Str × Json)}
    (h : Members l m m') {n : Str} {s : Shape} (hn : (n, s) ∈ l) {α : Type} {f : Json → Option α}
    (hf : Ignores s f) : RustTuf.field m' n f = RustTuf.field m n f := by
  unfold RustTuf.field
  rcases h with ⟨a, b, k, v, h1, rfl, rfl⟩ | ⟨a, b, k, s', j, j', h1, h2, rfl, rfl⟩
  · rw [get?_skip _ _ _ _ _ (h1 _ hn)]
  · rcases get?_swap a b k n j j' with e | ⟨rfl, e1, e2⟩
    · rw [e]
    · rw [e1, e2]
      exact hf _ _ (nodup_fst hl h1 hn ▸ h2)

theorem asOption_ignores {α : Type} {s : Shape} {f : Json → Option α} (hf : Ignores s f) :
    Ignores s (asOption f) := by
  intro j j' h
  have e : ∀ j, j ≠ .null → asOption f j = (f j).map some := by
    intro j hj
    cases j with
    | null => exact absurd rfl hj
    | _ => rfl
  have h1 : j ≠ .null := by rintro rfl; cases h
  have h2 : j' ≠ .null := by rintro rfl; cases h
  rw [e _ h1, e _ h2, hf _ _ h]

theorem Members.fieldOpt {l : List (Str × Shape)} (hl : (l.map (·.1)).Nodup)
    {m m' : List (Str × Json)} (h : Members l m m') {n : Str} {s : Shape} (hn : (n, s) ∈ l) {α : Type}
    {f : Json → Option α} (hf : Ignores s f) : RustTuf.fieldOpt m' n f = RustTuf.fieldOpt m n f := by
  unfold RustTuf.fieldOpt
  rcases h with ⟨a, b, k, v, h1, rfl, rfl⟩ | ⟨a, b, k, s', j, j', h1, h2, rfl, rfl⟩
  · rw [get?_skip _ _ _ _ _ (h1 _ hn)]
  · rcases get?_swap a b k n j j' with e | ⟨rfl, e1, e2⟩
    · rw [e]
    · rw [e1, e2]
      exact asOption_ignores hf _ _ (nodup_fst hl h1 hn ▸ h2)

theorem adds_fields {l : List (Str × Shape)} {j j' : Json} (h : Adds (.fields l) j j') :
    ∃ m m', j = .obj m ∧ j' = .obj m' ∧ Members l m m' := by
  cases h with
  | here _ a b k v h => exact ⟨_, _, rfl, rfl, .inl ⟨a, b, k, v, h, rfl, rfl⟩⟩
  | inField _ a b n s j j' h1 h2 => exact ⟨_, _, rfl, rfl, .inr ⟨a, b, n, s, j, j', h1, h2, rfl, rfl⟩⟩

theorem asStruct_members {l : List (Str × Shape)} {m m' : List (Str × Json)} (h : Members l m m') :
    (asStruct (l.map (·.1)) (.obj m) = none ∧ asStruct (l.map (·.1)) (.obj m') = none) ∨
    (asStruct (l.map (·.1)) (.obj m) = some m ∧ asStruct (l.map (·.1)) (.obj m') = some m') := by
  have e : (Map.keys m').filter (fun k => (l.map (·.1)).contains k) =
      (Map.keys m).filter fun k => (l.map (·.1)).contains k := by
    rcases h with ⟨a, b, k, v, h1, rfl, rfl⟩ | ⟨a, b, k, s', j, j', h1, h2, rfl, rfl⟩
    · have hk : ((l.map (·.1)).contains k) = false := by
        rw [Bool.eq_false_iff]
        intro hc
        rw [List.contains_iff_mem, List.mem_map] at hc
        obtain ⟨p, hp, he⟩ := hc
        exact h1 p hp he
      simp only [Map.keys, List.map_append, List.map_cons, List.filter_append, List.filter_cons, hk]
      rfl
    · simp only [Map.keys, List.map_append, List.map_cons]
  by_cases hn : ((Map.keys m).filter fun k => (l.map (·.1)).contains k).Nodup
  · right
    refine ⟨if_pos hn, if_pos ?_⟩
    rw [e]; exact hn
  · left
    refine ⟨if_neg hn, if_neg ?_⟩
    rw [e]; exact hn

theorem struct_ignores {α : Type} {l : List (Str × Shape)} {g : Map Str Json → Option α}
    (hg : ∀ m m', Members l m m' → g m' = g m) :
    Ignores (.fields l) fun j => asStruct (l.map (·.1)) j >>= g := by
  intro j j' h
  obtain ⟨m, m', rfl, rfl, hm⟩ := adds_fields h
  rcases asStruct_members hm with ⟨h1, h2⟩ | ⟨h1, h2⟩
  · simp only [h1, h2]
  · simp only [h1, h2]
    exact hg m m' hm

theorem mapAll_swap {α β : Type} {f : α → Option β} (a b : List α) (x y : α) (h : f y = f x) :
    mapAll f (a ++ y :: b) = mapAll f (a ++ x :: b) := by
  induction a with
  | nil => simp only [List.nil_append, mapAll, h]
  | cons z a ih => simp only [List.cons_append, mapAll, ih]

theorem asVec_ignores {α : Type} {s : Shape} {f : Json → Option α} (hf : Ignores s f) :
    Ignores (.items s) (asVec f) := by
  intro j j' h
  cases h with
  | inItems _ a b j j' h => exact mapAll_swap a b j j' (hf _ _ h)

theorem asEntries_ignores {K V : Type} {s : Shape} (key : Str → Option K) {value : Json → Option V}
    (hv : Ignores s value) : Ignores (.dict s) (asEntries key value) := by
  intro j j' h
  cases h with
  | inDict _ a b k j j' h =>
    refine mapAll_swap a b (k, j) (k, j') ?_
    simp only [hv _ _ h]

theorem asMap_ignores {K V : Type} [DecidableEq K] {s : Shape} (key : Str → Option K)
    {value : Json → Option V} (hv : Ignores s value) : Ignores (.dict s) (asMap key value) := by
  intro j j' h
  unfold asMap
  rw [asEntries_ignores key hv _ _ h]

theorem asMapNoDup_ignores {K V : Type} [DecidableEq K] {s : Shape} (key : Str → Option K)
    {value : Json → Option V} (hv : Ignores s value) : Ignores (.dict s) (asMapNoDup key value) := by
  intro j j' h
  unfold asMapNoDup
  rw [asEntries_ignores key hv _ _ h]

/-- Finds a member in a shape. -/
macro "known" : tactic =>
  `(tactic| simp only [List.mem_cons, true_or, or_true, eq_self])

section decoders
variable (X : ShimLib)

theorem decodeKeyShim_ignores : Ignores Shape.key decodeKeyShim := by
  refine struct_ignores fun m m' h => ?_
  have hl : (([("keytype".toList, .any), ("scheme".toList, .any), ("keyid_hash_algorithms".toList, .any),
    ("keyval".toList, .fields [("public".toList, .any)])] : List (Str × Shape)).map (·.1)).Nodup := by
    decide +kernel
  rw [h.field hl (n := "keytype".toList) (s := .any) (by known) (ignores_any _)]
  rw [h.field hl (n := "scheme".toList) (s := .any) (by known) (ignores_any _)]
  rw [h.fieldOpt hl (n := "keyid_hash_algorithms".toList) (s := .any) (by known) (ignores_any _)]
  rw [h.field hl (n := "keyval".toList) (s := .fields [("public".toList, .any)]) (by known)]
  refine struct_ignores fun m m' h => ?_
  exact h.field (by decide +kernel) (n := "public".toList) (s := .any) (by known) (ignores_any _)

theorem decodePublicKey_ignores : Ignores Shape.key (decodePublicKey X) := by
  intro j j' h
  unfold decodePublicKey
  rw [decodeKeyShim_ignores _ _ h]

theorem decodeRoleDefinition_ignores : Ignores Shape.role decodeRoleDefinition := by
  refine struct_ignores fun m m' h => ?_
  have hl : (([("threshold".toList, .any), ("keyids".toList, .any)] : List (Str × Shape)).map
    (·.1)).Nodup := by decide +kernel
  rw [h.field hl (n := "threshold".toList) (s := .any) (by known) (ignores_any _)]
  rw [h.field hl (n := "keyids".toList) (s := .any) (by known) (ignores_any _)]

theorem decodeRoles_ignores : Ignores (.fields [("root".toList, Shape.role),
    ("snapshot".toList, Shape.role), ("targets".toList, Shape.role), ("timestamp".toList, Shape.role)])
    decodeRoles := by
  refine struct_ignores fun m m' h => ?_
  have hl : (([("root".toList, Shape.role), ("snapshot".toList, Shape.role),
    ("targets".toList, Shape.role), ("timestamp".toList, Shape.role)] : List (Str × Shape)).map
    (·.1)).Nodup := by decide +kernel
  have e := decodeRoleDefinition_ignores
  rw [show Role.root.name = "root".toList from rfl, show Role.snapshot.name = "snapshot".toList from rfl,
    show Role.targets.name = "targets".toList from rfl,
    show Role.timestamp.name = "timestamp".toList from rfl]
  rw [h.field hl (n := "root".toList) (s := Shape.role) (by known) e]
  rw [h.field hl (n := "snapshot".toList) (s := Shape.role) (by known) e]
  rw [h.field hl (n := "targets".toList) (s := Shape.role) (by known) e]
  rw [h.field hl (n := "timestamp".toList) (s := Shape.role) (by known) e]

theorem decodeHead_known (role : Role) {l : List (Str × Shape)} (hl : (l.map (·.1)).Nodup)
    (h1 : ("_type".toList, .any) ∈ l) (h2 : ("spec_version".toList, .any) ∈ l)
    (h3 : ("version".toList, .any) ∈ l) (h4 : ("expires".toList, .any) ∈ l)
    {m m' : List (Str × Json)} (h : Members l m m') : decodeHead X role m' = decodeHead X role m := by
  unfold decodeHead
  rw [h.field hl h1 (ignores_any _), h.field hl h2 (ignores_any _), h.field hl h3 (ignores_any _),
    h.field hl h4 (ignores_any _)]

theorem decodeRoot_ignores : Ignores Shape.root (decodeRoot X) := by
  refine struct_ignores fun m m' h => ?_
  have hl : (([("_type".toList, .any), ("spec_version".toList, .any), ("version".toList, .any),
    ("consistent_snapshot".toList, .any), ("expires".toList, .any), ("keys".toList, .dict Shape.key),
    ("roles".toList, .fields [("root".toList, Shape.role), ("snapshot".toList, Shape.role),
      ("targets".toList, Shape.role), ("timestamp".toList, Shape.role)])] : List (Str × Shape)).map
    (·.1)).Nodup := by decide +kernel
  rw [h.field hl (n := "consistent_snapshot".toList) (s := .any) (by known) (ignores_any _)]
  rw [h.field hl (n := "keys".toList) (s := .dict Shape.key) (by known)
    (asMapNoDup_ignores _ (decodePublicKey_ignores X))]
  rw [h.field hl (n := "roles".toList) (by known) decodeRoles_ignores]
  rw [decodeHead_known X .root hl (by known) (by known) (by known) (by known) h]

theorem decodeMetadataDescription_ignores : Ignores Shape.description decodeMetadataDescription := by
  refine struct_ignores fun m m' h => ?_
  have hl : (([("version".toList, .any), ("length".toList, .any), ("hashes".toList, .any)] :
    List (Str × Shape)).map (·.1)).Nodup := by decide +kernel
  rw [h.field hl (n := "version".toList) (s := .any) (by known) (ignores_any _)]
  rw [h.field hl (n := "length".toList) (s := .any) (by known) (ignores_any _)]
  rw [h.field hl (n := "hashes".toList) (s := .any) (by known) (ignores_any _)]

theorem strict_ignores {α : Type} {s : Shape} (names : List Str) (n : Str) {f : Json → Option α}
    (hf : Ignores s f) :
    Ignores (.dict s) fun j => asStructStrict names j >>= fun m => field m n f := by
  intro j j' h
  cases h with
  | inDict _ a b k j j' h =>
    have e : Map.keys (a ++ (k, j') :: b) = Map.keys (a ++ (k, j) :: b) := by
      simp only [Map.keys, List.map_append, List.map_cons]
    simp only [asStructStrict, asStruct, e]
    split
    · rename_i h1; split at h1
      · cases h1
      · rename_i h2; rw [if_neg h2]
    · rename_i m1 h1
      split at h1
      · rename_i h2
        cases h1
        rw [if_pos h2]
        simp only [e]
        split
        · show field _ _ _ = field _ _ _
          unfold field
          rcases get?_swap a b k n j j' with e | ⟨rfl, e1, e2⟩
          · rw [e]
          · rw [e1, e2]; exact hf _ _ h
        · rfl
      · cases h1

theorem decodeTimestamp_ignores : Ignores Shape.listing (decodeTimestamp X) := by
  refine struct_ignores fun m m' h => ?_
  have hl : (([("_type".toList, .any), ("spec_version".toList, .any), ("version".toList, .any),
    ("expires".toList, .any), ("meta".toList, .dict Shape.description)] : List (Str × Shape)).map
    (·.1)).Nodup := by decide +kernel
  rw [h.field hl (n := "meta".toList) (s := .dict Shape.description) (by known)
    (strict_ignores _ _ decodeMetadataDescription_ignores)]
  rw [decodeHead_known X .timestamp hl (by known) (by known) (by known) (by known) h]

theorem decodeSnapshot_ignores : Ignores Shape.listing (decodeSnapshot X) := by
  refine struct_ignores fun m m' h => ?_
  have hl : (([("_type".toList, .any), ("spec_version".toList, .any), ("version".toList, .any),
    ("expires".toList, .any), ("meta".toList, .dict Shape.description)] : List (Str × Shape)).map
    (·.1)).Nodup := by decide +kernel
  rw [h.field hl (n := "meta".toList) (s := .dict Shape.description) (by known)
    (asMapNoDup_ignores _ decodeMetadataDescription_ignores)]
  rw [decodeHead_known X .snapshot hl (by known) (by known) (by known) (by known) h]

theorem decodeTargetDescription_ignores : Ignores Shape.target decodeTargetDescription := by
  have e : Ignores Shape.target (fun j =>
      asStruct ["length".toList, "hashes".toList, "custom".toList] j >>= fun m => do
        let length ← field m "length".toList asU64
        let hashes ← field m "hashes".toList decodeHashes
        let custom ← fieldOpt m "custom".toList (asMap some fun j => some j.normal)
        if hashes ≠ [] then some (⟨length, hashes, custom⟩ : TargetDescription) else none) := by
    refine struct_ignores fun m m' h => ?_
    have hl : (([("length".toList, .any), ("hashes".toList, .any), ("custom".toList, .any)] :
      List (Str × Shape)).map (·.1)).Nodup := by decide +kernel
    rw [h.field hl (n := "length".toList) (s := .any) (by known) (ignores_any _)]
    rw [h.field hl (n := "hashes".toList) (s := .any) (by known) (ignores_any _)]
    rw [h.fieldOpt hl (n := "custom".toList) (s := .any) (by known) (ignores_any _)]
  intro j j' h
  obtain ⟨m, m', rfl, rfl, _⟩ := adds_fields h
  exact e _ _ h

theorem decodeDelegation_ignores : Ignores Shape.delegation decodeDelegation := by
  refine struct_ignores fun m m' h => ?_
  have hl : (([("role".toList, .any), ("terminating".toList, .any), ("threshold".toList, .any),
    ("keyids".toList, .any), ("paths".toList, .any)] : List (Str × Shape)).map (·.1)).Nodup := by
    decide +kernel
  rw [h.field hl (n := "role".toList) (s := .any) (by known) (ignores_any _)]
  rw [h.field hl (n := "terminating".toList) (s := .any) (by known) (ignores_any _)]
  rw [h.field hl (n := "threshold".toList) (s := .any) (by known) (ignores_any _)]
  rw [h.field hl (n := "keyids".toList) (s := .any) (by known) (ignores_any _)]
  rw [h.field hl (n := "paths".toList) (s := .any) (by known) (ignores_any _)]

theorem decodeDelegations_ignores : Ignores (.fields [("keys".toList, .dict Shape.key),
    ("roles".toList, .items Shape.delegation)]) (decodeDelegations X) := by
  refine struct_ignores fun m m' h => ?_
  have hl : (([("keys".toList, .dict Shape.key), ("roles".toList, .items Shape.delegation)] :
    List (Str × Shape)).map (·.1)).Nodup := by decide +kernel
  rw [h.field hl (n := "keys".toList) (s := .dict Shape.key) (by known)
    (asMapNoDup_ignores _ (decodePublicKey_ignores X))]
  rw [h.field hl (n := "roles".toList) (s := .items Shape.delegation) (by known)
    (asVec_ignores decodeDelegation_ignores)]

theorem decodeTargets_ignores : Ignores Shape.targets (decodeTargets X) := by
  refine struct_ignores fun m m' h => ?_
  have hl : (([("_type".toList, .any), ("spec_version".toList, .any), ("version".toList, .any),
    ("expires".toList, .any), ("targets".toList, .dict Shape.target),
    ("delegations".toList, .fields [("keys".toList, .dict Shape.key),
      ("roles".toList, .items Shape.delegation)])] : List (Str × Shape)).map (·.1)).Nodup := by
    decide +kernel
  rw [h.field hl (n := "targets".toList) (s := .dict Shape.target) (by known)
    (asMap_ignores _ decodeTargetDescription_ignores)]
  rw [h.fieldOpt hl (n := "delegations".toList) (by known) (decodeDelegations_ignores X)]
  rw [decodeHead_known X .targets hl (by known) (by known) (by known) (by known) h]

theorem decodeSignature_ignores :
    Ignores (.fields [("keyid".toList, .any), ("sig".toList, .any)]) decodeSignature := by
  refine struct_ignores fun m m' h => ?_
  have hl : (([("keyid".toList, .any), ("sig".toList, .any)] : List (Str × Shape)).map (·.1)).Nodup := by
    decide +kernel
  rw [h.field hl (n := "keyid".toList) (s := .any) (by known) (ignores_any _)]
  rw [h.field hl (n := "sig".toList) (s := .any) (by known) (ignores_any _)]

theorem decodeSigned_ignores : Ignores Shape.signed decodeSigned := by
  refine struct_ignores fun m m' h => ?_
  have hl : (([("signatures".toList, .items (.fields [("keyid".toList, .any), ("sig".toList, .any)])),
    ("signed".toList, .any)] : List (Str × Shape)).map (·.1)).Nodup := by decide +kernel
  rw [h.field hl (n := "signatures".toList) (by known) (asVec_ignores decodeSignature_ignores)]
  rw [h.field hl (n := "signed".toList) (s := .any) (by known) (ignores_any _)]

/-- The readers of the four kinds of metadata, with what they know. -/
inductive Reader (X : ShimLib) : (M : Type) → Shape → (Json → Option M) → Prop
  | root : Reader X RootMetadata Shape.root (decodeRoot X)
  | timestamp : Reader X TimestampMetadata Shape.listing (decodeTimestamp X)
  | snapshot : Reader X SnapshotMetadata Shape.listing (decodeSnapshot X)
  | targets : Reader X TargetsMetadata Shape.targets (decodeTargets X)

theorem Reader.ignores {X : ShimLib} {M : Type} {s : Shape} {decode : Json → Option M}
    (h : Reader X M s decode) : Ignores s decode := by
  cases h with
  | root => exact decodeRoot_ignores X
  | timestamp => exact decodeTimestamp_ignores X
  | snapshot => exact decodeSnapshot_ignores X
  | targets => exact decodeTargets_ignores X

/-- **C101.** Metadata with members that the reader does not know, anywhere in the document, is read as
the same metadata without them, or refused like it. -/
theorem C101_unknown_members_are_ignored {M : Type} (s : Shape) (decode : Json → Option M)
    (hr : Reader X M s decode) (b b' : Bytes) (j j' : Json) (h : AddsAll s j j')
    (hj : parseJson X.float b = .ok j) (hj' : parseJson X.float b' = .ok j') :
    fromSlice X.float decode b' = fromSlice X.float decode b := by
  unfold fromSlice
  rw [hj, hj']
  simp only [hr.ignores.all h]

/-- **C101.** The same outside the signed part: unknown members next to it and in the signatures make no
difference. -/
theorem C101_unknown_members_outside (ring order perm) (b b' : Bytes) (j j' : Json)
    (h : AddsAll Shape.signed j j')
    (hj : parseJson X.float b = .ok j) (hj' : parseJson X.float b' = .ok j') :
    (jsonEnv X ring order perm).parseSigned b' = (jsonEnv X ring order perm).parseSigned b := by
  show fromSlice _ _ _ = fromSlice _ _ _
  unfold fromSlice
  rw [hj, hj']
  simp only [decodeSigned_ignores.all h]

/-- **C101.** So a client accepts documents with unknown members: if enough keys signed the canonical
form of a document whose content is known metadata with additional members, the client gets that
metadata. -/
theorem C101_newer_documents_are_accepted {M : Type} (s : Shape) (decode : Json → Option M)
    (hr : Reader X M s decode) (ring order perm) (raw b' : Bytes) (sigs : List Signature)
    (v v' : JsonValue) (m : M) (n : Nat) (keys : List PublicKey) (hold : decode v.1 = some m)
    (hadd : AddsAll s v.1 v'.1) (hd : Spec.nesting v'.1 < 128)
    (hp : (jsonEnv X ring order perm).parseSigned raw = .ok (sigs, v'))
    (hs : SignedBy (jsonEnv X ring order perm) raw b' n keys) :
    verifySignatures (jsonEnv X ring order perm) (fromSlice X.float decode) raw n keys = .ok m := by
  refine (C02_threshold_complete _ _ _ _ _ _).1 ⟨b', hs, ?_⟩
  obtain ⟨_, sigs2, v2, e1, e2, _⟩ := hs
  rw [hp] at e1
  cases e1
  have e3 : parseJson X.float b' = .ok v'.1 := by
    have := C68_canonical_bytes_read_back_normal X.float v'.1 b' hd e2
    rwa [v'.2] at this
  unfold fromSlice
  rw [e3]
  simp only [hr.ignores.all hadd, hold]

theorem adds_ne {s : Shape} {j j' : Json} (h : Adds s j j') : j ≠ j' := by
  induction h with
  | here l a b k v _ =>
    intro e
    injection e with e
    have := congrArg List.length e
    simp at this
  | inField l a b n s j j' _ _ ih | inDict s a b n j j' _ ih =>
    intro e
    injection e with e
    have := List.append_cancel_left e
    injection this with e1 _
    injection e1 with _ e2
    exact ih e2
  | inItems s a b j j' _ ih =>
    intro e
    injection e with e
    have := List.append_cancel_left e
    injection this with e1 _
    exact ih e1

/-- **C101.** Unknown members are ignored but not unprotected: with one more member, the document has
other canonical bytes, so signatures have to be made for it. -/
theorem C101_unknown_members_are_signed (ring order perm) (s : Shape) (v v' : JsonValue) (b b' : Bytes)
    (h : Adds s v.1 v'.1) (h1 : (jsonEnv X ring order perm).canonicalize v = .ok b)
    (h2 : (jsonEnv X ring order perm).canonicalize v' = .ok b') : b ≠ b' := by
  rintro rfl
  exact adds_ne h (C51_injective _ _ _ (v.2 ▸ isValue_normal v.1) (v'.2 ▸ isValue_normal v'.1) h1 h2)

/-! ### What is not ignored -/

theorem mapAll_none {α β : Type} {f : α → Option β} {l : List α} {x : α} (hx : x ∈ l) (hf : f x = none) :
    mapAll f l = none := by
  cases h : mapAll f l with
  | none => rfl
  | some r =>
    obtain ⟨y, _, hy⟩ : ∃ y, y ∈ r ∧ f x = some y := by
      clear hf
      induction l generalizing r with
      | nil => cases hx
      | cons a l ih =>
        simp only [mapAll] at h
        split at h
        · cases h
        · rename_i b hb
          split at h
          · cases h
          · rename_i l' hl'
            cases h
            rcases List.mem_cons.1 hx with rfl | hx
            · exact ⟨b, List.mem_cons_self .., hb⟩
            · obtain ⟨y, h1, h2⟩ := ih hx _ hl'
              exact ⟨y, List.mem_cons_of_mem _ h1, h2⟩
    rw [hf] at hy; cases hy

theorem asEntries_none {K V : Type} {key : Str → Option K} {value : Json → Option V}
    {m : List (Str × Json)} {k : Str} {j : Json} (hm : (k, j) ∈ m) (h : key k = none ∨ value j = none) :
    asEntries key value (.obj m) = none := by
  refine mapAll_none hm ?_
  rcases h with h | h
  · simp only [h]
  · simp only [h]
    cases key k <;> rfl

/-- The digests of a description are given under the name of an algorithm that the reader does not
know. -/
def UnknownHash (d : Json) : Prop :=
  ∃ m h alg v, d = .obj m ∧ Map.get? m "hashes".toList = some (.obj h) ∧ (alg, v) ∈ h ∧
    alg ≠ "sha256".toList ∧ alg ≠ "sha512".toList

theorem decodeHashes_unknown {h : List (Str × Json)} {alg : Str} {v : Json} (hm : (alg, v) ∈ h)
    (h1 : alg ≠ "sha256".toList) (h2 : alg ≠ "sha512".toList) : decodeHashes (.obj h) = none := by
  unfold decodeHashes asMap
  rw [asEntries_none hm (.inl (by unfold hashAlgOfKey; rw [if_neg h1, if_neg h2]))]
  rfl

theorem asStruct_obj {names : List Str} {m m1 : List (Str × Json)} (h : asStruct names (.obj m) = some m1) :
    m1 = m := by
  have h' : (if ((Map.keys m).filter fun k => names.contains k).Nodup then some m else none) = some m1 := h
  split at h'
  · cases h'; rfl
  · cases h'

theorem struct_none {α : Type} {names : List Str} {m : List (Str × Json)} {g : Map Str Json → Option α}
    (h : g m = none) : (asStruct names (.obj m) >>= g) = none := by
  cases hs : asStruct names (.obj m) with
  | none => rfl
  | some m1 => rw [asStruct_obj hs]; exact h

theorem decodeMetadataDescription_unknown {d : Json} (h : UnknownHash d) :
    decodeMetadataDescription d = none := by
  obtain ⟨m, h, alg, v, rfl, e1, e2, e3, e4⟩ := h
  refine struct_none ?_
  have : field m "hashes".toList decodeHashes = none := by
    unfold field; rw [e1]; exact decodeHashes_unknown e2 e3 e4
  rw [this]
  cases field m "version".toList asU32 <;> cases field m "length".toList asU64 <;> rfl

theorem decodeTargetDescription_unknown {d : Json} (h : UnknownHash d) :
    decodeTargetDescription d = none := by
  obtain ⟨m, h, alg, v, rfl, e1, e2, e3, e4⟩ := h
  refine struct_none ?_
  have : field m "hashes".toList decodeHashes = none := by
    unfold field; rw [e1]; exact decodeHashes_unknown e2 e3 e4
  rw [this]
  cases field m "length".toList asU64 <;> rfl

/-- **Limit of C101.** A digest under an unknown algorithm is not ignored: a single one, next to digests
that the reader knows, makes the whole snapshot or targets metadata unreadable. -/
theorem C101_unknown_hash_refused (j : Json) (m metas : List (Str × Json)) (p : Str) (d : Json)
    (hj : j = .obj m) (hd : (p, d) ∈ metas) (hu : UnknownHash d) :
    (Map.get? m "meta".toList = some (.obj metas) → decodeSnapshot X j = none ∧
      (Map.get? metas "snapshot.json".toList = some d → decodeTimestamp X j = none)) ∧
    (Map.get? m "targets".toList = some (.obj metas) → decodeTargets X j = none) := by
  subst hj
  refine ⟨fun hm => ⟨struct_none ?_, ?_⟩, fun hm => struct_none ?_⟩
  · have : field m "meta".toList (asMapNoDup some decodeMetadataDescription) = none := by
      unfold field
      rw [hm]
      show asMapNoDup _ _ _ = none
      unfold asMapNoDup
      rw [asEntries_none hd (.inr (decodeMetadataDescription_unknown hu))]
    rw [this]; rfl
  · intro hg
    refine struct_none ?_
    have : field m "meta".toList (fun j => do
        let m ← asStructStrict ["snapshot.json".toList] j
        field m "snapshot.json".toList decodeMetadataDescription) = none := by
      unfold field
      rw [hm]
      have hf : field metas "snapshot.json".toList decodeMetadataDescription = none := by
        unfold field
        rw [hg]
        exact decodeMetadataDescription_unknown hu
      show (asStructStrict ["snapshot.json".toList] (.obj metas) >>= fun m =>
        field m "snapshot.json".toList decodeMetadataDescription) = none
      unfold asStructStrict
      cases hs : asStruct ["snapshot.json".toList] (.obj metas) with
      | none => rfl
      | some m1 =>
        rw [asStruct_obj hs]
        dsimp only
        split
        · exact hf
        · rfl
    rw [this]; rfl
  · have : field m "targets".toList (asMap virtualPathOfStr decodeTargetDescription) = none := by
      unfold field
      rw [hm]
      show asMap _ _ _ = none
      unfold asMap
      rw [asEntries_none hd (.inr (decodeTargetDescription_unknown hu))]
      rfl
    rw [this]; rfl

/-- A key of a type or for a signature scheme that the reader does not know. -/
def UnknownKey (j : Json) : Prop :=
  ∃ m s, j = .obj m ∧
    ((Map.get? m "keytype".toList = some (.str s) ∧ s ≠ "ed25519".toList ∧ s ≠ "rsa".toList) ∨
     (Map.get? m "scheme".toList = some (.str s) ∧ s ≠ "ed25519".toList ∧
      s ≠ "rsassa-pss-sha256".toList ∧ s ≠ "rsassa-pss-sha512".toList))

theorem get?_cons_ne {V : Type} {k k' : Str} (v : V) (l : List (Str × V)) (h : k ≠ k') :
    Map.get? ((k', v) :: l) k = Map.get? l k := if_neg fun e => h e.symm

theorem decodeScheme_unknown {s : Str} (h1 : s ≠ "ed25519".toList) (h2 : s ≠ "rsassa-pss-sha256".toList)
    (h3 : s ≠ "rsassa-pss-sha512".toList) : decodeScheme (.str s) = none := by
  show (if s = "Unknown".toList then none else Map.get? [("ed25519".toList, Scheme.ed25519),
    ("rsassa-pss-sha256".toList, Scheme.rsaSsaPssSha256),
    ("rsassa-pss-sha512".toList, Scheme.rsaSsaPssSha512)] s) = none
  split
  · rfl
  · rw [get?_cons_ne _ _ h1, get?_cons_ne _ _ h2, get?_cons_ne _ _ h3]
    rfl

/-- **Limit of C101.** A key of an unknown type or for an unknown scheme is not ignored: one such key
makes the whole root unreadable, also if no role uses it. -/
theorem C101_unknown_key_refused (j : Json) (m keys : List (Str × Json)) (id : Str) (k : Json)
    (hj : j = .obj m) (hk : Map.get? m "keys".toList = some (.obj keys)) (hm : (id, k) ∈ keys)
    (hu : UnknownKey k) : decodeRoot X j = none := by
  subst hj
  have h1 : decodeKeyShim k = none := by
    obtain ⟨m, s, rfl, h | h⟩ := hu
    · refine struct_none ?_
      have : field m "keytype".toList decodeKeyType = none := by
        unfold field
        rw [h.1]
        simp only [decodeKeyType, asStr]
        rw [if_neg h.2.1, if_neg h.2.2]
      rw [this]; rfl
    · refine struct_none ?_
      have : field m "scheme".toList decodeScheme = none := by
        unfold field
        rw [h.1]
        exact decodeScheme_unknown h.2.1 h.2.2.1 h.2.2.2
      rw [this]
      cases field m "keytype".toList decodeKeyType <;> rfl
  have h2 : decodePublicKey X k = none := by
    unfold decodePublicKey; rw [h1]; rfl
  refine struct_none ?_
  have : field m "keys".toList (asMapNoDup keyIdOfStr (decodePublicKey X)) = none := by
    unfold field
    rw [hk]
    show asMapNoDup _ _ _ = none
    unfold asMapNoDup
    rw [asEntries_none hm (.inr h2)]
  rw [this]
  cases field m "consistent_snapshot".toList asBool <;> rfl

/-- **Limit of C101.** A timestamp that lists any file besides the snapshot is unreadable. -/
theorem C101_timestamp_lists_one_file (j : Json) (m metas : List (Str × Json)) (p : Str) (d : Json)
    (hj : j = .obj m) (hm : Map.get? m "meta".toList = some (.obj metas)) (hd : (p, d) ∈ metas)
    (hp : p ≠ "snapshot.json".toList) : decodeTimestamp X j = none := by
  subst hj
  refine struct_none ?_
  have : field m "meta".toList (fun j => do
      let m ← asStructStrict ["snapshot.json".toList] j
      field m "snapshot.json".toList decodeMetadataDescription) = none := by
    unfold field
    rw [hm]
    have : asStructStrict ["snapshot.json".toList] (.obj metas) = none := by
      unfold asStructStrict
      split
      · rfl
      · rename_i m1 h1
        rw [asStruct_obj h1, if_neg]
        intro ha
        rw [List.all_eq_true] at ha
        have := ha p (List.mem_map.2 ⟨(p, d), hd, rfl⟩)
        rw [List.contains_iff_mem, List.mem_singleton] at this
        exact hp this
    simp only [this]; rfl
  rw [this]; rfl

end decoders

/-! ### Example -/

namespace UnknownExample
open ShimExample

/-- The description of a snapshot, with further members. -/
def descr (more : List (Str × Json)) : Json :=
  .obj ([("hashes".toList, .obj [("sha256".toList, .str "00".toList)]), ("length".toList, .int 1)] ++ more ++
    [("version".toList, .int 1)])

/-- A timestamp, with further members in it and in the description. -/
def ts (more inner : List (Str × Json)) : Json :=
  .obj ([("_type".toList, .str "timestamp".toList), ("expires".toList, .str "1".toList),
    ("meta".toList, .obj [("snapshot.json".toList, descr inner)]),
    ("spec_version".toList, .str "1.0".toList)] ++ more ++ [("version".toList, .int 1)])

/-- As it was. -/
def old : JsonValue := ⟨ts [] [], by decide +kernel⟩

/-- As a newer author writes it. -/
def new : JsonValue :=
  ⟨ts [("use".toList, .arr [.int 1])] [("note".toList, .str "x".toList)], by decide +kernel⟩

/-- The same as a file, with an unknown member in the signature. -/
def text : Bytes :=
  utf8 ("{\"signatures\":[{\"by\":7,\"keyid\":".toList ++ q (zeros 64) ++ (",\"sig\":\"00\"}],\"signed\":{" ++
    "\"_type\":\"timestamp\",\"use\":[1],\"expires\":\"1\",\"meta\":{\"snapshot.json\":{\"hashes\":" ++
    "{\"sha256\":\"00\"},\"length\":1,\"note\":\"x\",\"version\":1}},\"spec_version\":\"1.0\",\"version\":1}}").toList)

/-- A world in which every signature is valid. -/
def env : Env := jsonEnv lib (fun _ _ _ _ => true) id fun _ => .refl _

/-- What is read, when the value is known to be the normal form. -/
theorem parse_of {b : Bytes} {sigs : List Signature} {v : JsonValue}
    (h : fromSlice lib.float (fun j => (decodeSigned j).map fun p => (p.1, p.2.normal)) b = .ok (sigs, v.1)) :
    env.parseSigned b = .ok (sigs, v) := by
  show fromSlice lib.float (fun j => (decodeSigned j).map fun p => (p.1, p.2.toValue)) b = _
  unfold fromSlice at h ⊢
  cases hp : parseJson lib.float b with
  | error e => rw [hp] at h; exact absurd h (by simp)
  | ok j =>
    rw [hp] at h
    cases hd : decodeSigned j with
    | none => simp [hd] at h
    | some p =>
      simp only [hd, Option.map_some, Except.ok.injEq, Prod.mk.injEq] at h ⊢
      exact congrArg Except.ok (Prod.ext h.1 (Subtype.ext h.2))

/-- The hypotheses of C101_newer_documents_are_accepted are met, with members added at two levels. -/
example : AddsAll Shape.listing old.1 new.1 ∧ Spec.nesting new.1 < 128 ∧
    (decodeTimestamp lib old.1).map (·.version) = some 1 ∧
    (∃ sigs, env.parseSigned text = .ok (sigs, new)) ∧
    ∃ b, SignedBy env text b 1 [⟨.ed25519, zeros 64, .ed25519, none, []⟩] := by
  have hp : env.parseSigned text = .ok ([⟨zeros 64, [0]⟩], new) := by
    have : fromSlice lib.float (fun j => (decodeSigned j).map fun p => (p.1, p.2.normal)) text =
        .ok ([⟨zeros 64, [0]⟩], new.1) := by decide +kernel
    exact parse_of this
  refine ⟨.step _ (ts [] [("note".toList, .str "x".toList)]) _ (.step _ _ _ (.refl _) ?_) ?_,
    by decide +kernel, by decide +kernel, ⟨_, hp⟩, ?_⟩
  · refine .inField _ [("_type".toList, .str "timestamp".toList), ("expires".toList, .str "1".toList)]
      [("spec_version".toList, .str "1.0".toList), ("version".toList, .int 1)] "meta".toList
      (.dict Shape.description) _ _ (by known) ?_
    refine .inDict _ [] [] _ _ _ ?_
    exact .here _ [("hashes".toList, .obj [("sha256".toList, .str "00".toList)]), ("length".toList, .int 1)]
      [("version".toList, .int 1)] "note".toList _ (by decide +kernel)
  · exact .here _ [("_type".toList, .str "timestamp".toList), ("expires".toList, .str "1".toList),
      ("meta".toList, .obj [("snapshot.json".toList, descr [("note".toList, .str "x".toList)])]),
      ("spec_version".toList, .str "1.0".toList)] [("version".toList, .int 1)] "use".toList _
      (by decide +kernel)
  · obtain ⟨b, hb⟩ := (C52_total_on_integers new.1).1 (by decide +kernel)
    refine ⟨b, le_refl _, _, _, hp, hb, [zeros 64], by decide +kernel, le_refl _, ?_⟩
    intro id hid
    obtain rfl := List.mem_singleton.1 hid
    exact ⟨_, _, ⟨rfl, [], [], rfl, by simp⟩, ⟨rfl, [], [], rfl, by simp⟩, by decide, rfl⟩

/-- A timestamp that also lists targets.json, and one with a digest of another algorithm. -/
example : decodeTimestamp lib (ts [] []) ≠ none ∧
    UnknownHash (.obj [("hashes".toList, .obj [("sha256".toList, .str "00".toList),
      ("blake2b".toList, .str "00".toList)]), ("length".toList, .int 1), ("version".toList, .int 1)]) ∧
    UnknownKey (.obj [("keytype".toList, .str "ecdsa".toList), ("scheme".toList, .str "x".toList)]) :=
  ⟨by decide +kernel, ⟨_, [("sha256".toList, .str "00".toList), ("blake2b".toList, .str "00".toList)],
    "blake2b".toList, .str "00".toList, rfl, by decide +kernel, by decide +kernel,
    by decide +kernel, by decide +kernel⟩,
    ⟨_, "ecdsa".toList, rfl, .inl ⟨by decide +kernel, by decide +kernel, by decide +kernel⟩⟩⟩

end UnknownExample

end RustTuf.Props
