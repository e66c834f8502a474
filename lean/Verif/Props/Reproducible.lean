import Mathlib.Data.List.Sort
import Verif.Spec.Reproducible
import Verif.Props.RoundTrip
import Verif.Props.Signed
import Verif.Model.Pretty
import Verif.Model.Builders

/-! C115: published bytes depend on nothing but content and keys. -/

namespace RustTuf
open Spec Props

/-! ## Maps -/

/-- An entry of a map as it ends up in a `serde_json::Value`. -/
def valueEntry {K V : Type} (key : K → Option Str) (value : V → Option Json) (p : K × V) :
    Option (Str × Json) :=
  (key p.1).bind fun s => (value p.2).map fun j => (s, j.normal)

theorem encodeEntries_normal {K V : Type} (key : K → Option Str) (value : V → Option Json) (m : Map K V) :
    (encodeEntries key value m).map Json.normal =
      (mapAll (valueEntry key value) m).map fun es => .obj (btreeCollect es) := by
  unfold encodeEntries
  have : ∀ m : List (K × V), (mapAll (fun p : K × V =>
      match key p.1 with
      | none => none
      | some s =>
        match value p.2 with
        | none => none
        | some j => some (s, j)) m).map Json.normalM = mapAll (valueEntry key value) m := by
    intro m
    induction m with
    | nil => rfl
    | cons p m ih =>
      simp only [mapAll, valueEntry]
      cases key p.1 with
      | none => rfl
      | some s =>
        cases value p.2 with
        | none => rfl
        | some j =>
          simp only [Option.bind_some, Option.map_some]
          rw [← ih]
          cases mapAll (fun p : K × V =>
            match key p.1 with
            | none => none
            | some s =>
              match value p.2 with
              | none => none
              | some j => some (s, j)) m <;> rfl
  rw [← this]
  simp only [Option.map_map]
  congr 1

theorem mapAll_none_iff {α β : Type} {f : α → Option β} : ∀ {l : List α},
    mapAll f l = none ↔ ∃ a ∈ l, f a = none
  | [] => by simp [mapAll]
  | a :: l => by
    unfold mapAll
    cases h : f a with
    | none => simp [h]
    | some b =>
      have ih := mapAll_none_iff (f := f) (l := l)
      cases hl : mapAll f l with
      | none => simp only [true_iff]; obtain ⟨x, hx, e⟩ := ih.1 hl; exact ⟨x, by simp [hx], e⟩
      | some l' =>
        simp only [reduceCtorEq, false_iff]
        rintro ⟨x, hx, e⟩
        rcases List.mem_cons.1 hx with rfl | hx
        · rw [h] at e; cases e
        · rw [ih.2 ⟨x, hx, e⟩] at hl; cases hl

theorem mapAll_mem_iff {α β : Type} {f : α → Option β} : ∀ {l : List α} {r : List β},
    mapAll f l = some r → ∀ b, b ∈ r ↔ ∃ a ∈ l, f a = some b
  | [], _, h, b => by cases h; simp
  | a :: l, r, h, b => by
    unfold mapAll at h
    split at h
    · cases h
    · rename_i x hx
      split at h
      · cases h
      · rename_i l' hl
        cases h
        rw [List.mem_cons, mapAll_mem_iff hl]
        constructor
        · rintro (rfl | ⟨y, hy, e⟩)
          · exact ⟨a, by simp, hx⟩
          · exact ⟨y, by simp [hy], e⟩
        · rintro ⟨y, hy, e⟩
          rcases List.mem_cons.1 hy with rfl | hy
          · rw [hx] at e; cases e; exact .inl rfl
          · exact .inr ⟨y, hy, e⟩

/-- Names in a map are names of its keys. -/
theorem valueEntries_nodup {K V : Type} {key : K → Option Str} {value : V → Option Json}
    (hk : ∀ k k' s, key k = some s → key k' = some s → k = k') : ∀ {m : Map K V} {es : List (Str × Json)},
    MapLike m → mapAll (valueEntry key value) m = some es → (Map.keys es).Nodup
  | [], _, _, h => by cases h; exact List.nodup_nil
  | p :: m, es, hn, h => by
    unfold mapAll at h
    split at h
    · cases h
    · rename_i e he
      split at h
      · cases h
      · rename_i es' hes
        cases h
        have hn' := List.nodup_cons.1 (show (p.1 :: m.map Prod.fst).Nodup from hn)
        refine List.nodup_cons.2 ⟨?_, valueEntries_nodup hk hn'.2 hes⟩
        intro hm
        obtain ⟨e', he', e1⟩ := List.mem_map.1 hm
        obtain ⟨q, hq, hqe⟩ := (mapAll_mem_iff hes e').1 he'
        have name : ∀ {x : K × V} {y : Str × Json}, valueEntry key value x = some y → key x.1 = some y.1 := by
          intro x y hxy
          unfold valueEntry at hxy
          cases hk : key x.1 with
          | none => rw [hk] at hxy; cases hxy
          | some s =>
            rw [hk] at hxy
            cases hv : value x.2 with
            | none => rw [hv] at hxy; cases hxy
            | some j => rw [hv] at hxy; cases hxy; rfl
        have := hk _ _ _ (name hqe) ((name he).trans (by rw [e1]))
        exact hn'.1 (List.mem_map.2 ⟨q, hq, this⟩)

theorem sameMap_back {K V : Type} [DecidableEq K] {R : V → V → Prop} {a b : Map K V} (h : SameMap R a b)
    (hb : MapLike b) {k : K} {w : V} (hm : (k, w) ∈ b) : ∃ v, (k, v) ∈ a ∧ R v w := by
  have hw := Map.get?_of_mem_nodup (m := b) hb hm
  cases ha : Map.get? a k with
  | none => rw [h.none k ha] at hw; cases hw
  | some v =>
    obtain ⟨w', h1, h2⟩ := h.there k v ha
    rw [hw] at h1; cases h1
    exact ⟨v, Map.mem_of_get? ha, h2⟩

theorem sameMap_forth {K V : Type} [DecidableEq K] {R : V → V → Prop} {a b : Map K V} (h : SameMap R a b)
    (ha : MapLike a) {k : K} {v : V} (hm : (k, v) ∈ a) : ∃ w, (k, w) ∈ b ∧ R v w := by
  obtain ⟨w, h1, h2⟩ := h.there k v (Map.get?_of_mem_nodup (m := a) ha hm)
  exact ⟨w, Map.mem_of_get? h1, h2⟩

/-- The value made of a map does not depend on its order. -/
theorem encodeEntries_same {K V : Type} [DecidableEq K] {R : V → V → Prop} {key : K → Option Str}
    {value : V → Option Json} {a b : Map K V}
    (hk : ∀ k k' s, key k = some s → key k' = some s → k = k') (ha : MapLike a) (hb : MapLike b)
    (h : SameMap R a b)
    (hv : ∀ k v w, (k, v) ∈ a → (k, w) ∈ b → R v w → (value v).map Json.normal = (value w).map Json.normal) :
    (encodeEntries key value a).map Json.normal = (encodeEntries key value b).map Json.normal := by
  have hve : ∀ k v w, (k, v) ∈ a → (k, w) ∈ b → R v w →
      valueEntry key value (k, v) = valueEntry key value (k, w) := by
    intro k v w h1 h2 h3
    have := hv k v w h1 h2 h3
    unfold valueEntry
    cases key k with
    | none => rfl
    | some s =>
      dsimp only [Option.bind_some]
      cases h4 : value v <;> cases h5 : value w <;> rw [h4, h5] at this
      · cases this
      · cases this
      · simp only [Option.map_some, Option.some.injEq] at this ⊢
        rw [this]
  have forth : ∀ x, (∃ p ∈ a, valueEntry key value p = x) → ∃ p ∈ b, valueEntry key value p = x := by
    rintro x ⟨⟨k, v⟩, hp, e⟩
    obtain ⟨w, h1, h2⟩ := sameMap_forth h ha hp
    exact ⟨(k, w), h1, (hve k v w hp h1 h2).symm.trans e⟩
  have back : ∀ x, (∃ p ∈ b, valueEntry key value p = x) → ∃ p ∈ a, valueEntry key value p = x := by
    rintro x ⟨⟨k, w⟩, hp, e⟩
    obtain ⟨v, h1, h2⟩ := sameMap_back h hb hp
    exact ⟨(k, v), h1, (hve k v w h1 hp h2).trans e⟩
  rw [encodeEntries_normal, encodeEntries_normal]
  cases h1 : mapAll (valueEntry key value) a with
  | none => rw [mapAll_none_iff.2 (forth _ (mapAll_none_iff.1 h1))]
  | some ea =>
    cases h2 : mapAll (valueEntry key value) b with
    | none => rw [mapAll_none_iff.2 (back _ (mapAll_none_iff.1 h2))] at h1; cases h1
    | some eb =>
      have na := valueEntries_nodup hk ha h1
      have nb := valueEntries_nodup hk hb h2
      have hp : ea.Perm eb := (List.perm_ext_iff_of_nodup (List.Nodup.of_map _ na) (List.Nodup.of_map _ nb)).2
        fun x => by
          rw [mapAll_mem_iff h1, mapAll_mem_iff h2]
          exact ⟨forth _, back _⟩
      simp only [Option.map_some, btreeCollect_perm hp na]

theorem sameMap_perm {K V : Type} [DecidableEq K] {a b : Map K V} (ha : MapLike a) (hb : MapLike b)
    (h : SameMap Eq a b) : List.Perm a b :=
  (List.perm_ext_iff_of_nodup (List.Nodup.of_map _ ha) (List.Nodup.of_map _ hb)).2 fun x => by
    obtain ⟨k, v⟩ := x
    constructor
    · intro hx; obtain ⟨w, h1, rfl⟩ := sameMap_forth h ha hx; exact h1
    · intro hx; obtain ⟨w, h1, rfl⟩ := sameMap_back h hb hx; exact h1

theorem some_inj {k k' s : Str} (h : some k = some s) (h' : some k' = some s) : k = k' := by
  cases h; cases h'; rfl

theorem hashAlgKey_inj {k k' : HashAlg} {s : Str} (h : hashAlgKey k = some s) (h' : hashAlgKey k' = some s) :
    k = k' := by
  have e := h.trans h'.symm
  cases k <;> cases k' <;> first | rfl | (exact absurd e (by decide)) | (simp [hashAlgKey] at h'; done) |
    (simp [hashAlgKey] at h; done)

/-! ## The parts of metadata -/

theorem normal_obj_congr {m m' : List (Str × Json)}
    (h : List.Forall₂ (fun p q => p.1 = q.1 ∧ p.2.normal = q.2.normal) m m') :
    (Json.obj m).normal = (Json.obj m').normal := by
  have : Json.normalM m = Json.normalM m' := by
    induction h with
    | nil => rfl
    | @cons p q m m' h1 _ ih =>
      obtain ⟨k, v⟩ := p; obtain ⟨k', v'⟩ := q
      simp only at h1
      simp only [Json.normalM, h1.1, h1.2, ih]
  simp only [Json.normal, this]

theorem map_normal_congr {x y : Option Json} {f g : Json → Json}
    (h : x.map Json.normal = y.map Json.normal)
    (hf : ∀ i j, i.normal = j.normal → (f i).normal = (g j).normal) :
    (x.map f).map Json.normal = (y.map g).map Json.normal := by
  cases x <;> cases y
  · rfl
  · cases h
  · cases h
  · simp only [Option.map_some, Option.some.injEq] at h ⊢
    exact hf _ _ h

theorem encodeHashes_same {a b : Map HashAlg HashValue} (ha : MapLike a) (hb : MapLike b)
    (h : SameMap Eq a b) : (encodeHashes a).map Json.normal = (encodeHashes b).map Json.normal :=
  encodeEntries_same (fun _ _ _ => hashAlgKey_inj) ha hb h fun _ _ _ _ _ e => by rw [e]

theorem encodeDescription_same {a b : MetadataDescription} (ha : MapLike a.hashes) (hb : MapLike b.hashes)
    (h : SameDescription a b) :
    (encodeMetadataDescription a).map Json.normal = (encodeMetadataDescription b).map Json.normal := by
  unfold encodeMetadataDescription
  refine map_normal_congr (encodeHashes_same ha hb h.hashes) fun i j e => normal_obj_congr ?_
  refine .cons ⟨rfl, by rw [h.version]⟩ (.cons ⟨rfl, by rw [h.length]⟩ (.cons ⟨rfl, e⟩ .nil))

theorem encodeKeys_same {X : ShimLib} {a b : Map KeyId PublicKey} (ha : MapLike a) (hb : MapLike b)
    (h : SameMap Eq a b) :
    (encodeEntries some (encodePublicKey X) a).map Json.normal =
      (encodeEntries some (encodePublicKey X) b).map Json.normal :=
  encodeEntries_same (fun _ _ _ => some_inj) ha hb h fun _ _ _ _ _ e => by rw [e]

theorem normal_custom {a b : Map Str Json} (ha : MapLike a) (hb : MapLike b) (h : SameMap Eq a b) :
    (Json.obj a).normal = (Json.obj b).normal := by
  have := encodeEntries_same (key := some) (value := some) (fun _ _ _ => some_inj) ha hb h
    fun _ _ _ _ _ e => by rw [e]
  have id : ∀ m : Map Str Json, encodeEntries some some m = some (.obj m) := by
    intro m
    unfold encodeEntries
    refine (congrArg (Option.map Json.obj) (mapAll_eq (h := fun p : Str × Json => p) m fun p _ => rfl)).trans ?_
    simp
  rw [id, id] at this
  simpa using this

theorem encodeTarget_same {a b : TargetDescription} (ha : MapLike a.hashes) (hb : MapLike b.hashes)
    (hca : ∀ c, a.custom = some c → MapLike c) (hcb : ∀ c, b.custom = some c → MapLike c)
    (h : SameTarget a b) :
    (encodeTargetDescription a).map Json.normal = (encodeTargetDescription b).map Json.normal := by
  unfold encodeTargetDescription
  refine map_normal_congr (encodeHashes_same ha hb h.hashes) fun i j e => normal_obj_congr ?_
  have hc := h.custom
  refine .cons ⟨rfl, by rw [h.length]⟩ (.cons ⟨rfl, e⟩ ?_)
  cases h1 : a.custom <;> cases h2 : b.custom <;> rw [h1, h2] at hc
  · exact .nil
  · exact hc.elim
  · exact hc.elim
  · exact .cons ⟨rfl, normal_custom (hca _ h1) (hcb _ h2) hc⟩ .nil

/-! ## Sorted lists -/

theorem strSorted_insert (s : Str) (l : List Str) (h : l.Pairwise fun a b => strLt b a = false) :
    (strInsert s l).Pairwise fun a b => strLt b a = false := by
  induction l with
  | nil => simp [strInsert]
  | cons t l ih =>
    obtain ⟨h1, h2⟩ := List.pairwise_cons.1 h
    unfold strInsert
    split
    · rename_i hlt
      refine List.pairwise_cons.2 ⟨?_, ih h2⟩
      intro q hq
      rcases List.mem_cons.1 ((strInsert_perm s l).mem_iff.1 hq) with rfl | hq
      · exact strLt_asymm hlt
      · exact h1 q hq
    · rename_i hlt
      have hts : strLt t s = false := by simpa using hlt
      refine List.pairwise_cons.2 ⟨?_, h⟩
      intro q hq
      rcases List.mem_cons.1 hq with rfl | hq
      · exact hts
      · cases hqs : strLt q s with
        | false => rfl
        | true =>
          rcases strLt_total t q with hl | hl | hl
          · rw [strLt_trans _ _ _ hl hqs] at hts; cases hts
          · rw [hl, hqs] at hts; cases hts
          · rw [h1 q hq] at hl; cases hl

theorem strSorted_sort (l : List Str) : (strSort l).Pairwise fun a b => strLt b a = false := by
  induction l with
  | nil => exact .nil
  | cons s l ih => exact strSorted_insert s _ ih

theorem strSort_congr {a b : List Str} (h : a.Perm b) : strSort a = strSort b := by
  refine List.Perm.eq_of_pairwise (fun x y _ _ h1 h2 => ?_) (strSorted_sort a) (strSorted_sort b)
    ((strSort_perm a).trans (h.trans (strSort_perm b).symm))
  rcases strLt_total x y with hl | hl | hl
  · rw [h2] at hl; cases hl
  · exact hl
  · rw [h1] at hl; cases hl

theorem sameSet_perm {a b : List Str} (ha : a.Nodup) (h : SameSet a b) : a.Perm b :=
  (List.perm_ext_iff_of_nodup ha h.1).2 h.2.2

theorem encodeDelegation_same {a b : Delegation} (hk : a.keyIds.Nodup) (hp : a.paths.Nodup)
    (h : SameDelegation a b) : encodeDelegation a = encodeDelegation b := by
  unfold encodeDelegation
  rw [h.role, h.terminating, h.threshold, strSort_congr (sameSet_perm hk h.keyIds),
    strSort_congr (sameSet_perm hp h.paths)]

theorem encodeRoles_same : ∀ {a b : List Delegation}, (∀ r ∈ a, r.keyIds.Nodup ∧ r.paths.Nodup) →
    List.Forall₂ SameDelegation a b → a.map encodeDelegation = b.map encodeDelegation
  | _, _, _, .nil => rfl
  | _, _, hn, .cons h hr => by
    rw [List.map_cons, List.map_cons, encodeDelegation_same (hn _ (by simp)).1 (hn _ (by simp)).2 h,
      encodeRoles_same (fun r hr => hn r (by simp [hr])) hr]

/-! ## Whole metadata -/

theorem serialize_congr {x y : Option Json} (h : x.map Json.normal = y.map Json.normal) :
    serialize x = serialize y := by
  cases x <;> cases y
  · rfl
  · cases h
  · cases h
  · simp only [Option.map_some, Option.some.injEq] at h
    simp only [serialize, Json.toValue, h]

theorem serialize_normal {x y : Option Json} (h : serialize x = serialize y) :
    x.map Json.normal = y.map Json.normal := by
  cases x <;> cases y
  · rfl
  · cases h
  · cases h
  · have := congrArg Subtype.val (Except.ok.inj h)
    simpa [Json.toValue] using this

/-- **C115.** What root metadata is serialized to depends on what it holds, not on the order of its hash
map. -/
theorem C115_root (X : ShimLib) (a b : RootMetadata) (ha : RootMaps a) (hb : RootMaps b)
    (h : SameRoot a b) : serialize (encodeRoot X a) = serialize (encodeRoot X b) := by
  have hk := encodeKeys_same (X := X) ha hb h.keys
  refine serialize_congr ?_
  unfold encodeRoot
  cases h1 : encodeEntries some (encodePublicKey X) a.keys <;>
    cases h2 : encodeEntries some (encodePublicKey X) b.keys <;> rw [h1, h2] at hk
  · cases hk
  · cases hk
  · simp only [Option.map_some, Option.some.injEq] at hk ⊢
    rw [h.version, h.consistent, h.expires, h.root, h.snapshot, h.targets, h.timestamp]
    refine normal_obj_congr ?_
    simp only [encodeHead, List.cons_append, List.nil_append]
    refine .cons ⟨rfl, rfl⟩ (.cons ⟨rfl, rfl⟩ (.cons ⟨rfl, rfl⟩ (.cons ⟨rfl, rfl⟩ (.cons ⟨rfl, rfl⟩
      (.cons ⟨rfl, hk⟩ (.cons ⟨rfl, rfl⟩ .nil))))))

/-- **C115.** The same for timestamp metadata. -/
theorem C115_timestamp (X : ShimLib) (a b : TimestampMetadata) (ha : TimestampMaps a) (hb : TimestampMaps b)
    (h : SameTimestamp a b) : serialize (encodeTimestamp X a) = serialize (encodeTimestamp X b) := by
  refine serialize_congr ?_
  unfold encodeTimestamp
  refine map_normal_congr (encodeDescription_same ha hb h.snapshot) fun i j e => ?_
  rw [h.version, h.expires]
  refine normal_obj_congr ?_
  simp only [encodeHead, List.cons_append, List.nil_append]
  exact .cons ⟨rfl, rfl⟩ (.cons ⟨rfl, rfl⟩ (.cons ⟨rfl, rfl⟩ (.cons ⟨rfl, rfl⟩
    (.cons ⟨rfl, normal_obj_congr (.cons ⟨rfl, e⟩ .nil)⟩ .nil))))

/-- **C115.** The same for snapshot metadata. -/
theorem C115_snapshot (X : ShimLib) (a b : SnapshotMetadata) (ha : SnapshotMaps a) (hb : SnapshotMaps b)
    (h : SameSnapshot a b) : serialize (encodeSnapshot X a) = serialize (encodeSnapshot X b) := by
  refine serialize_congr ?_
  unfold encodeSnapshot
  have hm : (encodeEntries (fun p => some (p ++ jsonExt)) encodeMetadataDescription a.metas).map Json.normal =
      (encodeEntries (fun p => some (p ++ jsonExt)) encodeMetadataDescription b.metas).map Json.normal := by
    refine encodeEntries_same (fun k k' s h1 h2 => ?_) ha.metas hb.metas h.metas fun k v w h1 h2 h3 =>
      encodeDescription_same (ha.hashes _ h1) (hb.hashes _ h2) h3
    have := h1.trans h2.symm
    simpa using this
  refine map_normal_congr hm fun i j e => ?_
  rw [h.version, h.expires]
  refine normal_obj_congr ?_
  simp only [encodeHead, List.cons_append, List.nil_append]
  exact .cons ⟨rfl, rfl⟩ (.cons ⟨rfl, rfl⟩ (.cons ⟨rfl, rfl⟩ (.cons ⟨rfl, rfl⟩ (.cons ⟨rfl, e⟩ .nil))))

/-- **C115.** The same for targets metadata, with the maps of each target and the sets of each
delegation. -/
theorem C115_targets (X : ShimLib) (a b : TargetsMetadata) (ha : TargetsMaps a) (hb : TargetsMaps b)
    (h : SameTargets a b) : serialize (encodeTargets X a) = serialize (encodeTargets X b) := by
  refine serialize_congr ?_
  have ht : (encodeEntries some encodeTargetDescription a.targets).map Json.normal =
      (encodeEntries some encodeTargetDescription b.targets).map Json.normal :=
    encodeEntries_same (fun _ _ _ => some_inj) ha.targets hb.targets h.targets fun k v w h1 h2 h3 =>
      encodeTarget_same (ha.hashes _ h1) (hb.hashes _ h2) (ha.custom _ h1) (hb.custom _ h2) h3
  unfold encodeTargets
  have hd := h.delegations
  cases h1 : encodeEntries some encodeTargetDescription a.targets <;>
    cases h2 : encodeEntries some encodeTargetDescription b.targets <;> rw [h1, h2] at ht
  · cases ht
  · cases ht
  · simp only [Option.map_some, Option.some.injEq] at ht
    cases h3 : a.delegations <;> cases h4 : b.delegations <;> rw [h3, h4] at hd
    · simp only [Option.map_some, Option.some.injEq]
      rw [h.version, h.expires]
      refine normal_obj_congr ?_
      simp only [encodeHead, List.cons_append, List.nil_append]
      exact .cons ⟨rfl, rfl⟩ (.cons ⟨rfl, rfl⟩ (.cons ⟨rfl, rfl⟩ (.cons ⟨rfl, rfl⟩ (.cons ⟨rfl, ht⟩ .nil))))
    · cases hd
    · cases hd
    · cases hd with
      | some hd =>
        dsimp only
        refine map_normal_congr ?_ fun i j e => ?_
        · unfold encodeDelegations
          refine map_normal_congr (encodeKeys_same (ha.keys _ h3) (hb.keys _ h4) hd.keys) fun i j e => ?_
          rw [encodeRoles_same (ha.sets _ h3) hd.roles]
          exact normal_obj_congr (.cons ⟨rfl, e⟩ (.cons ⟨rfl, rfl⟩ .nil))
        · rw [h.version, h.expires]
          refine normal_obj_congr ?_
          simp only [encodeHead, List.cons_append, List.nil_append]
          exact .cons ⟨rfl, rfl⟩ (.cons ⟨rfl, rfl⟩ (.cons ⟨rfl, rfl⟩ (.cons ⟨rfl, rfl⟩
            (.cons ⟨rfl, ht⟩ (.cons ⟨rfl, e⟩ .nil)))))

/-! ## Signing -/

/-- Builders that hold the same. -/
structure SameBuilder {Raw : Type} (b c : SignedBuilder Raw) : Prop where
  metadata : b.metadata = c.metadata
  bytes : b.metadataBytes = c.metadataBytes
  signatures : ∀ k, b.signatures.get? k = c.signatures.get? k

/-- What builders always meet. -/
structure BuilderOk {Raw : Type} (b : SignedBuilder Raw) : Prop where
  nodup : MapLike b.signatures
  own : ∀ p ∈ b.signatures, p.2.keyId = p.1

theorem SameBuilder.refl {Raw : Type} (b : SignedBuilder Raw) : SameBuilder b b := ⟨rfl, rfl, fun _ => rfl⟩

theorem SameBuilder.trans {Raw : Type} {a b c : SignedBuilder Raw} (h : SameBuilder a b) (h' : SameBuilder b c) :
    SameBuilder a c :=
  ⟨h.metadata.trans h'.metadata, h.bytes.trans h'.bytes, fun k => (h.signatures k).trans (h'.signatures k)⟩

theorem SameBuilder.build {Raw : Type} {b c : SignedBuilder Raw} (hb : BuilderOk b) (hc : BuilderOk c)
    (h : SameBuilder b c) : b.build = c.build := by
  have hp : List.Perm b.signatures c.signatures := sameMap_perm hb.nodup hc.nodup
    ⟨fun k v hv => ⟨v, by rw [← h.signatures k]; exact hv, rfl⟩, fun k hk => by rw [← h.signatures k]; exact hk⟩
  have ids : ∀ {b : SignedBuilder Raw}, BuilderOk b →
      ((SignedBuilder.sortByKeyId (b.signatures.map Prod.snd)).map Signature.keyId).Nodup := by
    intro b hb
    refine ((perm_sortByKeyId _).map _).nodup_iff.2 ?_
    rw [List.map_map]
    have : b.signatures.map (Signature.keyId ∘ Prod.snd) = b.signatures.map Prod.fst :=
      List.map_congr_left fun p hp => hb.own p hp
    rw [this]
    exact hb.nodup
  unfold SignedBuilder.build
  rw [h.metadata]
  congr 1
  exact keySorted_unique (keySorted_sortByKeyId _) (keySorted_sortByKeyId _) (ids hb)
    ((perm_sortByKeyId _).trans ((hp.map _).trans (perm_sortByKeyId _).symm))

theorem BuilderOk.sign {Raw : Type} {b c : SignedBuilder Raw} {k : PrivateKey} (h : BuilderOk b)
    (hs : b.sign k = .ok c) : BuilderOk c := by
  unfold SignedBuilder.sign at hs
  split at hs
  · cases hs
  · rename_i s _
    cases hs
    refine ⟨Map.nodup_keys_insert h.nodup _ _, fun p hp => ?_⟩
    simp only [Map.insert, Map.erase] at hp
    rcases List.mem_cons.1 hp with rfl | hp
    · rfl
    · exact h.own p (List.mem_filter.1 hp).1

theorem BuilderOk.signAll {Raw : Type} : ∀ {ks : List PrivateKey} {b c : SignedBuilder Raw}, BuilderOk b →
    Spec.signAll b ks = .ok c → BuilderOk c
  | [], _, _, h, hs => by cases hs; exact h
  | k :: ks, b, c, h, hs => by
    unfold Spec.signAll at hs
    split at hs
    · cases hs
    · rename_i b' hb
      exact BuilderOk.signAll (h.sign hb) hs

theorem SameBuilder.sign {Raw : Type} {b b' c : SignedBuilder Raw} {k : PrivateKey} (h : SameBuilder b b')
    (hs : b.sign k = .ok c) : ∃ c', b'.sign k = .ok c' ∧ SameBuilder c c' := by
  unfold SignedBuilder.sign at hs ⊢
  rw [← h.bytes]
  split at hs
  · cases hs
  · rename_i s hk
    cases hs
    refine ⟨_, rfl, h.metadata, rfl, fun q => ?_⟩
    simp only [Map.get?_insert, h.signatures]

theorem SameBuilder.signAll {Raw : Type} : ∀ {ks : List PrivateKey} {b b' c : SignedBuilder Raw},
    SameBuilder b b' → Spec.signAll b ks = .ok c → ∃ c', Spec.signAll b' ks = .ok c' ∧ SameBuilder c c'
  | [], _, _, _, h, hs => by cases hs; exact ⟨_, rfl, h⟩
  | k :: ks, b, b', c, h, hs => by
    unfold Spec.signAll at hs
    split at hs
    · cases hs
    · rename_i d hd
      obtain ⟨d', h1, h2⟩ := h.sign hd
      obtain ⟨c', h3, h4⟩ := h2.signAll hs
      exact ⟨c', by unfold Spec.signAll; rw [h1]; exact h3, h4⟩

theorem sign_swap {Raw : Type} {b c d : SignedBuilder Raw} {k l : PrivateKey} (hk : PrivateKey.Own k) (hl : PrivateKey.Own l)
    (hne : k.publicKeyId ≠ l.publicKeyId) (h1 : b.sign k = .ok c) (h2 : c.sign l = .ok d) :
    ∃ c' d', b.sign l = .ok c' ∧ c'.sign k = .ok d' ∧ SameBuilder d d' := by
  unfold SignedBuilder.sign at h1 h2 ⊢
  split at h1
  · cases h1
  · rename_i s hs
    cases h1
    dsimp only at h2
    split at h2
    · cases h2
    · rename_i t ht
      cases h2
      refine ⟨_, { b with signatures := (b.signatures.insert t.keyId t).insert s.keyId s }, rfl,
        by dsimp only; rw [hs], rfl, rfl, fun q => ?_⟩
      have : s.keyId ≠ t.keyId := by rw [hk _ _ hs, hl _ _ ht]; exact hne
      simp only [Map.get?_insert]
      by_cases hq : q = s.keyId
      · subst hq; simp [this]
      · simp [hq]

theorem signAll_perm {Raw : Type} {ks ks' : List PrivateKey} (hp : ks.Perm ks') :
    (∀ k ∈ ks, PrivateKey.Own k) → (ks.map PrivateKey.publicKeyId).Nodup → ∀ {b c : SignedBuilder Raw},
    Spec.signAll b ks = .ok c → ∃ c', Spec.signAll b ks' = .ok c' ∧ SameBuilder c c' := by
  induction hp with
  | nil => intro _ _ b c h; exact ⟨c, h, .refl c⟩
  | cons k _ ih =>
    intro ho hn b c h
    unfold Spec.signAll at h
    split at h
    · cases h
    · rename_i d hd
      obtain ⟨c', h1, h2⟩ := ih (fun k hk => ho k (by simp [hk])) (List.nodup_cons.1 hn).2 h
      exact ⟨c', by unfold Spec.signAll; rw [hd]; exact h1, h2⟩
  | swap k l ks =>
    intro ho hn b c h
    unfold Spec.signAll at h
    split at h
    · cases h
    · rename_i d hd
      unfold Spec.signAll at h
      split at h
      · cases h
      · rename_i e he
        have hne : l.publicKeyId ≠ k.publicKeyId := by
          intro e
          have := (List.nodup_cons.1 hn).1
          simp [e] at this
        obtain ⟨d', e', h1, h2, h3⟩ := sign_swap (ho l (by simp)) (ho k (by simp)) hne hd he
        obtain ⟨c', h4, h5⟩ := h3.signAll h
        refine ⟨c', ?_, h5⟩
        unfold Spec.signAll
        rw [h1]
        dsimp only
        unfold Spec.signAll
        rw [h2]
        exact h4
  | trans p1 p2 ih1 ih2 =>
    intro ho hn b c h
    obtain ⟨d, h1, h2⟩ := ih1 ho hn h
    obtain ⟨e, h3, h4⟩ := ih2 (fun k hk => ho k (p1.mem_iff.2 hk)) ((p1.map _).nodup_iff.1 hn) h1
    exact ⟨e, h3, h2.trans h4⟩

theorem builderOk_made {Raw : Type} {X : Interchange Raw} {m : Raw} {b : SignedBuilder Raw}
    (h : SignedBuilder.fromRawMetadata X m = .ok b) : BuilderOk b := by
  unfold SignedBuilder.fromRawMetadata at h
  split at h
  · cases h
  · split at h
    · cases h
    · cases h; exact ⟨List.nodup_nil, fun p hp => by cases hp⟩

/-- **C115.** Two authors, or two runs of one author, that serialize the same, and sign with the same keys
in any order, publish the same bytes, canonical and pretty-printed. -/
theorem C115_published_bytes {M : Type} (encode : M → Option Json) (decode : Json → Option M) (a b : M)
    (hs : serialize (encode a) = serialize (encode b)) (keys keys' : List PrivateKey)
    (hp : keys.Perm keys') (ho : ∀ k ∈ keys, PrivateKey.Own k) (hn : (keys.map PrivateKey.publicKeyId).Nodup)
    (s s' : SignedBuilder JsonValue)
    (h : SignedBuilder.fromMetadata encode decode a = .ok s) (h' : signAll s keys = .ok s') :
    ∃ t t', SignedBuilder.fromMetadata encode decode b = .ok t ∧ signAll t keys' = .ok t' ∧
      t'.build.toRaw = s'.build.toRaw ∧
      ∀ fl, t'.build.toWriterPretty fl = s'.build.toWriterPretty fl := by
  obtain ⟨t', h1, h2⟩ := signAll_perm hp ho hn h'
  have hok : BuilderOk s := by
    unfold SignedBuilder.fromMetadata at h
    split at h
    · cases h
    · exact builderOk_made h
  have := h2.build (hok.signAll h') (hok.signAll h1)
  refine ⟨s, t', ?_, h1, by rw [this], fun fl => by rw [this]⟩
  rw [← h]
  unfold SignedBuilder.fromMetadata
  rw [hs]

/-- **C115.** The same for metadata that is signed at once with one key. -/
theorem C115_published_at_once {M : Type} (encode : M → Option Json) (a b : M)
    (hs : serialize (encode a) = serialize (encode b)) (key : PrivateKey) :
    SignedMetadata.ofMetadata encode a key = SignedMetadata.ofMetadata encode b key := by
  unfold SignedMetadata.ofMetadata
  rw [hs]

/-! ## The other direction -/

theorem SameMap.join {K V : Type} [DecidableEq K] {R S T : V → V → Prop} {a b c : Map K V}
    (hab : SameMap R a c) (hcb : SameMap S b c) (h : ∀ v w x, R v x → S w x → T v w) : SameMap T a b := by
  refine ⟨fun k v hv => ?_, fun k hk => ?_⟩
  · obtain ⟨x, hx, h1⟩ := hab.there k v hv
    cases hb : b.get? k with
    | none => rw [hcb.none k hb] at hx; cases hx
    | some w =>
      obtain ⟨y, hy, h2⟩ := hcb.there k w hb
      rw [hx] at hy; cases hy
      exact ⟨w, rfl, h _ _ _ h1 h2⟩
  · cases hb : b.get? k with
    | none => rfl
    | some w =>
      obtain ⟨y, hy, _⟩ := hcb.there k w hb
      rw [hab.none k hk] at hy; cases hy

theorem SameMap.joinEq {K V : Type} [DecidableEq K] {a b c : Map K V}
    (hab : SameMap Eq a c) (hcb : SameMap Eq b c) : SameMap Eq a b :=
  SameMap.join hab hcb fun _ _ _ h1 h2 => h1.trans h2.symm

theorem SameDescription.join {a b c : MetadataDescription} (h : SameDescription a c) (h' : SameDescription b c) :
    SameDescription a b :=
  ⟨h.version.trans h'.version.symm, h.length.trans h'.length.symm, SameMap.joinEq h.hashes h'.hashes⟩

theorem SameTarget.join {a b c : TargetDescription} (h : SameTarget a c) (h' : SameTarget b c) :
    SameTarget a b := by
  refine ⟨h.length.trans h'.length.symm, SameMap.joinEq h.hashes h'.hashes, ?_⟩
  have h1 := h.custom
  have h2 := h'.custom
  cases ha : a.custom <;> cases hb : b.custom <;> cases hc : c.custom <;> rw [ha, hc] at h1 <;>
    rw [hb, hc] at h2 <;> first | exact True.intro | exact h1.elim | exact h2.elim | skip
  exact SameMap.joinEq h1 h2

theorem SameDelegation.join {a b c : Delegation} (hk : b.keyIds.Nodup) (hp : b.paths.Nodup)
    (h : SameDelegation a c) (h' : SameDelegation b c) : SameDelegation a b :=
  ⟨h.role.trans h'.role.symm, h.terminating.trans h'.terminating.symm, h.threshold.trans h'.threshold.symm,
    ⟨hk, h.keyIds.2.1.trans h'.keyIds.2.1.symm, fun x => (h.keyIds.2.2 x).trans (h'.keyIds.2.2 x).symm⟩,
    ⟨hp, h.paths.2.1.trans h'.paths.2.1.symm, fun x => (h.paths.2.2 x).trans (h'.paths.2.2 x).symm⟩⟩

theorem sameRoles_join : ∀ {a b c : List Delegation}, (∀ r ∈ b, r.keyIds.Nodup ∧ r.paths.Nodup) →
    List.Forall₂ SameDelegation a c → List.Forall₂ SameDelegation b c → List.Forall₂ SameDelegation a b
  | _, _, _, _, .nil, .nil => .nil
  | _, _, _, hn, .cons h1 r1, .cons h2 r2 =>
    .cons (SameDelegation.join (hn _ (by simp)).1 (hn _ (by simp)).2 h1 h2)
      (sameRoles_join (fun r hr => hn r (by simp [hr])) r1 r2)

theorem serialize_values {x y : Option Json} {i j : Json} (h : serialize x = serialize y) (hx : x = some i)
    (hy : y = some j) : i.normal = j.normal := by
  have := serialize_normal h
  rw [hx, hy] at this
  simpa using this

/-- **C115.** Conversely, root metadata that serializes to the same holds the same. -/
theorem C115_root_iff (X : ShimLib) (L : Laws X) (a b : RootMetadata) (ha : PublishableRoot X a)
    (hb : PublishableRoot X b) : serialize (encodeRoot X a) = serialize (encodeRoot X b) ↔ SameRoot a b := by
  refine ⟨fun h => ?_, C115_root X a b ha.good.keys hb.good.keys⟩
  obtain ⟨i, a', h1, h2, h3⟩ := C70_root X L a ha
  obtain ⟨j, b', h4, h5, h6⟩ := C70_root X L b hb
  rw [serialize_values h h1 h4, h5] at h2
  cases h2
  exact ⟨h3.version.trans h6.version.symm, h3.expires.trans h6.expires.symm,
    h3.consistent.trans h6.consistent.symm, SameMap.joinEq h3.keys h6.keys, h3.root.trans h6.root.symm,
    h3.snapshot.trans h6.snapshot.symm, h3.targets.trans h6.targets.symm, h3.timestamp.trans h6.timestamp.symm⟩

/-- **C115.** The same for timestamp metadata. -/
theorem C115_timestamp_iff (X : ShimLib) (a b : TimestampMetadata) (ha : GoodTimestamp a)
    (hb : GoodTimestamp b) (hda : GoodDate X a.expires) (hdb : GoodDate X b.expires) :
    serialize (encodeTimestamp X a) = serialize (encodeTimestamp X b) ↔ SameTimestamp a b := by
  refine ⟨fun h => ?_, C115_timestamp X a b ha.snapshot.hashes.nodup hb.snapshot.hashes.nodup⟩
  obtain ⟨i, a', h1, h2, h3⟩ := C70_timestamp X a ha hda
  obtain ⟨j, b', h4, h5, h6⟩ := C70_timestamp X b hb hdb
  rw [serialize_values h h1 h4, h5] at h2
  cases h2
  exact ⟨h3.version.trans h6.version.symm, h3.expires.trans h6.expires.symm,
    SameDescription.join h3.snapshot h6.snapshot⟩

/-- **C115.** The same for snapshot metadata. -/
theorem C115_snapshot_iff (X : ShimLib) (a b : SnapshotMetadata) (ha : GoodSnapshot a) (hb : GoodSnapshot b)
    (hpa : ∀ p ∈ a.metas, MetadataPath.new p.1 = .ok p.1) (hpb : ∀ p ∈ b.metas, MetadataPath.new p.1 = .ok p.1)
    (hda : GoodDate X a.expires) (hdb : GoodDate X b.expires) :
    serialize (encodeSnapshot X a) = serialize (encodeSnapshot X b) ↔ SameSnapshot a b := by
  refine ⟨fun h => ?_, C115_snapshot X a b ⟨ha.nodup, fun p hp => (ha.metas p hp).hashes.nodup⟩
    ⟨hb.nodup, fun p hp => (hb.metas p hp).hashes.nodup⟩⟩
  obtain ⟨i, a', h1, h2, h3⟩ := C70_snapshot X a ha hpa hda
  obtain ⟨j, b', h4, h5, h6⟩ := C70_snapshot X b hb hpb hdb
  rw [serialize_values h h1 h4, h5] at h2
  cases h2
  exact ⟨h3.version.trans h6.version.symm, h3.expires.trans h6.expires.symm,
    SameMap.join h3.metas h6.metas fun _ _ _ => SameDescription.join⟩

theorem publishable_maps {X : ShimLib} {m : TargetsMetadata} (h : PublishableTargets X m) : TargetsMaps m :=
  ⟨h.good.nodup, fun p hp => (h.good.targets p hp).hashes.nodup, fun p hp c hc => (h.custom p hp c hc).1,
    fun d hd => (h.good.delegations d hd).keys, fun d hd r hr =>
      ⟨((h.good.delegations d hd).roles r hr).role.nodup, ((h.good.delegations d hd).roles r hr).nodup⟩⟩

/-- **C115.** The same for targets metadata. -/
theorem C115_targets_iff (X : ShimLib) (L : Laws X) (a b : TargetsMetadata) (ha : PublishableTargets X a)
    (hb : PublishableTargets X b) :
    serialize (encodeTargets X a) = serialize (encodeTargets X b) ↔ SameTargets a b := by
  refine ⟨fun h => ?_, C115_targets X a b (publishable_maps ha) (publishable_maps hb)⟩
  obtain ⟨i, a', h1, h2, h3⟩ := C70_targets X L a ha
  obtain ⟨j, b', h4, h5, h6⟩ := C70_targets X L b hb
  rw [serialize_values h h1 h4, h5] at h2
  cases h2
  refine ⟨h3.version.trans h6.version.symm, h3.expires.trans h6.expires.symm,
    SameMap.join h3.targets h6.targets fun _ _ _ => SameTarget.join, ?_⟩
  have d1 := h3.delegations
  have d2 := h6.delegations
  have hn := (publishable_maps hb).sets
  cases hda : a.delegations with
  | none =>
    rw [hda] at d1
    cases hdb : b.delegations with
    | none => exact .none
    | some d =>
      rw [hdb] at d2
      cases hdc : a'.delegations <;> rw [hdc] at d1 d2 <;> cases d1 <;> cases d2
  | some d =>
    rw [hda] at d1
    cases hdb : b.delegations with
    | none =>
      rw [hdb] at d2
      cases hdc : a'.delegations <;> rw [hdc] at d1 d2 <;> cases d1 <;> cases d2
    | some e =>
      rw [hdb] at d2
      cases hdc : a'.delegations with
      | none => rw [hdc] at d1; cases d1
      | some f =>
        rw [hdc] at d1 d2
        cases d1 with
        | some d1 =>
          cases d2 with
          | some d2 =>
            exact .some ⟨SameMap.joinEq d1.keys d2.keys, sameRoles_join (hn e hdb) d1.roles d2.roles⟩

/-! ### Examples -/

namespace ReproducibleExample

def one : TimestampMetadata := ⟨3, 0, ⟨7, 100, [(.sha256, [1]), (.sha512, [2])]⟩⟩
def two : TimestampMetadata := ⟨3, 0, ⟨7, 100, [(.sha512, [2]), (.sha256, [1])]⟩⟩

/-- The same hash map in two orders. -/
example (X : ShimLib) : one ≠ two ∧ encodeTimestamp X one ≠ encodeTimestamp X two ∧
    serialize (encodeTimestamp X one) = serialize (encodeTimestamp X two) := by
  refine ⟨by decide, ?_, C115_timestamp X one two (by unfold TimestampMaps MapLike; decide)
    (by unfold TimestampMaps MapLike; decide)
    ⟨rfl, rfl, rfl, rfl, ⟨fun k v h => ⟨v, ?_, rfl⟩, fun k h => ?_⟩⟩⟩
  · intro h
    simp [one, two, encodeTimestamp, encodeMetadataDescription, encodeHashes, encodeEntries, mapAll, hashAlgKey] at h
  · simp only [one, two, Map.get?] at h ⊢
    split at h <;> rename_i h1
    · subst h1; simpa using h
    · simp only [h1, if_false]; exact h
  · simp only [one, two, Map.get?] at h ⊢
    split at h <;> rename_i h1
    · cases h
    · simp only [h1, if_false]; exact h

end ReproducibleExample

end RustTuf
