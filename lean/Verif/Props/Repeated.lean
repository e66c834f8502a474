import Verif.Spec.Repeated
import Verif.Props.PublishExample
import Verif.Props.Unknown
import Mathlib.Data.List.Induction

/-!
# C103: repeated members
-/

namespace RustTuf.Props
open RustTuf Spec Json

theorem get?_reverse_last {V : Type} {m : List (Str × V)} {k : Str} {v : V} :
    Map.get? m.reverse k = some v ↔
      ∃ pre post, m = pre ++ (k, v) :: post ∧ ∀ p ∈ post, p.1 ≠ k := by
  constructor
  · intro h
    induction m using List.reverseRec with
    | nil => cases h
    | append_singleton m p ih =>
      obtain ⟨k', v'⟩ := p
      rw [List.reverse_append] at h
      have h : (if k' = k then some v' else Map.get? m.reverse k) = some v := h
      split at h
      · rename_i e
        cases h
        exact ⟨m, [], by rw [e], by simp⟩
      · rename_i e
        obtain ⟨pre, post, rfl, hp⟩ := ih h
        refine ⟨pre, post ++ [(k', v')], by simp, ?_⟩
        intro p hp'
        rcases List.mem_append.1 hp' with h' | h'
        · exact hp p h'
        · rw [List.mem_singleton.1 h']; exact e
  · rintro ⟨pre, post, rfl, hp⟩
    rw [List.reverse_append, List.reverse_cons, List.append_assoc]
    have hp' : ∀ p ∈ post.reverse, p.1 ≠ k := fun p h => hp p (List.mem_reverse.1 h)
    revert hp'
    generalize post.reverse = l
    intro hl
    induction l with
    | nil => exact if_pos rfl
    | cons p l ih =>
      exact (if_neg (hl p (List.mem_cons_self ..))).trans (ih fun p h => hl p (List.mem_cons_of_mem _ h))

/-- What an object reads as. -/
theorem get?_normal (m : List (Str × Json)) (k : Str) :
    Map.get? (btreeCollect (normalM m)) k = (Map.get? m.reverse k).map normal := by
  rw [get?_btreeCollect, normalM_eq, ← List.map_reverse]
  generalize m.reverse = l
  induction l with
  | nil => rfl
  | cons p l ih =>
    obtain ⟨k', v'⟩ := p
    show (if k' = k then some (normal v') else _) = Option.map normal (if k' = k then some v' else _)
    split
    · rfl
    · exact ih

theorem last_iff {m : List (Str × Json)} {k : Str} {v : Json} :
    LastMember m k v ↔ Map.get? m.reverse k = some v := get?_reverse_last.symm

theorem normal_of_same {v v' : Json} (h : SameContent v v') : normal v = normal v' := by
  induction h with
  | scalar v => rfl
  | arr l l' hl _ ih =>
    simp only [normal]
    rw [normalL_eq, normalL_eq]
    refine congrArg Json.arr (List.ext_getElem (by simpa using hl) fun i h1 h2 => ?_)
    rw [List.getElem_map, List.getElem_map]
    exact ih i _ _
  | obj m m' hd _ ih =>
    simp only [normal]
    refine congrArg Json.obj (ascending_ext (ascending_btreeCollect _) (ascending_btreeCollect _) fun k => ?_)
    rw [get?_normal, get?_normal]
    cases h1 : Map.get? m.reverse k with
    | some v =>
      obtain ⟨v', hv'⟩ := (hd k).1 ⟨v, last_iff.2 h1⟩
      rw [last_iff.1 hv']
      exact congrArg some (ih k v v' (last_iff.2 h1) hv')
    | none =>
      cases h2 : Map.get? m'.reverse k with
      | none => rfl
      | some v' =>
        obtain ⟨v, hv⟩ := (hd k).2 ⟨v', last_iff.2 h2⟩
        rw [last_iff, h1] at hv
        cases hv

theorem mem_of_last {m : List (Str × Json)} {k : Str} {v : Json} (h : LastMember m k v) : (k, v) ∈ m := by
  obtain ⟨pre, post, rfl, _⟩ := h
  simp

theorem same_of_normal : ∀ (v v' : Json), normal v = normal v' → SameContent v v' := by
  intro v
  induction hn : sizeOf v using Nat.strongRecOn generalizing v with
  | ind n ih =>
  subst hn
  intro v' h
  cases v with
  | arr l =>
    cases v' with
    | arr l' =>
      simp only [normal, Json.arr.injEq] at h
      rw [normalL_eq, normalL_eq] at h
      have hl : l.length = l'.length := by simpa using congrArg List.length h
      refine .arr _ _ hl fun i h1 h2 => ih (sizeOf l[i]) ?_ _ rfl _ ?_
      · have := List.sizeOf_lt_of_mem (List.getElem_mem h1)
        simp only [Json.arr.sizeOf_spec]
        omega
      · have := congrArg (fun l => l[i]?) h
        simpa [h1, h2] using this
    | _ => simp [normal] at h
  | obj m =>
    cases v' with
    | obj m' =>
      simp only [normal, Json.obj.injEq] at h
      have key : ∀ k, (Map.get? m.reverse k).map normal = (Map.get? m'.reverse k).map normal := fun k => by
        rw [← get?_normal, ← get?_normal, h]
      refine .obj _ _ (fun k => ?_) (fun k a b ha hb => ih (sizeOf a) ?_ _ rfl _ ?_)
      · simp only [last_iff, ← Option.isSome_iff_exists]
        have := congrArg Option.isSome (key k)
        simpa using this
      · have h1 := List.sizeOf_lt_of_mem (mem_of_last ha)
        have h2 : sizeOf a < sizeOf (k, a) := by simp only [Prod.mk.sizeOf_spec]; omega
        simp only [Json.obj.sizeOf_spec]
        omega
      · have := key k
        rw [last_iff.1 ha, last_iff.1 hb] at this
        exact Option.some.inj this
    | _ => simp [normal] at h
  | _ =>
    cases v' with
    | arr l => simp [normal] at h
    | obj l => simp [normal] at h
    | _ =>
      simp only [normal] at h
      first
      | (cases h; done)
      | (cases h; exact .scalar _ (by simp) (by simp))

theorem same_iff (v v' : Json) : SameContent v v' ↔ normal v = normal v' :=
  ⟨normal_of_same, same_of_normal v v'⟩

/-- **C103.** For documents as they are written, with members in any order and also with repeated
members: the bytes that are signed are the same exactly if the contents are the same. -/
theorem C103_signed_bytes_are_the_content (v v' : Json) (b b' : Bytes)
    (h : Json.canonicalize v = .ok b) (h' : Json.canonicalize v' = .ok b') :
    b = b' ↔ SameContent v v' := by
  rw [same_iff]
  constructor
  · intro e
    subst e
    exact canonicalize_same h h'
  · intro e
    rw [(canonicalize_ok h).2, (canonicalize_ok h').2, e]

section decoders
variable (X : ShimLib)

theorem nodup_repeated {names : List Str} {a b c : List (Str × Json)} {k : Str} {x y : Json}
    (hk : k ∈ names) : asStruct names (.obj (a ++ (k, x) :: b ++ (k, y) :: c)) = none := by
  have h : ¬ ((Map.keys (a ++ (k, x) :: b ++ (k, y) :: c)).filter fun k => names.contains k).Nodup := by
    have hc : names.contains k = true := List.contains_iff_mem.2 hk
    simp only [Map.keys, List.map_append, List.map_cons, List.filter_append, List.filter_cons, hc, if_true]
    intro h
    rw [List.append_assoc, List.nodup_append] at h
    have h := h.2.1
    rw [List.cons_append, List.nodup_cons] at h
    exact h.1 (by simp)
  exact if_neg h

/-- A known member that is not repeated is the one that is found. -/
theorem get?_known {names : List Str} {m : List (Str × Json)} {k : Str} {x : Json} (hk : k ∈ names)
    (h : ((Map.keys m).filter fun k => names.contains k).Nodup) (hm : (k, x) ∈ m) :
    Map.get? m k = some x := by
  have hc : names.contains k = true := List.contains_iff_mem.2 hk
  induction m with
  | nil => cases hm
  | cons p m ih =>
    obtain ⟨k', x'⟩ := p
    show (if k' = k then some x' else Map.get? m k) = some x
    rcases List.mem_cons.1 hm with e | hm
    · cases e
      exact if_pos rfl
    · have hin : k ∈ (Map.keys m).filter fun k => names.contains k :=
        List.mem_filter.2 ⟨List.mem_map.2 ⟨_, hm, rfl⟩, hc⟩
      have e : Map.keys ((k', x') :: m) = k' :: Map.keys m := rfl
      rw [e, List.filter_cons] at h
      split at h
      · rw [List.nodup_cons] at h
        have hne : k' ≠ k := by rintro rfl; exact h.1 hin
        rw [if_neg hne]
        exact ih h.2 hm
      · rename_i hk'
        have hne : k' ≠ k := by rintro rfl; exact hk' hc
        rw [if_neg hne]
        exact ih h hm

theorem get?_replace {a b : List (Str × Json)} {k k' : Str} {x y : Json} (h : k ≠ k') :
    Map.get? (a ++ (k, x) :: b) k' = Map.get? (a ++ (k, y) :: b) k' := by
  induction a with
  | nil => exact (if_neg h).trans (if_neg h).symm
  | cons p a ih =>
    obtain ⟨q, z⟩ := p
    show (if q = k' then some z else Map.get? (a ++ (k, x) :: b) k') =
      if q = k' then some z else Map.get? (a ++ (k, y) :: b) k'
    rw [ih]

theorem decodeSigned_same {a b : List (Str × Json)} {v v' : Json} (hs : SameContent v v') :
    decodeSigned (.obj (a ++ ("signed".toList, v) :: b)) =
      decodeSigned (.obj (a ++ ("signed".toList, v') :: b)) := by
  have hk : Map.keys (a ++ ("signed".toList, v) :: b) = Map.keys (a ++ ("signed".toList, v') :: b) := by
    simp only [Map.keys, List.map_append, List.map_cons]
  by_cases hn : ((Map.keys (a ++ ("signed".toList, v) :: b)).filter
      fun k => ["signatures".toList, "signed".toList].contains k).Nodup
  · have hn' := hn
    rw [hk] at hn'
    have e1 : asStruct ["signatures".toList, "signed".toList] (.obj (a ++ ("signed".toList, v) :: b)) =
      some (a ++ ("signed".toList, v) :: b) := if_pos hn
    have e2 : asStruct ["signatures".toList, "signed".toList] (.obj (a ++ ("signed".toList, v') :: b)) =
      some (a ++ ("signed".toList, v') :: b) := if_pos hn'
    have g1 := get?_known (k := "signed".toList) (x := v) (by known) hn
      (List.mem_append_right _ (List.mem_cons_self ..))
    have g2 := get?_known (k := "signed".toList) (x := v') (by known) hn'
      (List.mem_append_right _ (List.mem_cons_self ..))
    have g3 : Map.get? (a ++ ("signed".toList, v) :: b) "signatures".toList =
        Map.get? (a ++ ("signed".toList, v') :: b) "signatures".toList := get?_replace (by decide)
    unfold decodeSigned
    rw [e1, e2]
    show (field _ _ _ >>= _) = (field _ _ _ >>= _)
    unfold field
    rw [g3, g1, g2]
    cases Map.get? (a ++ ("signed".toList, v') :: b) "signatures".toList with
    | none => rfl
    | some js =>
      show (asVec decodeSignature js >>= fun sigs => some (sigs, v.normal)) =
        (asVec decodeSignature js >>= fun sigs => some (sigs, v'.normal))
      rw [normal_of_same hs]
  · have hn' := hn
    rw [hk] at hn'
    have e1 : asStruct ["signatures".toList, "signed".toList] (.obj (a ++ ("signed".toList, v) :: b)) =
      none := if_neg hn
    have e2 : asStruct ["signatures".toList, "signed".toList] (.obj (a ++ ("signed".toList, v') :: b)) =
      none := if_neg hn'
    unfold decodeSigned
    rw [e1, e2]

/-- **C103.** Of several members with the same name the last one counts, for the signature as well as
for the content. So if what is signed has the same content in two documents, they have the same effect on
every verification and on every first start of a client. -/
theorem C103_last_member_counts {M : Type} (ring order perm) (decode : Bytes → Except Err M)
    (raw raw' : Bytes) (a b : List (Str × Json)) (v v' : Json) (n : Nat) (keys : List PublicKey)
    (h : parseJson X.float raw = .ok (.obj (a ++ ("signed".toList, v) :: b)))
    (h' : parseJson X.float raw' = .ok (.obj (a ++ ("signed".toList, v') :: b)))
    (hs : SameContent v v') :
    verifySignatures (jsonEnv X ring order perm) decode raw n keys =
      verifySignatures (jsonEnv X ring order perm) decode raw' n keys ∧
    Tuf.fromTrustedRoot (jsonEnv X ring order perm) raw =
      Tuf.fromTrustedRoot (jsonEnv X ring order perm) raw' := by
  have hp : (jsonEnv X ring order perm).parseSigned raw = (jsonEnv X ring order perm).parseSigned raw' := by
    show fromSlice _ _ _ = fromSlice _ _ _
    unfold fromSlice
    rw [h, h']
    dsimp only
    rw [decodeSigned_same hs]
  constructor
  · unfold verifySignatures
    rw [hp]
  · unfold Tuf.fromTrustedRoot verifySignatures
    rw [hp]

/-- **C103.** A document in which `signed` or `signatures` is repeated is refused. -/
theorem C103_repeated_parts_refused {M : Type} (ring order perm) (decode : Bytes → Except Err M)
    (raw : Bytes) (a b c : List (Str × Json)) (k : Str) (x y : Json) (n : Nat) (keys : List PublicKey)
    (hk : k = "signed".toList ∨ k = "signatures".toList) (hn : 1 ≤ n)
    (h : parseJson X.float raw = .ok (.obj (a ++ (k, x) :: b ++ (k, y) :: c))) :
    verifySignatures (jsonEnv X ring order perm) decode raw n keys = .error .encoding := by
  have hd : decodeSigned (.obj (a ++ (k, x) :: b ++ (k, y) :: c)) = none := by
    unfold decodeSigned
    rw [nodup_repeated (by rcases hk with rfl | rfl <;> known)]
    rfl
  have hp : (jsonEnv X ring order perm).parseSigned raw = .error .encoding := by
    show fromSlice _ _ _ = _
    unfold fromSlice
    rw [h]
    simp only [hd, Option.map_none]
    rfl
  unfold verifySignatures
  rw [if_neg (by omega), hp]

/-- **C103.** So is one in which a signature has its key ID or its value twice. -/
theorem C103_repeated_in_signature_refused {M : Type} (ring order perm) (decode : Bytes → Except Err M)
    (raw : Bytes) (m a b c : List (Str × Json)) (l : List Json) (k : Str) (x y : Json) (n : Nat)
    (keys : List PublicKey) (hk : k = "keyid".toList ∨ k = "sig".toList) (hn : 1 ≤ n)
    (h : parseJson X.float raw = .ok (.obj m)) (hm : ("signatures".toList, .arr l) ∈ m)
    (hl : .obj (a ++ (k, x) :: b ++ (k, y) :: c) ∈ l) :
    verifySignatures (jsonEnv X ring order perm) decode raw n keys = .error .encoding := by
  have hd : decodeSigned (.obj m) = none := by
    unfold decodeSigned
    by_cases hnd : ((Map.keys m).filter fun k => ["signatures".toList, "signed".toList].contains k).Nodup
    · have e1 : asStruct ["signatures".toList, "signed".toList] (.obj m) = some m := if_pos hnd
      have hs : decodeSignature (.obj (a ++ (k, x) :: b ++ (k, y) :: c)) = none := by
        unfold decodeSignature
        rw [nodup_repeated (by rcases hk with rfl | rfl <;> known)]
        rfl
      have hf : field m "signatures".toList (asVec decodeSignature) = none := by
        unfold field
        rw [get?_known (by known) hnd hm]
        exact mapAll_none hl hs
      rw [e1]
      show (field m _ _ >>= _) = none
      rw [hf]
      rfl
    · have e1 : asStruct ["signatures".toList, "signed".toList] (.obj m) = none := if_neg hnd
      rw [e1]
      rfl
  have hp : (jsonEnv X ring order perm).parseSigned raw = .error .encoding := by
    show fromSlice _ _ _ = _
    unfold fromSlice
    rw [h]
    simp only [hd, Option.map_none]
    rfl
  unfold verifySignatures
  rw [if_neg (by omega), hp]

end decoders

/-! ### Examples -/

namespace RepeatedExample
open ShimExample

def one : Json := .obj [("a".toList, .int 1), ("b".toList, .int 2)]
def two : Json := .obj [("b".toList, .float 7), ("b".toList, .int 2), ("a".toList, .int 1)]

-- Same content, although one has a repeated member and another order; other content.
example : SameContent one two ∧ ¬ SameContent one (.obj [("a".toList, .int 1), ("b".toList, .int 2),
    ("b".toList, .int 9)]) := by
  rw [same_iff, same_iff]
  exact ⟨by decide +kernel, by decide +kernel⟩

-- Documents that meet the hypotheses of C103_last_member_counts.
example : parseJson lib.float (utf8 "{\"signatures\":[],\"signed\":{\"a\":1,\"b\":2}}".toList) =
      .ok (.obj ([("signatures".toList, .arr [])] ++ ("signed".toList, one) :: [])) ∧
    parseJson lib.float
      (utf8 "{\"signatures\":[],\"signed\":{\"b\":[1],\"a\":1,\"b\":2}}".toList) =
      .ok (.obj ([("signatures".toList, .arr [])] ++ ("signed".toList,
        .obj [("b".toList, .arr [.int 1]), ("a".toList, .int 1), ("b".toList, .int 2)]) :: [])) ∧
    SameContent one (.obj [("b".toList, .arr [.int 1]), ("a".toList, .int 1), ("b".toList, .int 2)]) := by
  rw [same_iff]
  exact ⟨by decide +kernel, by decide +kernel, by decide +kernel⟩

-- Documents that are refused.
example : (parseJson lib.float (utf8 "{\"signed\":1,\"signatures\":[],\"signed\":2}".toList) =
      .ok (.obj ([] ++ ("signed".toList, .int 1) :: [("signatures".toList, .arr [])] ++
        ("signed".toList, .int 2) :: []))) ∧
    parseJson lib.float (utf8 "{\"signatures\":[{\"sig\":1,\"sig\":2}]}".toList) =
      .ok (.obj [("signatures".toList, .arr [.obj ([] ++ ("sig".toList, .int 1) :: [] ++
        ("sig".toList, .int 2) :: [])])]) := by
  exact ⟨by decide +kernel, by decide +kernel⟩

end RepeatedExample

theorem asStruct_zip {names : List Str} (hn : names.Nodup) {l : List Json} (hl : l.length = names.length) :
    asStruct names (.arr l) = asStruct names (.obj (names.zip l)) := by
  have hk : Map.keys (names.zip l) = names := by
    unfold Map.keys
    exact List.map_fst_zip (le_of_eq hl.symm)
  have : ((Map.keys (names.zip l)).filter fun k => names.contains k).Nodup := by
    rw [hk]
    exact hn.filter _
  simp only [asStruct]
  rw [if_pos hl, if_pos this]

/-- **Limit of C103.** Metadata have a second form: an array of the members without their names, in the
order of the declaration, is read like the object with these members. -/
theorem C103_arrays_are_read_as_objects (X : ShimLib) (l : List Json) :
    (l.length = 7 → decodeRoot X (.arr l) = decodeRoot X (.obj (["_type".toList, "spec_version".toList,
      "version".toList, "consistent_snapshot".toList, "expires".toList, "keys".toList,
      "roles".toList].zip l))) ∧
    (l.length = 5 → decodeTimestamp X (.arr l) = decodeTimestamp X (.obj (["_type".toList,
      "spec_version".toList, "version".toList, "expires".toList, "meta".toList].zip l))) ∧
    (l.length = 5 → decodeSnapshot X (.arr l) = decodeSnapshot X (.obj (["_type".toList,
      "spec_version".toList, "version".toList, "expires".toList, "meta".toList].zip l))) ∧
    (l.length = 6 → decodeTargets X (.arr l) = decodeTargets X (.obj (["_type".toList,
      "spec_version".toList, "version".toList, "expires".toList, "targets".toList,
      "delegations".toList].zip l))) := by
  refine ⟨fun h => ?_, fun h => ?_, fun h => ?_, fun h => ?_⟩
  · unfold decodeRoot
    rw [asStruct_zip (by decide +kernel) (by rw [h]; rfl)]
  · unfold decodeTimestamp
    rw [asStruct_zip (by decide +kernel) (by rw [h]; rfl)]
  · unfold decodeSnapshot
    rw [asStruct_zip (by decide +kernel) (by rw [h]; rfl)]
  · unfold decodeTargets
    rw [asStruct_zip (by decide +kernel) (by rw [h]; rfl)]
-- Hypothesis of `C103_arrays_are_read_as_objects`, for an array that is a timestamp.
example : let l : List Json := [.str "timestamp".toList, .str "1.0".toList, .int 1, .str "1".toList,
      .obj [("snapshot.json".toList, .obj [("version".toList, .int 1), ("length".toList, .int 9),
        ("hashes".toList, .obj [("sha256".toList, .str "00ff".toList)])])]]
    l.length = 5 ∧ (decodeTimestamp PublishExample.lib (.arr l)).isSome := by decide +kernel

end RustTuf.Props
