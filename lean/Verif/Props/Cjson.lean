import Verif.Lemmas.Cjson
import Verif.Lemmas.Utf8
import Verif.Spec.Json

/-!
# C51, C52: canonical JSON
-/

namespace RustTuf.Props
open Spec RustTuf Json

/-! ### `convert` -/

mutual
theorem convert_eq : ∀ v : Json,
    convert v = if integral v then .ok (normal v) else .error .opaqueErr
  | .null => rfl
  | .bool _ => rfl
  | .int i => by
    simp only [convert, integral, normal, i64u64]; rfl
  | .float _ => rfl
  | .str _ => rfl
  | .arr l => by
    rw [convert, convertL_eq l]
    by_cases h : integralL l = true
    · rw [if_pos h, if_pos (by rw [integral]; exact h), normal]
    · rw [if_neg h, if_neg (by rw [integral]; exact h)]
  | .obj m => by
    rw [convert, convertM_eq m]
    by_cases h : integralM m = true
    · rw [if_pos h, if_pos (by rw [integral]; exact h), normal]
    · rw [if_neg h, if_neg (by rw [integral]; exact h)]
theorem convertL_eq : ∀ l : List Json,
    convertL l = if integralL l then .ok (normalL l) else .error .opaqueErr
  | [] => rfl
  | v :: l => by
    rw [convertL, convert_eq v, convertL_eq l]
    by_cases h : integral v = true
    · by_cases h' : integralL l = true
      · rw [if_pos h, if_pos h', if_pos (by rw [integralL, h, h']; rfl), normalL]
      · rw [if_pos h, if_neg h', if_neg (by rw [integralL, h]; exact h')]
    · have hn : ¬ integralL (v :: l) = true := by rw [integralL]; simp [h]
      rw [if_neg h, if_neg hn]
theorem convertM_eq : ∀ m : List (Str × Json),
    convertM m = if integralM m then .ok (normalM m) else .error .opaqueErr
  | [] => rfl
  | (k, v) :: m => by
    rw [convertM, convert_eq v, convertM_eq m]
    by_cases h : integral v = true
    · by_cases h' : integralM m = true
      · rw [if_pos h, if_pos h', if_pos (by rw [integralM, h, h']; rfl), normalM]
      · rw [if_pos h, if_neg h', if_neg (by rw [integralM, h]; exact h')]
    · have hn : ¬ integralM ((k, v) :: m) = true := by rw [integralM]; simp [h]
      rw [if_neg h, if_neg hn]
end

theorem normalM_eq (m : List (Str × Json)) : normalM m = m.map fun p => (p.1, normal p.2) := by
  induction m with
  | nil => rfl
  | cons p m ih => obtain ⟨k, v⟩ := p; simp [normalM, ih]

theorem normalL_eq (l : List Json) : normalL l = l.map normal := by
  induction l with
  | nil => rfl
  | cons v l ih => simp [normalL, ih]

theorem integralM_eq (m : List (Str × Json)) : integralM m = m.all fun p => integral p.2 := by
  induction m with
  | nil => rfl
  | cons p m ih => simp [integralM, ih]

theorem integralL_eq (l : List Json) : integralL l = l.all integral := by
  induction l with
  | nil => rfl
  | cons v l ih => simp [integralL, ih]

theorem canonM_iff (m : List (Str × Json)) : CanonM m ↔ ∀ p ∈ m, Canon p.2 := by
  induction m with
  | nil => simp [CanonM]
  | cons p m ih => simp [CanonM, ih]

theorem keys_normalM (m : List (Str × Json)) : Map.keys (normalM m) = Map.keys m := by
  rw [normalM_eq]; simp [Map.keys, Function.comp_def]

theorem mem_btreeCollect {V : Type} {l : List (Str × V)} {p : Str × V} (h : p ∈ btreeCollect l) :
    p ∈ l := by
  have key : ∀ (l m : List (Str × V)),
      p ∈ l.foldl (fun m p => btreeInsert p.1 p.2 m) m → p ∈ l ∨ p ∈ m := by
    intro l
    induction l with
    | nil => intro m h; exact .inr h
    | cons q l ih =>
      intro m h
      rcases ih _ h with h | h
      · exact .inl (by simp [h])
      · rcases mem_btreeInsert h with rfl | h
        · exact .inl (by simp)
        · exact .inr h
  rcases key l [] h with h | h
  · exact h
  · simp at h

mutual
theorem canon_normal : ∀ v : Json, integral v = true → Canon (normal v)
  | .null, _ => by simp [normal, Canon]
  | .bool _, _ => by simp [normal, Canon]
  | .int i, h => by simpa [normal, Canon, integral, i64u64] using h
  | .float _, h => by simp [integral] at h
  | .str _, _ => by simp [normal, Canon]
  | .arr l, h => by simp only [normal, Canon]; exact canonL_normal l (by simpa [integral] using h)
  | .obj m, h => by
    simp only [normal, Canon]
    refine ⟨ascending_btreeCollect _, (canonM_iff _).2 fun p hp => ?_⟩
    exact (canonM_iff _).1 (canonM_normal m (by simpa [integral] using h)) p (mem_btreeCollect hp)
theorem canonL_normal : ∀ l : List Json, integralL l = true → CanonL (normalL l)
  | [], _ => by simp [normalL, CanonL]
  | v :: l, h => by
    simp only [integralL, Bool.and_eq_true] at h
    simp only [normalL, CanonL]
    exact ⟨canon_normal v h.1, canonL_normal l h.2⟩
theorem canonM_normal : ∀ m : List (Str × Json), integralM m = true → CanonM (normalM m)
  | [], _ => by simp [normalM, CanonM]
  | (k, v) :: m, h => by
    simp only [integralM, Bool.and_eq_true] at h
    simp only [normalM, CanonM]
    exact ⟨canon_normal v h.1, canonM_normal m h.2⟩
end

mutual
theorem normal_isValue : ∀ v : Json, IsValue v → normal v = v
  | .null, _ => rfl
  | .bool _, _ => rfl
  | .int _, _ => rfl
  | .float _, _ => rfl
  | .str _, _ => rfl
  | .arr l, h => by
    simp only [IsValue] at h
    rw [normal, normalL_isValue l h]
  | .obj m, h => by
    simp only [IsValue] at h
    rw [normal, normalM_isValue m h.2, btreeCollect_ascending (h.1.imp fun h => (strLt_iff _ _).2 h)]
theorem normalL_isValue : ∀ l : List Json, IsValueL l → normalL l = l
  | [], _ => rfl
  | v :: l, h => by
    simp only [IsValueL] at h
    rw [normalL, normal_isValue v h.1, normalL_isValue l h.2]
theorem normalM_isValue : ∀ m : List (Str × Json), IsValueM m → normalM m = m
  | [], _ => rfl
  | (k, v) :: m, h => by
    simp only [IsValueM] at h
    rw [normalM, normal_isValue v h.1, normalM_isValue m h.2]
end

theorem isValueM_iff (m : List (Str × Json)) : IsValueM m ↔ ∀ p ∈ m, IsValue p.2 := by
  induction m with
  | nil => simp [IsValueM]
  | cons p m ih => simp [IsValueM, ih]

mutual
theorem isValue_normal : ∀ v : Json, IsValue (normal v)
  | .null => by simp [normal, IsValue]
  | .bool _ => by simp [normal, IsValue]
  | .int _ => by simp [normal, IsValue]
  | .float _ => by simp [normal, IsValue]
  | .str _ => by simp [normal, IsValue]
  | .arr l => by simp only [normal, IsValue]; exact isValueL_normal l
  | .obj m => by
    simp only [normal, IsValue]
    exact ⟨(ascending_btreeCollect _).imp fun h => (strLt_iff _ _).1 h, (isValueM_iff _).2 fun p hp =>
      (isValueM_iff _).1 (isValueM_normal m) p (mem_btreeCollect hp)⟩
theorem isValueL_normal : ∀ l : List Json, IsValueL (normalL l)
  | [] => by simp [normalL, IsValueL]
  | v :: l => by simp only [normalL, IsValueL]; exact ⟨isValue_normal v, isValueL_normal l⟩
theorem isValueM_normal : ∀ m : List (Str × Json), IsValueM (normalM m)
  | [] => by simp [normalM, IsValueM]
  | (k, v) :: m => by simp only [normalM, IsValueM]; exact ⟨isValue_normal v, isValueM_normal m⟩
end

mutual
theorem integral_canon : ∀ v : Json, Canon v → integral v = true
  | .null, _ => rfl
  | .bool _, _ => rfl
  | .int i, h => by simpa [Canon, integral, i64u64] using h
  | .float _, h => by simp [Canon] at h
  | .str _, _ => rfl
  | .arr l, h => by simp only [Canon] at h; simpa [integral] using integralL_canon l h
  | .obj m, h => by simp only [Canon] at h; simpa [integral] using integralM_canon m h.2
theorem integralL_canon : ∀ l : List Json, CanonL l → integralL l = true
  | [], _ => rfl
  | v :: l, h => by
    simp only [CanonL] at h
    simp [integralL, integral_canon v h.1, integralL_canon l h.2]
theorem integralM_canon : ∀ m : List (Str × Json), CanonM m → integralM m = true
  | [], _ => rfl
  | (k, v) :: m, h => by
    simp only [CanonM] at h
    simp [integralM, integral_canon v h.1, integralM_canon m h.2]
end

/-- Writing is injective on canonical values. -/
theorem write_injective {v w : Json} (hv : Canon v) (hw : Canon w) (h : write v = write w) :
    v = w := by
  let L : FloatLib := ⟨fun _ => none⟩
  have h1 := parseValue_write L v (cost v + cost w) (depth v + depth w + 1) [] hv (by omega)
    (by omega) endsNumber_nil
  have h2 := parseValue_write L w (cost v + cost w) (depth v + depth w + 1) [] hw (by omega)
    (by omega) endsNumber_nil
  rw [h, h2] at h1
  cases h1
  rfl

theorem canonicalize_eq (v : Json) :
    canonicalize v = if integral v then .ok (utf8 (write (normal v))) else .error .opaqueErr := by
  unfold canonicalize canonicalText
  rw [convert_eq]
  cases h : integral v <;> simp

theorem canonicalize_ok {v : Json} {b : Bytes} (h : canonicalize v = .ok b) :
    integral v = true ∧ b = utf8 (write (normal v)) := by
  rw [canonicalize_eq] at h
  split at h
  · rename_i hi
    cases h
    exact ⟨hi, rfl⟩
  · cases h

theorem canonicalize_same {v w : Json} {b : Bytes} (hv : canonicalize v = .ok b)
    (hw : canonicalize w = .ok b) : normal v = normal w := by
  obtain ⟨h1, h2⟩ := canonicalize_ok hv
  obtain ⟨h3, h4⟩ := canonicalize_ok hw
  exact write_injective (canon_normal v h1) (canon_normal w h3) (utf8_injective (h2 ▸ h4))

/-! ### Reordering -/

theorem btreeCollect_swap {V : Type} (a b : List (Str × V)) (p q : Str × V) (h : p.1 ≠ q.1) :
    btreeCollect (a ++ p :: q :: b) = btreeCollect (a ++ q :: p :: b) := by
  refine ascending_ext (ascending_btreeCollect _) (ascending_btreeCollect _) fun x => ?_
  rw [get?_btreeCollect, get?_btreeCollect]
  have happ : ∀ (l m : List (Str × V)), Map.get? (l ++ m) x = (Map.get? l x).or (Map.get? m x) := by
    intro l m
    induction l with
    | nil => simp [Map.get?]
    | cons r l ih =>
      obtain ⟨k, v⟩ := r
      simp only [List.cons_append, Map.get?]
      split
      · rfl
      · exact ih
  obtain ⟨pk, pv⟩ := p
  obtain ⟨qk, qv⟩ := q
  simp only [List.reverse_append, List.reverse_cons, List.append_assoc,
    List.cons_append, List.nil_append, happ, Map.get?]
  congr 1
  by_cases h1 : pk = x
  · have h2 : qk ≠ x := fun h2 => h (h1.trans h2.symm)
    simp [h1, h2]
  · simp [h1]

theorem reordered_same {v w : Json} (h : Reordered v w) :
    integral v = integral w ∧ normal v = normal w := by
  induction h with
  | refl v => exact ⟨rfl, rfl⟩
  | symm v w _ ih => exact ⟨ih.1.symm, ih.2.symm⟩
  | trans v w x _ _ ih1 ih2 => exact ⟨ih1.1.trans ih2.1, ih1.2.trans ih2.2⟩
  | swap a b p q h =>
    constructor
    · simp only [integral, integralM_eq, List.all_append, List.all_cons]
      cases integral p.2 <;> cases integral q.2 <;> simp
    · simp only [normal, normalM_eq, List.map_append, List.map_cons]
      rw [btreeCollect_swap _ _ _ _ (by exact h)]
  | inArr a b v w _ ih =>
    constructor
    · simp only [integral, integralL_eq, List.all_append, List.all_cons, ih.1]
    · simp only [normal, normalL_eq, List.map_append, List.map_cons, ih.2]
  | inObj a b k v w _ ih =>
    constructor
    · simp only [integral, integralM_eq, List.all_append, List.all_cons, ih.1]
    · simp only [normal, normalM_eq, List.map_append, List.map_cons, ih.2]

theorem perm_btreeInsert {V : Type} (k : Str) (v : V) (m : List (Str × V))
    (h : ∀ p ∈ m, p.1 ≠ k) : (btreeInsert k v m).Perm ((k, v) :: m) := by
  induction m with
  | nil => exact List.Perm.refl _
  | cons p m ih =>
    unfold btreeInsert
    split
    · exact List.Perm.refl _
    split
    · rename_i he; exact absurd he.symm (h p (by simp))
    · exact (List.Perm.cons p (ih fun q hq => h q (by simp [hq]))).trans (List.Perm.swap _ _ _)

theorem perm_btreeCollect {V : Type} (l : List (Str × V)) (h : (l.map Prod.fst).Nodup) :
    (btreeCollect l).Perm l := by
  have key : ∀ (l m : List (Str × V)), ((m ++ l).map Prod.fst).Nodup →
      (l.foldl (fun m p => btreeInsert p.1 p.2 m) m).Perm (m ++ l) := by
    intro l
    induction l with
    | nil => intro m _; simp
    | cons p l ih =>
      intro m hn
      have hp : ∀ q ∈ m, q.1 ≠ p.1 := by
        intro q hq he
        rw [List.map_append, List.nodup_append] at hn
        exact hn.2.2 q.1 (List.mem_map_of_mem hq) p.1 (by simp) he
      have hperm : (btreeInsert p.1 p.2 m ++ l).Perm (m ++ p :: l) := by
        refine ((perm_btreeInsert p.1 p.2 m hp).append_right l).trans ?_
        exact (List.perm_middle (l₁ := m) (l₂ := l) (a := p)).symm
      exact (ih _ ((hperm.map Prod.fst).nodup_iff.2 hn)).trans hperm
  exact key l [] h

theorem reordered_perm {m m' : List (Str × Json)} (hp : m.Perm m') (pre : List (Str × Json))
    (hn : (m.map Prod.fst).Nodup) : Reordered (.obj (pre ++ m)) (.obj (pre ++ m')) := by
  induction hp generalizing pre with
  | nil => exact .refl _
  | cons p _ ih =>
    have := ih (pre ++ [p]) (List.nodup_cons.1 hn).2
    simpa using this
  | swap p q l =>
    refine .swap pre l q p ?_
    rw [List.map_cons, List.map_cons, List.nodup_cons] at hn
    intro h
    exact hn.1 (by simp [h])
  | trans h1 _ ih1 ih2 =>
    exact .trans _ _ _ (ih1 pre hn) (ih2 pre ((h1.map Prod.fst).nodup_iff.1 hn))

mutual
theorem reordered_normal : ∀ v : Json, Distinct v → Reordered v (normal v)
  | .null, _ => .refl _
  | .bool _, _ => .refl _
  | .int _, _ => .refl _
  | .float _, _ => .refl _
  | .str _, _ => .refl _
  | .arr l, h => by
    simp only [Distinct] at h
    simpa [normal] using reorderedL_normal l [] h
  | .obj m, h => by
    simp only [Distinct] at h
    have h1 := reorderedM_normal m [] h.2
    have hn : ((normalM m).map Prod.fst).Nodup := by
      have := keys_normalM m
      unfold Map.keys at this
      rw [this]; exact h.1
    have h2 := reordered_perm (perm_btreeCollect (normalM m) hn).symm [] hn
    simpa [normal] using Reordered.trans _ _ _ h1 h2
theorem reorderedL_normal : ∀ (l pre : List Json), DistinctL l →
    Reordered (.arr (pre ++ l)) (.arr (pre ++ normalL l))
  | [], pre, _ => .refl _
  | v :: l, pre, h => by
    simp only [DistinctL] at h
    have h1 := Reordered.inArr pre l v (normal v) (reordered_normal v h.1)
    have h2 := reorderedL_normal l (pre ++ [normal v]) h.2
    simp only [List.append_assoc, List.singleton_append] at h2
    exact .trans _ _ _ h1 h2
theorem reorderedM_normal : ∀ (m pre : List (Str × Json)), DistinctM m →
    Reordered (.obj (pre ++ m)) (.obj (pre ++ normalM m))
  | [], pre, _ => .refl _
  | (k, v) :: m, pre, h => by
    simp only [DistinctM] at h
    have h1 := Reordered.inObj pre m k v (normal v) (reordered_normal v h.1)
    have h2 := reorderedM_normal m (pre ++ [(k, normal v)]) h.2
    simp only [List.append_assoc, List.singleton_append] at h2
    exact .trans _ _ _ h1 h2
end

/-! ### The theorems -/

/-- **C51.** Two values with the same canonical bytes are equal. `IsValue` holds of everything a
`serde_json::Value` can hold. -/
theorem C51_injective (v w : Json) (b : Bytes) (hv : IsValue v) (hw : IsValue w)
    (h1 : canonicalize v = .ok b) (h2 : canonicalize w = .ok b) : v = w := by
  have := canonicalize_same h1 h2
  rwa [normal_isValue v hv, normal_isValue w hw] at this

/-- **C51.** For documents as written, with members in any order: the canonical bytes are the same
exactly if the documents differ in the order of members only. -/
theorem C51_same_bytes_iff_reordered (v w : Json) (b : Bytes) (hv : Distinct v) (hw : Distinct w)
    (h1 : canonicalize v = .ok b) : canonicalize w = .ok b ↔ Reordered v w := by
  constructor
  · intro h2
    have h := canonicalize_same h1 h2
    refine .trans _ _ _ (reordered_normal v hv) ?_
    rw [h]
    exact .symm _ _ (reordered_normal w hw)
  · intro h
    obtain ⟨h2, h3⟩ := reordered_same h
    rw [← h1, canonicalize_eq, canonicalize_eq, h2, h3]

/-- **C52.** The order of members does not matter, for success or for the bytes. -/
theorem C52_order_irrelevant (v w : Json) (h : Reordered v w) : canonicalize v = canonicalize w := by
  obtain ⟨h2, h3⟩ := reordered_same h
  rw [canonicalize_eq, canonicalize_eq, h2, h3]

/-- **C52.** Canonicalising succeeds exactly on values whose numbers are all integers in the range of
`i64` and `u64`; otherwise it reports an opaque error. -/
theorem C52_total_on_integers (v : Json) :
    (integral v = true → ∃ b, canonicalize v = .ok b) ∧
    (integral v = false → canonicalize v = .error .opaqueErr) := by
  rw [canonicalize_eq]
  constructor
  · intro h; rw [h]; exact ⟨_, rfl⟩
  · intro h; rw [h]; rfl

/-- **C52.** The canonical form is a fixed point: the bytes are those of a value whose members are
sorted at every level, and which is its own canonical form. -/
theorem C52_canonical_form (v : Json) (b : Bytes) (h : canonicalize v = .ok b) :
    ∃ w, IsValue w ∧ (Distinct v → Reordered v w) ∧ canonicalize w = .ok b := by
  obtain ⟨h1, h2⟩ := canonicalize_ok h
  refine ⟨normal v, isValue_normal v, reordered_normal v, ?_⟩
  rw [canonicalize_eq, normal_isValue _ (isValue_normal v), h2]
  rw [if_pos]
  have hc := canon_normal v h1
  exact integral_canon _ hc

/-! ### Reading canonical bytes -/

theorem fromUtf8_utf8 (s : Str) : fromUtf8 (utf8 s) = some s := by
  have h : (utf8 s).toByteArray = s.utf8Encode := by
    unfold List.utf8Encode utf8; rfl
  unfold fromUtf8
  rw [h, List.utf8Decode?_utf8Encode]
  simp

mutual
theorem cost_length : ∀ v : Json, Canon v → cost v + 1 ≤ 2 * (write v).length
  | .null, _ => by simp [cost, write]
  | .bool b, _ => by cases b <;> simp [cost, write]
  | .int i, h => by
    obtain ⟨c, t, h1, _⟩ := write_cons _ h
    rw [h1]; simp [cost]
  | .float _, h => by simp [Canon] at h
  | .str s, _ => by simp [cost, write, writeStr]
  | .arr l, h => by
    simp only [Canon] at h
    have := costL_length l true h
    simp only [cost, write, List.length_cons, List.length_append, List.length_nil]
    omega
  | .obj m, h => by
    simp only [Canon] at h
    have := costM_length m true h.2
    simp only [cost, write, List.length_cons, List.length_append, List.length_nil]
    omega
theorem costL_length : ∀ (l : List Json) (b : Bool), CanonL l → costL l ≤ 2 * (writeL b l).length
  | [], _, _ => by simp [costL]
  | v :: l, b, h => by
    simp only [CanonL] at h
    have h1 := cost_length v h.1
    have h2 := costL_length l false h.2
    simp only [costL, writeL, List.length_append]
    omega
theorem costM_length : ∀ (m : List (Str × Json)) (b : Bool), CanonM m →
    costM m ≤ 2 * (writeM b m).length
  | [], _, _ => by simp [costM]
  | (k, v) :: m, b, h => by
    simp only [CanonM] at h
    have h1 := cost_length v h.1
    have h2 := costM_length m false h.2
    simp only [costM, writeM, List.length_append]
    omega
end

theorem parseText_write (L : FloatLib) (v : Json) (h : Canon v) (hd : depth v < 128) :
    parseText L (write v) = .ok v := by
  have h1 := parseValue_write L v (2 * (write v).length + 2) 128 [] h
    (by have := cost_length v h; omega) hd endsNumber_nil
  rw [List.append_nil] at h1
  unfold parseText
  rw [h1]
  rfl

theorem depthM_le {m : List (Str × Json)} {n : Nat} : depthM m ≤ n ↔ ∀ p ∈ m, depth p.2 ≤ n := by
  induction m with
  | nil => simp [depthM]
  | cons p m ih => simp [depthM, ih]

mutual
theorem depth_normal : ∀ v : Json, depth (normal v) ≤ nesting v
  | .null => by simp [normal, depth]
  | .bool _ => by simp [normal, depth]
  | .int _ => by simp [normal, depth]
  | .float _ => by simp [normal, depth]
  | .str _ => by simp [normal, depth]
  | .arr l => by
    have := depthL_normal l
    simp only [normal, depth, nesting]
    omega
  | .obj m => by
    have h := depthM_normal m
    have : depthM (btreeCollect (normalM m)) ≤ nestingM m :=
      depthM_le.2 fun p hp => depthM_le.1 h p (mem_btreeCollect hp)
    simp only [normal, depth, nesting]
    omega
theorem depthL_normal : ∀ l : List Json, depthL (normalL l) ≤ nestingL l
  | [] => by simp [normalL, depthL]
  | v :: l => by
    have h1 := depth_normal v
    have h2 := depthL_normal l
    simp only [normalL, depthL, nestingL]
    omega
theorem depthM_normal : ∀ m : List (Str × Json), depthM (normalM m) ≤ nestingM m
  | [] => by simp [normalM, depthM]
  | (k, v) :: m => by
    have h1 := depth_normal v
    have h2 := depthM_normal m
    simp only [normalM, depthM, nestingM]
    omega
end

/-- **C68.** Reading the canonical bytes of a value gives back that value, for values nested less
than 128 levels deep (the recursion limit of serde_json). -/
theorem C68_canonical_bytes_read_back (L : FloatLib) (v : Json) (b : Bytes) (hv : IsValue v)
    (hd : nesting v < 128) (h : canonicalize v = .ok b) : parseJson L b = .ok v := by
  obtain ⟨h1, h2⟩ := canonicalize_ok h
  have hd' : depth (normal v) < 128 := lt_of_le_of_lt (depth_normal v) hd
  have := parseText_write L _ (canon_normal v h1) hd'
  unfold parseJson
  rw [h2, fromUtf8_utf8]
  dsimp only
  rw [this, normal_isValue v hv]

/-- **C68.** For a document as it was read, with members in any order and possibly repeated: reading
its canonical bytes gives the value that a reader of the document itself ends up with. -/
theorem C68_canonical_bytes_read_back_normal (L : FloatLib) (v : Json) (b : Bytes)
    (hd : nesting v < 128) (h : canonicalize v = .ok b) : parseJson L b = .ok (normal v) := by
  obtain ⟨h1, h2⟩ := canonicalize_ok h
  have hd' : depth (normal v) < 128 := lt_of_le_of_lt (depth_normal v) hd
  unfold parseJson
  rw [h2, fromUtf8_utf8]
  exact parseText_write L _ (canon_normal v h1) hd'

/-! ### Examples -/

namespace CjsonExample

/-- `{"b":[1,{"y":"\u000a\"é","x":null}],"a":-5}`, members out of order. -/
def v : Json := .obj [(['b'], .arr [.int 1, .obj [(['y'], .str ['\n', '"', 'é']), (['x'], .null)]]),
  (['a'], .int (-5))]

/-- The same document with members in order. -/
def w : Json := .obj [(['a'], .int (-5)),
  (['b'], .arr [.int 1, .obj [(['x'], .null), (['y'], .str ['\n', '"', 'é'])]])]

example : canonicalText v =
    .ok "{\"a\":-5,\"b\":[1,{\"x\":null,\"y\":\"\\n\\\"é\"}]}".toList := by decide +kernel

example : canonicalize v = canonicalize w := by decide +kernel
example : v ≠ w := by decide +kernel

example : Reordered v w := by
  refine .trans _ _ _ (.swap [] [] _ _ (by decide +kernel)) ?_
  exact .inObj [(['a'], .int (-5))] [] ['b'] _ _
    (.inArr [.int 1] [] _ _ (.swap [] [] _ _ (by decide +kernel)))

example : Distinct v ∧ Distinct w := by
  constructor <;> simp [v, w, Distinct, DistinctL, DistinctM]

example : IsValue w ∧ nesting w = 3 ∧ integral w = true := by
  refine ⟨?_, by decide +kernel, by decide +kernel⟩
  simp only [w, IsValue, IsValueL, IsValueM]
  decide +kernel

/-- Reading the text again, with some white space and another escape. -/
example : (parseText ⟨fun _ => none⟩
    " {\"b\" : [1,{\"y\":\"\\u000A\\\"é\",\"x\":null} ],\n\"a\":-5}".toList) = .ok v := by decide +kernel

/-- Floats are refused. -/
example : canonicalize (.arr [.int 1, .float 0]) = .error .opaqueErr := by decide +kernel

/-- A member listed twice: the last one counts. -/
example : canonicalText (.obj [(['a'], .int 1), (['a'], .int 2)]) = .ok "{\"a\":2}".toList := by
  decide +kernel

end CjsonExample

end RustTuf.Props
