import Verif.Props.Repeated
import Verif.Props.Publish
import Verif.Model.Builders

/-!
# Content that is nested too deeply
The reader refuses documents that are nested 128 levels deep; nothing checks this when a document is
made.
-/

namespace RustTuf.Props
open RustTuf Spec Json

theorem parseNumber_nesting {L : FloatLib} {neg : Bool} {s r : Str} {v : Json}
    (h : parseNumber L neg s = .ok (v, r)) : nesting v = 0 := by
  unfold parseNumber at h
  dsimp only at h
  split at h
  · cases h
  · split at h
    · cases h
    · split at h
      · cases h; rfl
      · split at h
        · cases h; rfl
        · split at h <;> cases h
          rfl

/-- What is read is not nested more deeply than allowed, and would be read with a higher limit, too. -/
theorem parse_depth (L : FloatLib) (fuel : Nat) : ∀ (d d' : Nat), d ≤ d' → 1 ≤ d →
    (∀ s v r, parseValue L fuel d s = .ok (v, r) → nesting v < d ∧ parseValue L fuel d' s = .ok (v, r)) ∧
    (∀ s l r, parseElems L fuel d s = .ok (l, r) → nestingL l < d ∧ parseElems L fuel d' s = .ok (l, r)) ∧
    (∀ s m r, parseMembers L fuel d s = .ok (m, r) →
      nestingM m < d ∧ parseMembers L fuel d' s = .ok (m, r)) := by
  induction fuel with
  | zero =>
    intro d d' _ _
    refine ⟨fun s v r h => ?_, fun s v r h => ?_, fun s v r h => ?_⟩
    · simp [parseValue] at h
    · simp [parseElems] at h
    · simp [parseMembers] at h
  | succ fuel ih =>
    intro d d' hd h1
    refine ⟨fun s v r h => ?_, fun s l r h => ?_, fun s m r h => ?_⟩
    · unfold parseValue at h ⊢
      split at h
      · cases h
      · rename_i c r0 hs
        by_cases c1 : c = 'n'
        · rw [if_pos c1] at h ⊢
          split at h <;> cases h
          exact ⟨h1, rfl⟩
        rw [if_neg c1] at h ⊢
        by_cases c2 : c = 't'
        · rw [if_pos c2] at h ⊢
          split at h <;> cases h
          exact ⟨h1, rfl⟩
        rw [if_neg c2] at h ⊢
        by_cases c3 : c = 'f'
        · rw [if_pos c3] at h ⊢
          split at h <;> cases h
          exact ⟨h1, rfl⟩
        rw [if_neg c3] at h ⊢
        by_cases c4 : c = '"'
        · rw [if_pos c4] at h ⊢
          split at h <;> cases h
          exact ⟨h1, rfl⟩
        rw [if_neg c4] at h ⊢
        by_cases c5 : c = '['
        · rw [if_pos c5] at h ⊢
          split at h
          · cases h
          · rename_i hd2
            rw [if_neg (by omega)]
            split at h
            · cases h
              exact ⟨by simp only [nesting, nestingL]; omega, rfl⟩
            · split at h
              · cases h
              · rename_i l r' hl
                obtain ⟨n2, e2⟩ := (ih (d - 1) (d' - 1) (by omega) (by omega)).2.1 _ _ _ hl
                cases h
                rw [e2]
                exact ⟨by simp only [nesting]; omega, rfl⟩
        rw [if_neg c5] at h ⊢
        by_cases c6 : c = '{'
        · rw [if_pos c6] at h ⊢
          split at h
          · cases h
          · rename_i hd2
            rw [if_neg (by omega)]
            split at h
            · cases h
              exact ⟨by simp only [nesting, nestingM]; omega, rfl⟩
            · split at h
              · cases h
              · rename_i l r' hl
                obtain ⟨n2, e2⟩ := (ih (d - 1) (d' - 1) (by omega) (by omega)).2.2 _ _ _ hl
                cases h
                rw [e2]
                exact ⟨by simp only [nesting]; omega, rfl⟩
        rw [if_neg c6] at h ⊢
        have hnum : nesting v = 0 := by
          split at h
          · exact parseNumber_nesting h
          · split at h
            · exact parseNumber_nesting h
            · cases h
        exact ⟨by omega, h⟩
    · unfold parseElems at h ⊢
      split at h
      · cases h
      · rename_i v s' hv
        obtain ⟨n1, e1⟩ := (ih d d' hd h1).1 _ _ _ hv
        rw [e1]
        dsimp only
        split at h
        · cases h
          exact ⟨by simp only [nestingL]; omega, rfl⟩
        · split at h
          · cases h
          · rename_i l' r' hl
            obtain ⟨n2, e2⟩ := (ih d d' hd h1).2.1 _ _ _ hl
            cases h
            rw [e2]
            exact ⟨by simp only [nestingL]; omega, rfl⟩
        · cases h
    · unfold parseMembers at h ⊢
      split at h
      · split at h
        · cases h
        · split at h
          · split at h
            · cases h
            · rename_i v s' hv
              obtain ⟨n1, e1⟩ := (ih d d' hd h1).1 _ _ _ hv
              rw [e1]
              dsimp only
              split at h
              · cases h
                exact ⟨by simp only [nestingM]; omega, rfl⟩
              · split at h
                · cases h
                · rename_i l' r' hl
                  obtain ⟨n2, e2⟩ := (ih d d' hd h1).2.2 _ _ _ hl
                  cases h
                  rw [e2]
                  exact ⟨by simp only [nestingM]; omega, rfl⟩
              · cases h
          · cases h
      · cases h

theorem parseText_deep (L : FloatLib) (v : Json) (hc : Canon v) (hn : 128 ≤ nesting v) (j : Json) :
    parseText L (write v) ≠ .ok j := by
  intro h
  unfold parseText at h
  split at h
  · cases h
  · rename_i v' r hv
    obtain ⟨h1, h2⟩ := (parse_depth L _ 128 (nesting v + 129) (by omega) (by omega)).1 _ _ _ hv
    have h3 := parseValue_write L v (2 * (write v).length + 2) (nesting v + 129) [] hc
      (by have := cost_length v hc; omega) (by rw [depth_eq]; omega) endsNumber_nil
    rw [List.append_nil] at h3
    rw [h2] at h3
    cases h3
    omega

/-- The nesting of an object, seen from a member that counts. -/
theorem nesting_member {m : List (Str × Json)} {k : Str} {v : Json} {n : Nat} (h : LastMember m k v)
    (hn : n ≤ nesting (normal v)) : n + 1 ≤ nesting (normal (.obj m)) := by
  have := get?_normal m k
  rw [last_iff.1 h] at this
  have hm := Map.mem_of_get? this
  have : nesting (normal v) ≤ nestingM (btreeCollect (normalM m)) :=
    (nestingM_le (c := nestingM (btreeCollect (normalM m)))).1 (le_refl _) _ hm
  simp only [normal, nesting]
  omega

theorem nesting_normal_value (v : JsonValue) : nesting (normal v.1) = nesting v.1 := by rw [v.2]

theorem toRaw_deep {m : SignedMetadata JsonValue} {raw : Bytes} (h : m.toRaw = .ok raw)
    (hn : 127 ≤ nesting m.metadata.1) (L : FloatLib) (j : Json) : parseJson L raw ≠ .ok j := by
  have h : Json.canonicalize (encodeSigned m).normal = .ok raw := h
  obtain ⟨h1, h2⟩ := canonicalize_ok h
  rw [normal_isValue _ (isValue_normal _)] at h2
  unfold parseJson
  rw [h2, fromUtf8_utf8]
  refine parseText_deep L _ ?_ ?_ j
  · have := canon_normal _ h1
    rwa [normal_isValue _ (isValue_normal _)] at this
  · exact nesting_member (k := "signed".toList) (v := m.metadata.1) (n := 127)
      ⟨[_], [], rfl, by simp⟩ (by rw [m.metadata.2]; exact hn)

section readers
variable (X : ShimLib) (ring order perm)

/-- **Limit of C71.** Signed metadata that was turned into bytes can be read exactly if its content is
nested less than 127 levels deep. Nothing checks this when metadata is built, signed and turned into
bytes. -/
theorem C71_readable_iff_not_deep (m : SignedMetadata JsonValue) (msg : Bytes)
    (hc : Json.canonicalize m.metadata.1 = .ok msg) (hids : ∀ s ∈ m.signatures, IsKeyId s.keyId) :
    ∃ raw, m.toRaw = .ok raw ∧
      ((∃ p, (jsonEnv X ring order perm).parseSigned raw = .ok p) ↔ nesting m.metadata.1 < 127) := by
  have hi : integral (encodeSigned m) = true := by
    rw [integral_encodeSigned]
    exact (canonicalize_ok hc).1
  obtain ⟨raw, hraw⟩ := (C52_total_on_integers _).1 (integral_canon _ (canon_normal _ hi))
  refine ⟨raw, hraw, fun ⟨p, hp⟩ => ?_, fun hn => ?_⟩
  · by_contra hn
    have hp : RustTuf.fromSlice _ _ _ = _ := hp
    unfold RustTuf.fromSlice at hp
    split at hp
    · cases hp
    · rename_i j hj
      exact toRaw_deep hraw (by omega) X.float j hj
  · obtain ⟨raw', h1, h2⟩ := C71_to_raw_parses X ring order perm m msg hc hids hn
    have e : raw = raw' := Except.ok.inj (hraw.symm.trans h1)
    rw [e]
    exact ⟨_, h2⟩

theorem last_of_nodup {m : List (Str × Json)} {p : Str × Json} (hn : (Map.keys m).Nodup) (hp : p ∈ m) :
    LastMember m p.1 p.2 := by
  obtain ⟨pre, post, rfl⟩ := List.append_of_mem hp
  refine ⟨pre, post, rfl, fun q hq e => ?_⟩
  rw [Map.keys, List.map_append, List.map_cons, List.nodup_append] at hn
  have := (List.nodup_cons.1 hn.2.1).1
  exact this (List.mem_map.2 ⟨q, hq, e⟩)

theorem mapAll_entries {V : Type} {value : V → Option Json} {m : Map Str V} {es : List (Str × Json)}
    (h : mapAll (fun p : Str × V =>
      match some p.1 with
      | none => none
      | some s =>
        match value p.2 with
        | none => none
        | some j => some (s, j)) m = some es) :
    Map.keys es = Map.keys m ∧ ∀ k v, (k, v) ∈ m → ∃ j, value v = some j ∧ (k, j) ∈ es := by
  induction m generalizing es with
  | nil => cases h; exact ⟨rfl, fun _ _ h => by cases h⟩
  | cons p m ih =>
    obtain ⟨k, v⟩ := p
    simp only [mapAll] at h
    split at h
    · cases h
    · rename_i b hb
      split at h
      · cases h
      · rename_i l hl
        cases h
        obtain ⟨h1, h2⟩ := ih hl
        split at hb
        · cases hb
        · rename_i j hj
          cases hb
          refine ⟨congrArg (k :: ·) h1, fun k' v' hm => ?_⟩
          rcases List.mem_cons.1 hm with e | hm
          · cases e
            exact ⟨j, hj, List.mem_cons_self ..⟩
          · obtain ⟨j', a, b⟩ := h2 k' v' hm
            exact ⟨j', a, List.mem_cons_of_mem _ b⟩

/-- **Limit of C71.** Targets metadata with custom data nested 123 levels deep can be signed and
published, but no client ever accepts them. -/
theorem C71_deep_custom_data_is_unreadable {M : Type} (m : TargetsMetadata) (key : PrivateKey)
    (sm : SignedMetadata JsonValue) (h : SignedMetadata.ofMetadata (encodeTargets X) m key = .ok sm)
    (hk : (Map.keys m.targets).Nodup) (path : VirtualTargetPath) (d : TargetDescription)
    (hd : (path, d) ∈ m.targets) (c : Map Str Json) (hcu : d.custom = some c) (hkc : (Map.keys c).Nodup)
    (name : Str) (v : JsonValue) (hv : (name, v.1) ∈ c) (hn : 123 ≤ nesting v.1)
    (decode : Bytes → Except Err M) (n : Nat) (keys : List PublicKey) :
    ∃ raw, sm.toRaw = .ok raw ∧
      ∃ e, verifySignatures (jsonEnv X ring order perm) decode raw n keys = .error e := by
  -- What is signed.
  obtain ⟨j, hj, hm, msg, hmsg⟩ : ∃ j, encodeTargets X m = some j ∧ sm.metadata = j.toValue ∧
      ∃ msg, Json.canonicalize sm.metadata.1 = .ok msg := by
    unfold SignedMetadata.ofMetadata serialize at h
    split at h
    · cases h
    · rename_i v' hv'
      split at hv'
      · cases hv'
      · rename_i j hj
        cases hv'
        unfold SignedMetadata.new at h
        repeat' split at h
        all_goals cases h
        rename_i msg hmsg _ _ _
        exact ⟨j, hj, rfl, msg, hmsg⟩
  -- It can be turned into bytes.
  have hi : integral (encodeSigned sm) = true := by
    rw [integral_encodeSigned]
    exact (canonicalize_ok hmsg).1
  obtain ⟨raw, hraw⟩ := (C52_total_on_integers _).1 (integral_canon _ (canon_normal _ hi))
  refine ⟨raw, hraw, ?_⟩
  -- It is nested too deeply.
  have hdeep : 127 ≤ nesting (normal j) := by
    obtain ⟨tj, hl, ht⟩ : ∃ tj, encodeEntries some encodeTargetDescription m.targets = some tj ∧
        ∃ ms, j = .obj ms ∧ LastMember ms "targets".toList tj := by
      unfold encodeTargets at hj
      split at hj
      · cases hj
      · rename_i tj htj
        refine ⟨tj, htj, ?_⟩
        split at hj
        · cases hj
          exact ⟨_, rfl, encodeHead .targets m.version ++ [("expires".toList, .str (X.formatDate m.expires))],
            [], by simp, by simp⟩
        · rw [Option.map_eq_some_iff] at hj
          obtain ⟨dj, _, rfl⟩ := hj
          exact ⟨_, rfl, encodeHead .targets m.version ++ [("expires".toList, .str (X.formatDate m.expires))],
            [("delegations".toList, dj)], by simp, by
              intro p hp
              rw [List.mem_singleton.1 hp]
              show "delegations".toList ≠ "targets".toList
              decide⟩
    obtain ⟨ms, rfl, hms⟩ := ht
    refine nesting_member hms (n := 126) ?_
    unfold encodeEntries at hl
    rw [Option.map_eq_some_iff] at hl
    obtain ⟨es, hes, rfl⟩ := hl
    obtain ⟨e1, e2⟩ := mapAll_entries hes
    obtain ⟨dj, hdj, hin⟩ := e2 path d hd
    refine nesting_member (last_of_nodup (p := (path, dj)) (by rw [e1]; exact hk) hin) (n := 125) ?_
    unfold encodeTargetDescription at hdj
    rw [Option.map_eq_some_iff, hcu] at hdj
    obtain ⟨hs, _, rfl⟩ := hdj
    refine nesting_member (k := "custom".toList) (v := .obj c)
      ⟨[("length".toList, natJson d.length), ("hashes".toList, hs)], [], rfl, by simp⟩ (n := 124) ?_
    refine nesting_member (last_of_nodup (p := (name, v.1)) hkc hv) (n := 123) ?_
    rw [nesting_normal_value]
    exact hn
  have hn' : 127 ≤ nesting sm.metadata.1 := by rw [hm]; exact hdeep
  unfold verifySignatures
  split
  · exact ⟨_, rfl⟩
  · have hp : ∃ e, (jsonEnv X ring order perm).parseSigned raw = .error e := by
      show ∃ e, RustTuf.fromSlice _ _ _ = .error e
      unfold RustTuf.fromSlice
      split
      · exact ⟨_, rfl⟩
      · rename_i j' hj'
        exact absurd hj' (toRaw_deep hraw hn' X.float j')
    obtain ⟨e, he⟩ := hp
    rw [he]
    exact ⟨e, rfl⟩

end readers

end RustTuf.Props
