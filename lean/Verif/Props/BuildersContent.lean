import Verif.Props.Builders
import Verif.Props.Readers

/-!
# C77, continued: snapshots, timestamps and targets
-/

namespace RustTuf.Props
open Spec RustTuf Json

/-! ### Descriptions -/

theorem toWriter_eq (m : SignedMetadata JsonValue) : m.toWriter = m.toRaw := rfl

theorem parseVersion_ok {m : SignedMetadata JsonValue} {n : Nat} (h : m.parseVersion = .ok n) :
    HasVersion m.metadata.1 n ∧ n < 2 ^ 32 := by
  have u32 : ∀ {j : Json} {k : Nat}, asU32 j = some k → j = .int k ∧ k < 2 ^ 32 := by
    intro j k hj
    cases j with
    | int i =>
      simp only [asU32] at hj
      split at hj
      · cases hj
        rename_i hi
        exact ⟨by rw [Int.toNat_of_nonneg hi.1], by omega⟩
      · cases hj
    | _ => cases hj
  unfold SignedMetadata.parseVersion fromValue at h
  cases hj : m.metadata.1 with
  | obj ms =>
    rw [hj] at h
    simp only [asStruct, Option.bind_eq_bind] at h
    by_cases hc : (List.filter (fun k => ["version".toList].contains k) (Map.keys ms)).Nodup
    · rw [if_pos hc] at h
      simp only [Option.bind_some, field] at h
      cases hg : Map.get? ms "version".toList with
      | none => rw [hg] at h; cases h
      | some j =>
        rw [hg] at h
        simp only at h
        cases ha : asU32 j with
        | none => rw [ha] at h; cases h
        | some k =>
          rw [ha] at h
          cases h
          exact ⟨.inl ⟨ms, rfl, by rw [hg, (u32 ha).1]⟩, (u32 ha).2⟩
    · rw [if_neg hc] at h
      cases h
  | arr l =>
    rw [hj] at h
    simp only [asStruct, Option.bind_eq_bind] at h
    by_cases hc : l.length = ["version".toList].length
    · rw [if_pos hc] at h
      match l, hc with
      | [j], _ =>
        simp only [Option.bind_some, field, List.zip_cons_cons, List.zip_nil_right, Map.get?, if_true] at h
        cases ha : asU32 j with
        | none => rw [ha] at h; cases h
        | some k =>
          rw [ha] at h
          cases h
          exact ⟨.inr (by rw [(u32 ha).1]), (u32 ha).2⟩
    · rw [if_neg hc] at h
      cases h
  | _ => rw [hj] at h; cases h

theorem delivered_slice (b : Bytes) : delivered (sliceReader b) = (b, .eof) := by
  unfold sliceReader
  cases b with
  | nil => rfl
  | cons x l => simp [delivered]

theorem calculateHashes_ok {D : Digest} {src : List Ev} {algs : List HashAlg} {n : Nat}
    {m : Map HashAlg HashValue} (h : calculateHashes D src algs = .ok (n, m)) :
    ∃ bs, delivered src = (bs, .eof) ∧ n = bs.length ∧ DigestsOf D algs m bs ∧ algs ≠ [] ∧
      (∀ a ∈ algs, Supported a) := by
  have hne : algs ≠ [] := by
    rintro rfl; rw [(C63_failures D src []).1 rfl] at h; cases h
  have hs : ∀ a ∈ algs, Supported a := by
    by_contra hc
    simp only [not_forall] at hc
    obtain ⟨a, ha, hn⟩ := hc
    rw [(C63_failures D src algs).2.1 ⟨a, ha, hn⟩] at h
    cases h
  cases hd : delivered src with
  | mk bs e =>
    cases e with
    | error k =>
      rw [(C63_failures D src algs).2.2 k hne hs (by rw [hd])] at h
      cases h
    | eof =>
      obtain ⟨m', e1, e2⟩ := C63_digests_of_everything D src algs hne hs bs hd
      rw [e1] at h
      cases h
      exact ⟨bs, rfl, rfl, e2, hne, hs⟩

/-- A map is a hash map: no key twice. -/
theorem contextsFor_nodup : ∀ (algs : List HashAlg) (m m' : Map HashAlg Bytes),
    (m.map Prod.fst).Nodup → contextsFor algs m = .ok m' → (m'.map Prod.fst).Nodup
  | [], m, m', hm, h => by cases h; exact hm
  | a :: as, m, m', hm, h => by
    unfold contextsFor at h
    split at h
    · cases h
    · exact contextsFor_nodup as _ m' (Map.nodup_keys_insert hm _ _) h

theorem calculateHashes_good {D : Digest} {src : List Ev} {algs : List HashAlg} {n : Nat}
    {m : Map HashAlg HashValue} (h : calculateHashes D src algs = .ok (n, m)) : GoodHashes m := by
  obtain ⟨bs, _, _, h3, h4, h5⟩ := calculateHashes_ok h
  have hn : (m.map Prod.fst).Nodup := by
    unfold calculateHashes at h
    repeat' split at h
    all_goals cases h
    rename_i ctxs hc _ _ hl
    have hd := hashLoop_spec src 0 ctxs
    rw [hl] at hd
    have hn := contextsFor_nodup algs [] ctxs List.nodup_nil hc
    split at hd
    · cases hd
    · have := (Prod.mk.inj (Except.ok.inj hd)).2
      rw [this]
      simpa [List.map_map, Function.comp_def] using hn
  refine ⟨?_, hn, ?_⟩
  · rintro rfl
    obtain ⟨a, ha⟩ := List.exists_mem_of_ne_nil _ h4
    have := h3 a
    rw [if_pos ha] at this
    cases this
  · intro p hp
    have := h3 p.1
    rw [Map.get?_of_mem_nodup hn (k := p.1) (v := p.2) hp] at this
    split at this
    · rename_i ha
      exact h5 _ ha
    · cases this

/-- **C77.** The description that the builders compute of signed metadata belongs to exactly the
bytes that `to_raw` publishes, and can be published itself. -/
theorem C77_description_of_published_bytes (D : Digest) (m : SignedMetadata JsonValue)
    (algs : List HashAlg) (d : MetadataDescription) (h : describe D m algs = .ok d) :
    DescribesMetadata D m algs d ∧ GoodDescription d := by
  unfold describe at h
  simp only [bind, Except.bind] at h
  split at h
  · cases h
  · rename_i raw hraw
    split at h
    · cases h
    · rename_i v hv
      unfold MetadataDescription.fromReader at h
      split at h
      · cases h
      · split at h
        · cases h
        · rename_i hver _ n hs hc
          split at h
          · cases h
          · rename_i hlen
            cases h
            obtain ⟨bs, e1, e2, e3, _, _⟩ := calculateHashes_ok hc
            rw [delivered_slice] at e1
            cases e1
            refine ⟨⟨(parseVersion_ok hv).1, raw, hraw, e2, e3⟩, ⟨⟨Nat.le_of_not_lt hver, (parseVersion_ok hv).2⟩, ?_,
              calculateHashes_good hc⟩⟩
            simp only [u64Max] at hlen
            simp only
            omega

/-- **C77.** A description can be computed if the metadata can be published, its content has a
positive version, and only supported algorithms, at least one, are asked for. -/
theorem C77_description_exists (D : Digest) (m : SignedMetadata JsonValue) (algs : List HashAlg)
    (raw : Bytes) (hraw : m.toRaw = .ok raw) (hlen : raw.length ≤ u64Max) (n : Nat)
    (hn : m.parseVersion = .ok n) (h1 : 1 ≤ n) (hne : algs ≠ [])
    (hs : ∀ a ∈ algs, a = .sha256 ∨ a = .sha512) : ∃ d, describe D m algs = .ok d := by
  obtain ⟨hm, e1, _⟩ := C63_digests_of_everything D (sliceReader raw) algs hne hs raw (delivered_slice raw)
  unfold describe
  rw [toWriter_eq, hraw, hn]
  simp only [bind, Except.bind]
  unfold MetadataDescription.fromReader
  rw [if_neg (by omega), e1]
  simp only
  rw [if_neg (by omega)]
  exact ⟨_, rfl⟩

/-! ### Snapshot -/

theorem snapshotCalls_append (D : Digest) (cs : List SnapshotCall) (c : SnapshotCall) :
    ∀ b b2 : SnapshotBuilder, b.calls D (cs ++ [c]) = .ok b2 →
      ∃ b1, b.calls D cs = .ok b1 ∧ b1.call D c = .ok b2 := by
  induction cs with
  | nil =>
    intro b b2 h
    simp only [List.nil_append, SnapshotBuilder.calls] at h
    split at h
    · cases h
    · rename_i b1 hb
      cases h
      exact ⟨b, rfl, hb⟩
  | cons c' cs ih =>
    intro b b2 h
    simp only [List.cons_append, SnapshotBuilder.calls] at h ⊢
    split at h
    · cases h
    · rename_i b1 hb
      exact ih b1 b2 h

theorem lastAbout_append {C P : Type} [DecidableEq P] {path? : C → Option P} {cs : List C} {c : C} {p : P} {c' : C} :
    LastAbout path? (cs ++ [c]) p c' ↔
      (path? c = some p ∧ c' = c) ∨ (path? c ≠ some p ∧ LastAbout path? cs p c') := by
  constructor
  · rintro ⟨cs1, cs2, e, h1, h2⟩
    rcases List.eq_nil_or_concat cs2 with rfl | ⟨l, x, rfl⟩
    · have := List.append_inj' e rfl
      obtain ⟨_, e2⟩ := this
      cases e2
      exact .inl ⟨h1, rfl⟩
    · rw [List.concat_eq_append, ← List.cons_append, ← List.append_assoc] at e
      obtain ⟨e1, e2⟩ := List.append_inj' e rfl
      cases e2
      exact .inr ⟨h2 c (by simp), cs1, l, e1, h1, fun c' hc' => h2 c' (by simp [hc'])⟩
  · rintro (⟨h1, rfl⟩ | ⟨h1, cs1, cs2, rfl, h2, h3⟩)
    · exact ⟨cs, [], rfl, h1, by simp⟩
    · refine ⟨cs1, cs2 ++ [c], by simp, h2, ?_⟩
      intro c'' hc
      rcases List.mem_append.1 hc with hc | hc
      · exact h3 _ hc
      · rw [List.mem_singleton.1 hc]; exact h1

/-- What a map built by insertions holds. -/
theorem inserted {C P V : Type} [DecidableEq P] {path? : C → Option P} {Gives : C → V → Prop}
    {cs : List C} {c : C} {m : Map P V} {p : P} {v : V}
    (h1 : ∀ p d, m.get? p = some d → ∃ c, LastAbout path? cs p c)
    (h2 : ∀ p c, LastAbout path? cs p c → ∃ d, m.get? p = some d ∧ Gives c d)
    (hp : path? c = some p) (hv : Gives c v) :
    (∀ q d, (m.insert p v).get? q = some d → ∃ c', LastAbout path? (cs ++ [c]) q c') ∧
    (∀ q c', LastAbout path? (cs ++ [c]) q c' → ∃ d, (m.insert p v).get? q = some d ∧ Gives c' d) := by
  constructor
  · intro q d hq
    rw [Map.get?_insert] at hq
    split at hq
    · rename_i e
      subst e
      exact ⟨c, lastAbout_append.2 (.inl ⟨hp, rfl⟩)⟩
    · rename_i e
      obtain ⟨c', hc'⟩ := h1 q d hq
      exact ⟨c', lastAbout_append.2 (.inr ⟨by rw [hp]; exact fun e' => e (Option.some.inj e').symm, hc'⟩)⟩
  · intro q c' hc
    rw [Map.get?_insert]
    rcases lastAbout_append.1 hc with ⟨hq, rfl⟩ | ⟨hq, hl⟩
    · rw [hp] at hq
      rw [if_pos (Option.some.inj hq).symm]
      exact ⟨v, rfl, hv⟩
    · rw [if_neg (by rintro rfl; exact hq hp)]
      exact h2 q c' hl

theorem not_inserted {C P V : Type} [DecidableEq P] {path? : C → Option P} {Gives : C → V → Prop}
    {cs : List C} {c : C} {m : Map P V}
    (h1 : ∀ p d, m.get? p = some d → ∃ c, LastAbout path? cs p c)
    (h2 : ∀ p c, LastAbout path? cs p c → ∃ d, m.get? p = some d ∧ Gives c d)
    (hp : path? c = none) :
    (∀ q d, m.get? q = some d → ∃ c', LastAbout path? (cs ++ [c]) q c') ∧
    (∀ q c', LastAbout path? (cs ++ [c]) q c' → ∃ d, m.get? q = some d ∧ Gives c' d) := by
  constructor
  · intro q d hq
    obtain ⟨c', hc'⟩ := h1 q d hq
    exact ⟨c', lastAbout_append.2 (.inr ⟨by rw [hp]; simp, hc'⟩)⟩
  · intro q c' hc
    rcases lastAbout_append.1 hc with ⟨hq, rfl⟩ | ⟨hq, hl⟩
    · rw [hp] at hq; cases hq
    · exact h2 q c' hl

/-- The state of a snapshot builder. -/
structure HoldsSnapshot (D : Digest) (t : Time) (cs : List SnapshotCall) (b : SnapshotBuilder) : Prop where
  version : b.version = lastArg SnapshotCall.version? 1 cs
  expires : b.expires = lastArg SnapshotCall.expires? t cs
  listed : ∀ p d, b.metas.get? p = some d → ∃ c, LastAbout SnapshotCall.path? cs p c
  described : ∀ p c, LastAbout SnapshotCall.path? cs p c →
    ∃ d, b.metas.get? p = some d ∧ SnapshotCall.Gives D c d
  nodup : (b.metas.map Prod.fst).Nodup
  good : ∀ p ∈ b.metas, (GoodDescription p.2 ∧ MetadataPath.new p.1 = .ok p.1) ∨
    ∃ c ∈ cs, c = .description p.1 p.2

theorem insertWithPath_ok {D : Digest} {b b' : SnapshotBuilder} {path : Str} {m : SignedMetadata JsonValue}
    {algs : List HashAlg} (h : b.insertWithPath D path m algs = .ok b') :
    ∃ d, describe D m algs = .ok d ∧ MetadataPath.new path = .ok path ∧ b' = b.insertDescription path d := by
  unfold SnapshotBuilder.insertWithPath at h
  simp only [bind, Except.bind] at h
  repeat' split at h
  all_goals cases h
  rename_i d hd _ p hp
  have : p = path := by
    unfold MetadataPath.new at hp
    split at hp <;> cases hp
    rfl
  subst this
  exact ⟨d, hd, hp, rfl⟩

theorem holdsSnapshot (D : Digest) (t : Time) (cs : List SnapshotCall) : ∀ b,
    (SnapshotBuilder.new t).calls D cs = .ok b → HoldsSnapshot D t cs b := by
  induction cs using List.reverseRecOn with
  | nil =>
    intro b h
    cases h
    refine ⟨rfl, rfl, ?_, ?_, List.nodup_nil, ?_⟩
    · intro p d h; cases h
    · rintro p c ⟨cs1, cs2, e, _⟩
      simp at e
    · intro p hp; cases hp
  | append_singleton cs c ih =>
    intro b h
    obtain ⟨b1, e1, e2⟩ := snapshotCalls_append D cs c _ _ h
    obtain ⟨h1, h2, h3, h4, h5, h6⟩ := ih b1 e1
    have keep : ∀ p ∈ b1.metas, (GoodDescription p.2 ∧ MetadataPath.new p.1 = .ok p.1) ∨
        ∃ c' ∈ cs ++ [c], c' = .description p.1 p.2 := fun p hp => (h6 p hp).imp_right
      fun ⟨c', hc', e⟩ => ⟨c', List.mem_append_left _ hc', e⟩
    cases c with
    | version n =>
      cases e2
      have := not_inserted (c := SnapshotCall.version n) h3 h4 rfl
      refine ⟨?_, ?_, this.1, this.2, h5, keep⟩
      · rw [lastArg_append]; rfl
      · rw [lastArg_append]; exact h2
    | expires n =>
      cases e2
      have := not_inserted (c := SnapshotCall.expires n) h3 h4 rfl
      refine ⟨?_, ?_, this.1, this.2, h5, keep⟩
      · rw [lastArg_append]; exact h1
      · rw [lastArg_append]; rfl
    | metadata path m algs =>
      obtain ⟨d, g1, g2, rfl⟩ := insertWithPath_ok e2
      obtain ⟨g3, g4⟩ := C77_description_of_published_bytes D m algs d g1
      have := inserted (c := SnapshotCall.metadata path m algs) (v := d)
        (Gives := SnapshotCall.Gives D) h3 h4 rfl g3
      refine ⟨?_, ?_, this.1, this.2, Map.nodup_keys_insert h5 _ _, ?_⟩
      · rw [lastArg_append]; exact h1
      · rw [lastArg_append]; exact h2
      · intro p hp
        simp only [SnapshotBuilder.insertDescription, Map.insert, List.mem_cons] at hp
        rcases hp with rfl | hp
        · exact .inl ⟨g4, g2⟩
        · exact keep p (List.mem_filter.1 hp).1
    | description path d =>
      cases e2
      have := inserted (c := SnapshotCall.description path d) (v := d)
        (Gives := SnapshotCall.Gives D) h3 h4 rfl rfl
      refine ⟨?_, ?_, this.1, this.2, Map.nodup_keys_insert h5 _ _, ?_⟩
      · rw [lastArg_append]; exact h1
      · rw [lastArg_append]; exact h2
      · intro p hp
        simp only [SnapshotBuilder.insertDescription, Map.insert, List.mem_cons] at hp
        rcases hp with rfl | hp
        · exact .inr ⟨_, by simp, rfl⟩
        · exact keep p (List.mem_filter.1 hp).1

theorem snapshotBuild_ok {b : SnapshotBuilder} {m : SnapshotMetadata} (h : b.build = .ok m) :
    1 ≤ b.version ∧ m = ⟨b.version, b.expires, b.metas⟩ := by
  unfold SnapshotBuilder.build at h
  split at h
  · cases h
  · cases h
    exact ⟨by omega, rfl⟩

/-- **C77.** A chain of calls on a new snapshot builder builds the snapshot that was asked for; every
piece of metadata is listed under its path with a description of the bytes that `to_raw` publishes. -/
theorem C77_snapshot_is_as_asked (D : Digest) (t : Time) (cs : List SnapshotCall) (b : SnapshotBuilder)
    (m : SnapshotMetadata) (h : (SnapshotBuilder.new t).calls D cs = .ok b) (hb : b.build = .ok m) :
    AskedSnapshot D t cs m := by
  have H := holdsSnapshot D t cs b h
  obtain ⟨_, rfl⟩ := snapshotBuild_ok hb
  exact ⟨H.version, H.expires, H.listed, H.described⟩

/-- **C77.** Such a snapshot can be published. -/
theorem C77_built_snapshot_is_publishable (D : Digest) (t : Time) (cs : List SnapshotCall)
    (b : SnapshotBuilder) (m : SnapshotMetadata) (h : (SnapshotBuilder.new t).calls D cs = .ok b)
    (hb : b.build = .ok m) (hfit : ∀ c ∈ cs, SnapshotCall.Fits c) :
    GoodSnapshot m ∧ ∀ p ∈ m.metas, MetadataPath.new p.1 = .ok p.1 := by
  have H := holdsSnapshot D t cs b h
  obtain ⟨hv, rfl⟩ := snapshotBuild_ok hb
  have vsmall : b.version < 2 ^ 32 := by
    rw [H.version]
    rcases lastArg_mem SnapshotCall.version? 1 cs with e | ⟨c, hc, e⟩
    · rw [e]; decide
    · have := hfit c hc
      cases c with
      | version n =>
        have e := Option.some.inj e
        rw [← e]; exact this
      | _ => cases e
  have good : ∀ p ∈ b.metas, GoodDescription p.2 ∧ MetadataPath.new p.1 = .ok p.1 := by
    intro p hp
    rcases H.good p hp with g | ⟨c, hc, rfl⟩
    · exact g
    · have := hfit _ hc
      exact ⟨this.2, this.1⟩
  exact ⟨⟨⟨hv, vsmall⟩, fun p hp => (good p hp).1, H.nodup⟩, fun p hp => (good p hp).2⟩

/-! ### Timestamp -/

theorem timestampCalls_eq (cs : List TimestampCall) : ∀ b : TimestampBuilder,
    b.calls cs = ⟨lastArg TimestampCall.version? b.version cs, lastArg TimestampCall.expires? b.expires cs,
      b.snapshot⟩ := by
  induction cs using List.reverseRecOn with
  | nil => intro b; rfl
  | append_singleton cs c ih =>
    intro b
    have e : b.calls (cs ++ [c]) = (b.calls cs).call c := by
      simp [TimestampBuilder.calls, List.foldl_append]
    rw [e, ih b, lastArg_append, lastArg_append]
    cases c <;> rfl

theorem fromSnapshot_ok {D : Digest} {t : Time} {sn : SignedMetadata JsonValue}
    {algs : List HashAlg} {b : TimestampBuilder} (h : TimestampBuilder.fromSnapshot D t sn algs = .ok b) :
    ∃ d, describe D sn algs = .ok d ∧ b = ⟨1, t, d⟩ := by
  unfold TimestampBuilder.fromSnapshot at h
  simp only [bind, Except.bind] at h
  split at h
  · cases h
  · rename_i d hd
    cases h
    exact ⟨d, hd, rfl⟩

theorem timestampBuild_ok {b : TimestampBuilder} {m : TimestampMetadata} (h : b.build = .ok m) :
    1 ≤ b.version ∧ m = ⟨b.version, b.expires, b.snapshot⟩ := by
  unfold TimestampBuilder.build at h
  split at h
  · cases h
  · cases h
    exact ⟨by omega, rfl⟩

/-- **C77.** A timestamp made from a snapshot describes exactly the bytes of the snapshot that
`to_raw` publishes; otherwise it is what the calls ask for. -/
theorem C77_timestamp_is_as_asked (D : Digest) (t : Time) (sn : SignedMetadata JsonValue)
    (algs : List HashAlg) (cs : List TimestampCall) (b : TimestampBuilder) (m : TimestampMetadata)
    (h : TimestampBuilder.fromSnapshot D t sn algs = .ok b) (hb : (b.calls cs).build = .ok m) :
    AskedTimestamp D t sn algs cs m := by
  obtain ⟨d, hd, rfl⟩ := fromSnapshot_ok h
  obtain ⟨_, rfl⟩ := timestampBuild_ok hb
  rw [timestampCalls_eq]
  exact ⟨rfl, rfl, (C77_description_of_published_bytes D sn algs d hd).1⟩

/-- **C77.** Such a timestamp can be published. -/
theorem C77_built_timestamp_is_publishable (D : Digest) (t : Time) (sn : SignedMetadata JsonValue)
    (algs : List HashAlg) (cs : List TimestampCall) (b : TimestampBuilder) (m : TimestampMetadata)
    (h : TimestampBuilder.fromSnapshot D t sn algs = .ok b) (hb : (b.calls cs).build = .ok m)
    (hfit : ∀ c ∈ cs, TimestampCall.Fits c) : GoodTimestamp m := by
  obtain ⟨d, hd, rfl⟩ := fromSnapshot_ok h
  obtain ⟨hv, rfl⟩ := timestampBuild_ok hb
  rw [timestampCalls_eq] at hv ⊢
  refine ⟨⟨hv, ?_⟩, (C77_description_of_published_bytes D sn algs d hd).2⟩
  show lastArg TimestampCall.version? 1 cs < 2 ^ 32
  rcases lastArg_mem TimestampCall.version? 1 cs with e | ⟨c, hc, e⟩
  · rw [e]; decide
  · have := hfit c hc
    cases c with
    | version n =>
      have e := Option.some.inj e
      rw [← e]; exact this
    | _ => cases e

/-! ### Targets -/

theorem targetsCalls_append (D : Digest) (cs : List TargetsCall) (c : TargetsCall) :
    ∀ b b2 : TargetsBuilder, b.calls D (cs ++ [c]) = .ok b2 →
      ∃ b1, b.calls D cs = .ok b1 ∧ b1.call D c = .ok b2 := by
  induction cs with
  | nil =>
    intro b b2 h
    simp only [List.nil_append, TargetsBuilder.calls] at h
    split at h
    · cases h
    · rename_i b1 hb
      cases h
      exact ⟨b, rfl, hb⟩
  | cons c' cs ih =>
    intro b b2 h
    simp only [List.cons_append, TargetsBuilder.calls] at h ⊢
    split at h
    · cases h
    · rename_i b1 hb
      exact ih b1 b2 h

/-- The state of a targets builder. -/
structure HoldsTargets (D : Digest) (t : Time) (cs : List TargetsCall) (b : TargetsBuilder) : Prop where
  version : b.version = lastArg TargetsCall.version? 1 cs
  expires : b.expires = lastArg TargetsCall.expires? t cs
  delegations : b.delegations = (cs.filterMap TargetsCall.delegations?).getLast?
  listed : ∀ p d, b.targets.get? p = some d → ∃ c, LastAbout TargetsCall.path? cs p c
  described : ∀ p c, LastAbout TargetsCall.path? cs p c →
    ∃ d, b.targets.get? p = some d ∧ TargetsCall.Gives D c d
  nodup : (b.targets.map Prod.fst).Nodup
  good : ∀ p ∈ b.targets, (∃ c ∈ cs, TargetsCall.path? c = some p.1) ∧
    ((GoodHashes p.2.hashes ∧ p.2.custom = none ∧
        ∃ c ∈ cs, ∃ src algs, c = .target p.1 src algs ∧ p.2.length = (delivered src).1.length) ∨
      ∃ c ∈ cs, c = .description p.1 p.2)

theorem targetFromReader_ok {D : Digest} {src : List Ev} {algs : List HashAlg} {d : TargetDescription}
    (h : TargetDescription.fromReader D src algs = .ok d) :
    DescribesTarget D src algs d ∧ GoodHashes d.hashes ∧ d.length = (delivered src).1.length := by
  unfold TargetDescription.fromReader at h
  split at h
  · cases h
  · rename_i n m hc
    cases h
    obtain ⟨bs, h1, h2, h3, _, _⟩ := calculateHashes_ok hc
    exact ⟨⟨⟨bs, h1, h2, h3⟩, rfl⟩, calculateHashes_good hc, by rw [h1]; exact h2⟩

theorem insertFromReader_ok {D : Digest} {b b' : TargetsBuilder} {p : VirtualTargetPath} {src : List Ev}
    {algs : List HashAlg} (h : b.insertFromReader D p src algs = .ok b') :
    ∃ d, TargetDescription.fromReader D src algs = .ok d ∧ b' = b.insertDescription p d := by
  unfold TargetsBuilder.insertFromReader at h
  simp only [bind, Except.bind] at h
  split at h
  · cases h
  · cases h
    rename_i d hd
    exact ⟨d, hd, rfl⟩

theorem holdsTargets (D : Digest) (t : Time) (cs : List TargetsCall) : ∀ b,
    (TargetsBuilder.new t).calls D cs = .ok b → HoldsTargets D t cs b := by
  induction cs using List.reverseRecOn with
  | nil =>
    intro b h
    cases h
    refine ⟨rfl, rfl, rfl, ?_, ?_, List.nodup_nil, ?_⟩
    · intro p d h; cases h
    · rintro p c ⟨cs1, cs2, e, _⟩
      simp at e
    · intro p hp; cases hp
  | append_singleton cs c ih =>
    intro b h
    obtain ⟨b1, e1, e2⟩ := targetsCalls_append D cs c _ _ h
    obtain ⟨h1, h2, h0, h3, h4, h5, h6⟩ := ih b1 e1
    have keep : ∀ p ∈ b1.targets, (∃ c' ∈ cs ++ [c], TargetsCall.path? c' = some p.1) ∧
        ((GoodHashes p.2.hashes ∧ p.2.custom = none ∧
          ∃ c' ∈ cs ++ [c], ∃ src algs, c' = .target p.1 src algs ∧ p.2.length = (delivered src).1.length) ∨
        ∃ c' ∈ cs ++ [c], c' = .description p.1 p.2) := by
      intro p hp
      obtain ⟨⟨c', hc', e'⟩, g⟩ := h6 p hp
      refine ⟨⟨c', List.mem_append_left _ hc', e'⟩, ?_⟩
      rcases g with ⟨g1, g2, c', hc', g3⟩ | ⟨c', hc', e⟩
      · exact .inl ⟨g1, g2, c', List.mem_append_left _ hc', g3⟩
      · exact .inr ⟨c', List.mem_append_left _ hc', e⟩
    have same : TargetsCall.delegations? c = none →
        b1.delegations = ((cs ++ [c]).filterMap TargetsCall.delegations?).getLast? := by
      intro e
      rw [List.filterMap_append, h0]
      simp [e]
    cases c with
    | version n =>
      cases e2
      have := not_inserted (c := TargetsCall.version n) h3 h4 rfl
      refine ⟨?_, ?_, same rfl, this.1, this.2, h5, keep⟩
      · rw [lastArg_append]; rfl
      · rw [lastArg_append]; exact h2
    | expires n =>
      cases e2
      have := not_inserted (c := TargetsCall.expires n) h3 h4 rfl
      refine ⟨?_, ?_, same rfl, this.1, this.2, h5, keep⟩
      · rw [lastArg_append]; exact h1
      · rw [lastArg_append]; rfl
    | delegations n =>
      cases e2
      have := not_inserted (c := TargetsCall.delegations n) h3 h4 rfl
      refine ⟨?_, ?_, ?_, this.1, this.2, h5, keep⟩
      · rw [lastArg_append]; exact h1
      · rw [lastArg_append]; exact h2
      · rw [List.filterMap_append]
        simp [TargetsCall.delegations?, TargetsBuilder.setDelegations]
    | target path src algs =>
      obtain ⟨d, g1, rfl⟩ := insertFromReader_ok e2
      obtain ⟨g3, g4, g5⟩ := targetFromReader_ok g1
      have := inserted (c := TargetsCall.target path src algs) (v := d)
        (Gives := TargetsCall.Gives D) h3 h4 rfl g3
      refine ⟨?_, ?_, same rfl, this.1, this.2, Map.nodup_keys_insert h5 _ _, ?_⟩
      · rw [lastArg_append]; exact h1
      · rw [lastArg_append]; exact h2
      · intro p hp
        simp only [TargetsBuilder.insertDescription, Map.insert, List.mem_cons] at hp
        rcases hp with rfl | hp
        · exact ⟨⟨_, List.mem_append_right _ (List.mem_singleton.2 rfl), rfl⟩,
            .inl ⟨g4, g3.custom, _, List.mem_append_right _ (List.mem_singleton.2 rfl), src, algs, rfl, g5⟩⟩
        · exact keep p (List.mem_filter.1 hp).1
    | description path d =>
      cases e2
      have := inserted (c := TargetsCall.description path d) (v := d)
        (Gives := TargetsCall.Gives D) h3 h4 rfl rfl
      refine ⟨?_, ?_, same rfl, this.1, this.2, Map.nodup_keys_insert h5 _ _, ?_⟩
      · rw [lastArg_append]; exact h1
      · rw [lastArg_append]; exact h2
      · intro p hp
        simp only [TargetsBuilder.insertDescription, Map.insert, List.mem_cons] at hp
        rcases hp with rfl | hp
        · exact ⟨⟨_, List.mem_append_right _ (List.mem_singleton.2 rfl), rfl⟩,
            .inr ⟨_, List.mem_append_right _ (List.mem_singleton.2 rfl), rfl⟩⟩
        · exact keep p (List.mem_filter.1 hp).1

theorem targetsBuild_ok {b : TargetsBuilder} {m : TargetsMetadata} (h : b.build = .ok m) :
    1 ≤ b.version ∧ m = ⟨b.version, b.expires, b.targets, b.delegations⟩ := by
  unfold TargetsBuilder.build at h
  split at h
  · cases h
  · cases h
    exact ⟨by omega, rfl⟩

/-- **C77.** A chain of calls on a new targets builder builds the targets metadata that was asked
for; every target is listed with the length and the digests of everything its reader delivered. -/
theorem C77_targets_are_as_asked (D : Digest) (t : Time) (cs : List TargetsCall) (b : TargetsBuilder)
    (m : TargetsMetadata) (h : (TargetsBuilder.new t).calls D cs = .ok b) (hb : b.build = .ok m) :
    AskedTargets D t cs m := by
  have H := holdsTargets D t cs b h
  obtain ⟨_, rfl⟩ := targetsBuild_ok hb
  exact ⟨H.version, H.expires, H.delegations, H.listed, H.described⟩

/-- **C77.** Delegations that the constructors accept can be published: every threshold lies between 1
and the number of keys, no role is listed twice, and nothing is empty. -/
theorem C77_delegations (keys : Map KeyId PublicKey) (roles : List Delegation) (d : Delegations)
    (h : Delegations.new keys roles = .ok d) (hk : (keys.map Prod.fst).Nodup)
    (hr : ∀ r ∈ roles, ∃ name term n ids paths, Delegation.new name term n ids paths = .ok r ∧
      ids.Nodup ∧ (∀ i ∈ ids, IsKeyId i) ∧ paths.Nodup) :
    d = ⟨keys, roles⟩ ∧ GoodDelegations d := by
  have dups : ∀ l : List Str, l.length = l.eraseDups.length → l.Nodup := by
    intro l
    have hle : ∀ l : List Str, l.eraseDups.length ≤ l.length := by
      intro l
      induction hn : l.length using Nat.strong_induction_on generalizing l with
      | _ n ih =>
        cases l with
        | nil => simp
        | cons a l =>
          rw [List.eraseDups_cons, List.length_cons]
          have h1 : (l.filter fun b => !b == a).length ≤ l.length := List.length_filter_le ..
          have h2 := ih _ (by rw [← hn, List.length_cons]; omega) (l.filter fun b => !b == a) rfl
          simp only [List.length_cons] at hn
          omega
    induction l with
    | nil => intro _; exact List.nodup_nil
    | cons a l ih =>
      intro h
      rw [List.eraseDups_cons, List.length_cons, List.length_cons] at h
      have h1 : (l.filter fun b => !b == a).length ≤ l.length := List.length_filter_le ..
      have h2 := hle (l.filter fun b => !b == a)
      have h3 : (l.filter fun b => !b == a).length = l.length := by omega
      have h4 : l.filter (fun b => !b == a) = l := List.filter_sublist.eq_of_length h3
      rw [h4] at h
      refine List.nodup_cons.2 ⟨fun ha => ?_, ih (by omega)⟩
      rw [← h4] at ha
      have := (List.mem_filter.1 ha).2
      simp at this
  unfold Delegations.new at h
  repeat' split at h
  all_goals cases h
  rename_i h1 h2 h3
  refine ⟨rfl, hk, ?_, ?_, by simpa using h1, by simpa using h2⟩
  · intro r hr'
    obtain ⟨name, term, n, ids, paths, e, g1, g2, g3⟩ := hr r hr'
    unfold Delegation.new at e
    repeat' split at e
    all_goals cases e
    rename_i e1 e2 e3 e4
    exact ⟨⟨by simp only; omega, by simp only; omega, g1, g2⟩, by simpa using e2, g3⟩
  · refine dups _ ?_
    rw [List.length_map]
    by_contra hc
    exact h3 hc

/-- **C77.** Such targets metadata can be published, if its delegations can. -/
theorem C77_built_targets_are_publishable (X : ShimLib) (D : Digest) (t : Time) (cs : List TargetsCall)
    (b : TargetsBuilder) (m : TargetsMetadata) (h : (TargetsBuilder.new t).calls D cs = .ok b)
    (hb : b.build = .ok m) (hfit : ∀ c ∈ cs, TargetsCall.Fits c) (hdate : GoodDate X m.expires)
    (hdel : ∀ d, m.delegations = some d → GoodDelegations d ∧
      (∀ p ∈ d.keys, IsKeyId p.1 ∧ GoodKey X p.2) ∧
      ∀ r ∈ d.roles, r.threshold < 2 ^ 32 ∧ MetadataPath.new r.role = .ok r.role ∧
        ∀ p ∈ r.paths, VirtualTargetPath.new p = .ok p) : PublishableTargets X m := by
  have H := holdsTargets D t cs b h
  obtain ⟨hv, rfl⟩ := targetsBuild_ok hb
  have vsmall : b.version < 2 ^ 32 := by
    rw [H.version]
    rcases lastArg_mem TargetsCall.version? 1 cs with e | ⟨c, hc, e⟩
    · rw [e]; decide
    · have := hfit c hc
      cases c with
      | version n =>
        have e := Option.some.inj e
        rw [← e]; exact this
      | _ => cases e
  have good : ∀ p ∈ b.targets, VirtualTargetPath.new p.1 = .ok p.1 ∧ GoodTarget p.2 ∧
      ∀ c, p.2.custom = some c → (c.map Prod.fst).Nodup ∧ ∀ q ∈ c, q.2.normal = q.2 := by
    intro p hp
    rcases (H.good p hp).2 with ⟨g1, g2, c, hc, src, algs, rfl, g3⟩ | ⟨c, hc, rfl⟩
    · have := hfit _ hc
      exact ⟨this.1, ⟨by rw [g3]; exact this.2, g1⟩, fun c hc => by rw [g2] at hc; cases hc⟩
    · exact hfit _ hc
  exact ⟨⟨⟨hv, vsmall⟩, fun p hp => (good p hp).2.1, H.nodup, fun d hd => (hdel d hd).1⟩, hdate,
    fun p hp => (good p hp).1, fun p hp => (good p hp).2.2, fun d hd => (hdel d hd).2.1,
    fun d hd => (hdel d hd).2.2⟩

end RustTuf.Props
