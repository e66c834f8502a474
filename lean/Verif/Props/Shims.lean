import Verif.Model.JsonEnv
import Verif.Spec.Decoded
import Verif.Spec.WF
import Verif.Lemmas.JsonDepth
import Verif.Lemmas.Map
import Verif.Props.Paths

/-!
# C54, C69: what decoding guarantees
-/

namespace RustTuf.Props
open Spec RustTuf

/-! ### The primitives -/

theorem mapAll_some {α β : Type} {f : α → Option β} : ∀ {l : List α} {r : List β},
    mapAll f l = some r → ∀ b ∈ r, ∃ a ∈ l, f a = some b
  | [], r, h, b, hb => by cases h; cases hb
  | a :: l, r, h, b, hb => by
    unfold mapAll at h
    split at h
    · cases h
    · split at h
      · cases h
      · rename_i b' hf _ l' hl
        cases h
        rcases List.mem_cons.1 hb with rfl | hb
        · exact ⟨a, by simp, hf⟩
        · obtain ⟨a', ha', e⟩ := mapAll_some hl b hb
          exact ⟨a', by simp [ha'], e⟩

theorem asVec_some {α : Type} {f : Json → Option α} {j : Json} {r : List α}
    (h : asVec f j = some r) : ∀ b ∈ r, ∃ j', f j' = some b := by
  unfold asVec at h
  split at h
  · intro b hb
    obtain ⟨a, _, e⟩ := mapAll_some h b hb
    exact ⟨a, e⟩
  · cases h

theorem asEntries_some {K V : Type} {key : Str → Option K} {value : Json → Option V} {j : Json}
    {r : List (K × V)} (h : asEntries key value j = some r) :
    ∀ p ∈ r, (∃ s, key s = some p.1) ∧ ∃ j', value j' = some p.2 := by
  unfold asEntries at h
  split at h
  · intro b hb
    obtain ⟨a, _, e⟩ := mapAll_some h b hb
    split at e
    · cases e
    · split at e
      · cases e
      · rename_i hk _ _ hv
        cases e
        exact ⟨⟨_, hk⟩, ⟨_, hv⟩⟩
  · cases h

theorem mem_collect {K V : Type} [DecidableEq K] {l : List (K × V)} {p : K × V}
    (h : p ∈ Map.collect l) : p ∈ l := by
  have h1 := Map.get?_of_mem_nodup (Map.nodup_keys_collect l) (k := p.1) (v := p.2) h
  rw [Map.get?_collect_eq_some] at h1
  grind

theorem asMap_some {K V : Type} [DecidableEq K] {key : Str → Option K} {value : Json → Option V}
    {j : Json} {r : Map K V} (h : asMap key value j = some r) :
    (r.map Prod.fst).Nodup ∧ ∀ p ∈ r, (∃ s, key s = some p.1) ∧ ∃ j', value j' = some p.2 := by
  unfold asMap at h
  rw [Option.map_eq_some_iff] at h
  obtain ⟨l, hl, rfl⟩ := h
  exact ⟨Map.nodup_keys_collect l, fun p hp => asEntries_some hl p (mem_collect hp)⟩

theorem asMapNoDup_some {K V : Type} [DecidableEq K] {key : Str → Option K}
    {value : Json → Option V} {j : Json} {r : Map K V} (h : asMapNoDup key value j = some r) :
    (r.map Prod.fst).Nodup ∧ ∀ p ∈ r, (∃ s, key s = some p.1) ∧ ∃ j', value j' = some p.2 := by
  unfold asMapNoDup at h
  split at h
  · cases h
  · split at h
    · rename_i hl hn
      cases h
      exact ⟨hn, asEntries_some hl⟩
    · cases h

theorem field_some {α : Type} {m : Map Str Json} {n : Str} {f : Json → Option α} {a : α}
    (h : field m n f = some a) : ∃ j, m.get? n = some j ∧ f j = some a := by
  unfold field at h
  split at h
  · cases h
  · rename_i hj
    exact ⟨_, hj, h⟩

theorem fieldOpt_some {α : Type} {m : Map Str Json} {n : Str} {f : Json → Option α} {a : α}
    (h : fieldOpt m n f = some (some a)) : ∃ j, f j = some a := by
  unfold fieldOpt asOption at h
  split at h
  · cases h
  · split at h
    · cases h
    · rw [Option.map_eq_some_iff] at h
      obtain ⟨x, hx, e⟩ := h
      cases e
      exact ⟨_, hx⟩

theorem asU32_some {j : Json} {n : Nat} (h : asU32 j = some n) : n < 2 ^ 32 := by
  unfold asU32 at h
  split at h
  · split at h
    · cases h; omega
    · cases h
  · cases h

theorem asU64_some {j : Json} {n : Nat} (h : asU64 j = some n) : n < 2 ^ 64 := by
  unfold asU64 at h
  split at h
  · split at h
    · cases h; omega
    · cases h
  · cases h

theorem decodeKeyId_some {j : Json} {s : KeyId} (h : decodeKeyId j = some s) : IsKeyId s := by
  unfold decodeKeyId keyIdOfStr at h
  rw [Option.bind_eq_some_iff] at h
  obtain ⟨t, _, h⟩ := h
  split at h
  · cases h; assumption
  · cases h

theorem fromSlice_ok {α : Type} {L : FloatLib} {f : Json → Option α} {b : Bytes} {a : α}
    (h : fromSlice L f b = .ok a) : ∃ j, parseJson L b = .ok j ∧ f j = some a := by
  unfold fromSlice at h
  split at h
  · cases h
  · split at h
    · cases h
    · rename_i hf
      cases h
      exact ⟨_, by assumption, hf⟩

theorem fromValue_ok {α : Type} {f : Json → Option α} {j : Json} {a : α}
    (h : fromValue f j = .ok a) : f j = some a := by
  unfold fromValue at h
  split at h
  · cases h
  · rename_i hf; cases h; exact hf

/-! ### Records -/

theorem decodeHead_some {X : ShimLib} {r : Role} {m : Map Str Json} {x : Nat × Time}
    (h : decodeHead X r m = some x) : GoodVersion x.1 := by
  unfold decodeHead at h
  simp only [Option.bind_eq_bind, Option.bind_eq_some_iff] at h
  obtain ⟨_, _, _, _, v, hv, _, _, t, _, h⟩ := h
  obtain ⟨j, _, hj⟩ := field_some hv
  split at h
  · rename_i hc
    cases h
    exact ⟨hc.2.2, asU32_some hj⟩
  · cases h

theorem decodeRoleDefinition_some {j : Json} {r : RoleDefinition}
    (h : decodeRoleDefinition j = some r) : GoodRole r.threshold r.keyIds := by
  unfold decodeRoleDefinition at h
  simp only [Option.bind_eq_bind, Option.bind_eq_some_iff] at h
  obtain ⟨_, _, t, _, ids, hids, h⟩ := h
  obtain ⟨j, _, hj⟩ := field_some hids
  split at h
  · rename_i hc
    cases h
    exact ⟨hc.2.2.1, hc.2.2.2, hc.2.1, fun i hi => by
      obtain ⟨_, e⟩ := asVec_some hj i hi
      exact decodeKeyId_some e⟩
  · cases h

theorem decodeRoles_some {j : Json} {x} (h : decodeRoles j = some x) :
    GoodRole x.1.threshold x.1.keyIds ∧ GoodRole x.2.1.threshold x.2.1.keyIds ∧
    GoodRole x.2.2.1.threshold x.2.2.1.keyIds ∧ GoodRole x.2.2.2.threshold x.2.2.2.keyIds := by
  unfold decodeRoles at h
  simp only [Option.bind_eq_bind, Option.bind_eq_some_iff] at h
  obtain ⟨_, _, a, ha, b, hb, c, hc, d, hd, h⟩ := h
  cases h
  obtain ⟨_, _, ha⟩ := field_some ha
  obtain ⟨_, _, hb⟩ := field_some hb
  obtain ⟨_, _, hc⟩ := field_some hc
  obtain ⟨_, _, hd⟩ := field_some hd
  exact ⟨decodeRoleDefinition_some ha, decodeRoleDefinition_some hb, decodeRoleDefinition_some hc,
    decodeRoleDefinition_some hd⟩

theorem decodeRoot_some {X : ShimLib} {j : Json} {r : RootMetadata}
    (h : decodeRoot X j = some r) : GoodRoot r := by
  unfold decodeRoot at h
  simp only [Option.bind_eq_bind, Option.bind_eq_some_iff] at h
  obtain ⟨_, _, c, _, keys, hk, ⟨a1, a2, a3, a4⟩, hr, ⟨v, t⟩, hh, h⟩ := h
  cases h
  obtain ⟨_, _, hk⟩ := field_some hk
  obtain ⟨_, _, hr⟩ := field_some hr
  obtain ⟨h1, h2, h3, h4⟩ := decodeRoles_some hr
  refine ⟨decodeHead_some hh, h1, h2, h3, h4, ?_, ?_⟩
  · exact (asMapNoDup_some hk).1.sublist (List.filter_sublist.map _)
  · intro p hp
    simpa using (List.mem_filter.1 hp).2

theorem decodeHashes_some {j : Json} {h : Map HashAlg HashValue} (hd : decodeHashes j = some h)
    (hne : h ≠ []) : GoodHashes h := by
  obtain ⟨h1, h2⟩ := asMap_some hd
  refine ⟨hne, h1, fun p hp => ?_⟩
  obtain ⟨⟨s, e⟩, _⟩ := h2 p hp
  unfold hashAlgOfKey at e
  split at e
  · exact .inl (Option.some.inj e).symm
  · split at e
    · exact .inr (Option.some.inj e).symm
    · cases e

theorem decodeMetadataDescription_some {j : Json} {d : MetadataDescription}
    (h : decodeMetadataDescription j = some d) : GoodDescription d := by
  unfold decodeMetadataDescription at h
  simp only [Option.bind_eq_bind, Option.bind_eq_some_iff] at h
  obtain ⟨_, _, v, hv, l, hl, hs, hh, h⟩ := h
  obtain ⟨_, _, hv⟩ := field_some hv
  obtain ⟨_, _, hl⟩ := field_some hl
  obtain ⟨_, _, hh⟩ := field_some hh
  split at h
  · rename_i hc
    cases h
    exact ⟨⟨hc.1, asU32_some hv⟩, asU64_some hl, decodeHashes_some hh hc.2⟩
  · cases h

theorem decodeTimestamp_some {X : ShimLib} {j : Json} {m : TimestampMetadata}
    (h : decodeTimestamp X j = some m) : GoodTimestamp m := by
  unfold decodeTimestamp at h
  simp only [Option.bind_eq_bind, Option.bind_eq_some_iff] at h
  obtain ⟨_, _, d, hd, ⟨v, t⟩, hh, h⟩ := h
  cases h
  obtain ⟨_, _, hd⟩ := field_some hd
  rw [Option.bind_eq_some_iff] at hd
  obtain ⟨_, _, hd⟩ := hd
  obtain ⟨_, _, hd⟩ := field_some hd
  exact ⟨decodeHead_some hh, decodeMetadataDescription_some hd⟩

theorem safeName_of_safePath {s : Str} (h : safePath s = .ok ()) : SafeName s :=
  ⟨((safePath_ok_iff s).1 h).1, ((safePath_ok_iff s).1 h).2.1,
    fun c hc => accepted_component h (by rwa [pieces_eq] at hc)⟩

theorem stripJson_some {s : Str} {p : MetadataPath} (h : stripJson s = some p) :
    safePath p = .ok () ∧ s = p ++ ".json".toList := by
  unfold stripJson at h
  split at h
  · rename_i hc
    split at h
    · cases h
    · rename_i q hq
      cases h
      obtain ⟨e, hs⟩ := accepted_iff_meta.1 hq
      refine ⟨e ▸ hs, ?_⟩
      have := List.take_append_drop (s.length - jsonExt.length) s
      rw [hc.2] at this
      rw [e]
      exact this.symm
  · cases h

theorem decodeSnapshot_some {X : ShimLib} {j : Json} {m : SnapshotMetadata}
    (h : decodeSnapshot X j = some m) :
    GoodSnapshot m ∧ ∀ p ∈ m.metas, SafeName p.1 := by
  unfold decodeSnapshot at h
  simp only [Option.bind_eq_bind, Option.bind_eq_some_iff] at h
  obtain ⟨_, _, ms, hm, ⟨v, t⟩, hh, ms', hm', h⟩ := h
  cases h
  obtain ⟨_, _, hm⟩ := field_some hm
  obtain ⟨_, hm⟩ := asMapNoDup_some hm
  have key : ∀ p ∈ Map.collect ms', GoodDescription p.2 ∧ SafeName p.1 := by
    intro p hp
    obtain ⟨q, hq, e⟩ := mapAll_some hm' p (mem_collect hp)
    rw [Option.map_eq_some_iff] at e
    obtain ⟨n, hn, rfl⟩ := e
    obtain ⟨_, _, hd⟩ := hm q hq
    exact ⟨decodeMetadataDescription_some hd, safeName_of_safePath (stripJson_some hn).1⟩
  exact ⟨⟨decodeHead_some hh, fun p hp => (key p hp).1, Map.nodup_keys_collect _⟩,
    fun p hp => (key p hp).2⟩

theorem virtualPathOfStr_some {s : Str} {p : VirtualTargetPath} (h : virtualPathOfStr s = some p) :
    p = s ∧ safePath p = .ok () := by
  unfold virtualPathOfStr VirtualTargetPath.new at h
  cases hs : safePath s with
  | error e => rw [hs] at h; cases h
  | ok u => rw [hs] at h; cases h; exact ⟨rfl, hs⟩

theorem metadataPathOfStr_some {s : Str} {p : MetadataPath} (h : metadataPathOfStr s = some p) :
    p = s ∧ safePath p = .ok () := by
  unfold metadataPathOfStr MetadataPath.new at h
  cases hs : safePath s with
  | error e => rw [hs] at h; cases h
  | ok u => rw [hs] at h; cases h; exact ⟨rfl, hs⟩

theorem decodeTargetDescription_some {j : Json} {d : TargetDescription}
    (h : decodeTargetDescription j = some d) : GoodTarget d := by
  unfold decodeTargetDescription at h
  simp only [Option.bind_eq_bind, Option.bind_eq_some_iff] at h
  obtain ⟨_, _, l, hl, hs, hh, c, _, h⟩ := h
  obtain ⟨_, _, hl⟩ := field_some hl
  obtain ⟨_, _, hh⟩ := field_some hh
  split at h
  · rename_i hc
    cases h
    exact ⟨asU64_some hl, decodeHashes_some hh hc⟩
  · cases h

theorem decodeDelegation_some {j : Json} {d : Delegation} (h : decodeDelegation j = some d) :
    GoodDelegation d ∧ SafeName d.role ∧ ∀ p ∈ d.paths, SafeName p := by
  unfold decodeDelegation at h
  simp only [Option.bind_eq_bind, Option.bind_eq_some_iff] at h
  obtain ⟨_, _, role, hr, term, _, t, _, ids, hids, paths, hp, h⟩ := h
  obtain ⟨_, _, hr⟩ := field_some hr
  obtain ⟨_, _, hids⟩ := field_some hids
  obtain ⟨_, _, hp⟩ := field_some hp
  rw [Option.bind_eq_some_iff] at hr
  obtain ⟨_, _, hr⟩ := hr
  split at h
  · rename_i hc
    cases h
    obtain ⟨c1, c2, c3, c4, c5, c6⟩ := hc
    refine ⟨⟨⟨c5, c6, c2, fun i hi => ?_⟩, c4, c1⟩,
      safeName_of_safePath (metadataPathOfStr_some hr).2, fun p h => ?_⟩
    · obtain ⟨_, e⟩ := asVec_some hids i hi
      exact decodeKeyId_some e
    · obtain ⟨_, e⟩ := asVec_some hp p h
      rw [Option.bind_eq_some_iff] at e
      obtain ⟨_, _, e⟩ := e
      exact safeName_of_safePath (virtualPathOfStr_some e).2
  · cases h

theorem decodeDelegations_some {X : ShimLib} {j : Json} {d : Delegations}
    (h : decodeDelegations X j = some d) :
    GoodDelegations d ∧ ∀ r ∈ d.roles, SafeName r.role ∧ ∀ p ∈ r.paths, SafeName p := by
  unfold decodeDelegations at h
  simp only [Option.bind_eq_bind, Option.bind_eq_some_iff] at h
  obtain ⟨_, _, keys, hk, roles, hr, h⟩ := h
  obtain ⟨_, _, hk⟩ := field_some hk
  obtain ⟨_, _, hr⟩ := field_some hr
  split at h
  · rename_i hc
    cases h
    have key : ∀ r ∈ roles, GoodDelegation r ∧ SafeName r.role ∧ ∀ p ∈ r.paths, SafeName p := by
      intro r h
      obtain ⟨_, e⟩ := asVec_some hr r h
      exact decodeDelegation_some e
    exact ⟨⟨(asMapNoDup_some hk).1, fun r h => (key r h).1, hc.2.2, hc.1, hc.2.1⟩,
      fun r h => (key r h).2⟩
  · cases h

theorem decodeTargets_some {X : ShimLib} {j : Json} {m : TargetsMetadata}
    (h : decodeTargets X j = some m) : GoodTargets m ∧ SafeTargets m := by
  unfold decodeTargets at h
  simp only [Option.bind_eq_bind, Option.bind_eq_some_iff] at h
  obtain ⟨_, _, ts, ht, ds, hd, ⟨v, t⟩, hh, h⟩ := h
  cases h
  obtain ⟨_, _, ht⟩ := field_some ht
  obtain ⟨t1, t2⟩ := asMap_some ht
  have key : ∀ d, ds = some d →
      GoodDelegations d ∧ ∀ r ∈ d.roles, SafeName r.role ∧ ∀ p ∈ r.paths, SafeName p := by
    rintro d rfl
    obtain ⟨_, e⟩ := fieldOpt_some hd
    exact decodeDelegations_some e
  refine ⟨⟨decodeHead_some hh, fun p hp => ?_, t1, fun d e => (key d e).1⟩,
    ⟨fun p hp => ?_, fun d e r hr => ((key d e).2 r hr).1, fun d e r hr => ((key d e).2 r hr).2⟩⟩
  · obtain ⟨_, _, e⟩ := t2 p hp
    exact decodeTargetDescription_some e
  · obtain ⟨⟨_, e⟩, _⟩ := t2 p hp
    exact safeName_of_safePath (virtualPathOfStr_some e).2

/-! ### Theorems -/

/-- **C54.** Every root that is read from bytes has satisfiable roles, a positive version, no key ID
twice, and every key under its own ID. -/
theorem C54_root (X : ShimLib) (b : Bytes) (r : RootMetadata)
    (h : fromSlice X.float (decodeRoot X) b = .ok r) : GoodRoot r := by
  obtain ⟨j, _, h⟩ := fromSlice_ok h
  exact decodeRoot_some h

/-- **C54.** The same for a root taken from parsed data. -/
theorem C54_root_value (X : ShimLib) (j : Json) (r : RootMetadata)
    (h : fromValue (decodeRoot X) j = .ok r) : GoodRoot r := decodeRoot_some (fromValue_ok h)

/-- **C54.** Timestamp metadata read from bytes: positive versions and at least one known digest. -/
theorem C54_timestamp (X : ShimLib) (b : Bytes) (m : TimestampMetadata)
    (h : fromSlice X.float (decodeTimestamp X) b = .ok m) : GoodTimestamp m := by
  obtain ⟨j, _, h⟩ := fromSlice_ok h
  exact decodeTimestamp_some h

/-- **C54.** Snapshot metadata read from bytes. -/
theorem C54_snapshot (X : ShimLib) (b : Bytes) (m : SnapshotMetadata)
    (h : fromSlice X.float (decodeSnapshot X) b = .ok m) : GoodSnapshot m := by
  obtain ⟨j, _, h⟩ := fromSlice_ok h
  exact (decodeSnapshot_some h).1

/-- **C54.** Targets metadata read from bytes: satisfiable delegations with different names. -/
theorem C54_targets (X : ShimLib) (b : Bytes) (m : TargetsMetadata)
    (h : fromSlice X.float (decodeTargets X) b = .ok m) : GoodTargets m := by
  obtain ⟨j, _, h⟩ := fromSlice_ok h
  exact (decodeTargets_some h).1

/-- Reading the canonical bytes of a value gives that value, if it gives anything. Unlike in C68 the
nesting does not matter: the reader may refuse a deep value, but not change it. -/
theorem canonical_read {L : FloatLib} {v w : Json} {b : Bytes} (h : Json.canonicalize v = .ok b)
    (hr : parseJson L b = .ok w) : w = v.normal := by
  obtain ⟨h1, h2⟩ := canonicalize_ok h
  unfold parseJson at hr
  rw [h2, fromUtf8_utf8] at hr
  dsimp only at hr
  have hc := canon_normal v h1
  unfold parseText at hr
  split at hr
  · cases hr
  · rename_i x r hp
    split at hr
    · cases hr
      have big := (parse_depth_mono L _).1 128 (Json.depth v.normal + 128) _ _ (by omega) hp
      have back := Json.parseValue_write L v.normal (2 * (Json.write v.normal).length + 2)
        (Json.depth v.normal + 128) [] hc (by have := cost_length v.normal hc; omega) (by omega)
        Json.endsNumber_nil
      rw [List.append_nil, big] at back
      cases back
      rfl
    · cases hr

/-- **C68.** Without a bound on the nesting: if the canonical bytes of a document can be read at all,
they are read as the value of that document. -/
theorem C68_never_misread (L : FloatLib) (v w : Json) (b : Bytes) (h : Json.canonicalize v = .ok b)
    (hr : parseJson L b = .ok w) : w = v.normal := canonical_read h hr

/-- **C54.** The JSON format meets every assumption about decoders made elsewhere: versions are
between 1 and `u32::MAX`, and a root decoded from the parsed data is the root decoded from its
canonical bytes. -/
theorem C54_json_decoders (X : ShimLib) (ring order perm) :
    Decoders (jsonEnv X ring order perm) where
  root b m h := by
    have := (C54_root X b m h).version
    exact ⟨this.1, Nat.le_of_lt_succ this.2⟩
  timestamp b m h := by
    have h := C54_timestamp X b m h
    exact ⟨h.version.1, Nat.le_of_lt_succ h.version.2, h.snapshot.version.1,
      Nat.le_of_lt_succ h.snapshot.version.2⟩
  snapshot b m h := by
    have h := C54_snapshot X b m h
    exact ⟨h.version.1, Nat.le_of_lt_succ h.version.2, fun p hp =>
      ⟨(h.metas p hp).version.1, Nat.le_of_lt_succ (h.metas p hp).version.2⟩⟩
  targets b m h := by
    have h := (C54_targets X b m h).version
    exact ⟨h.1, Nat.le_of_lt_succ h.2⟩
  coherent signed msg r r' hc hs hr := by
    obtain ⟨j, hp, hj⟩ := fromSlice_ok hs
    have e := canonical_read hc hp
    rw [signed.2] at e
    have hr := fromValue_ok hr
    rw [e, hr] at hj
    exact (Option.some.inj hj).symm

/-- **C69.** Every role name in snapshot metadata read from bytes is safe. -/
theorem C69_snapshot_names (X : ShimLib) (b : Bytes) (m : SnapshotMetadata)
    (h : fromSlice X.float (decodeSnapshot X) b = .ok m) : ∀ p ∈ m.metas, SafeName p.1 := by
  obtain ⟨j, _, h⟩ := fromSlice_ok h
  exact (decodeSnapshot_some h).2

/-- **C69.** Every target path, role name and delegated path in targets metadata read from bytes is
safe. -/
theorem C69_targets_names (X : ShimLib) (b : Bytes) (m : TargetsMetadata)
    (h : fromSlice X.float (decodeTargets X) b = .ok m) : SafeTargets m := by
  obtain ⟨j, _, h⟩ := fromSlice_ok h
  exact (decodeTargets_some h).2

end RustTuf.Props
