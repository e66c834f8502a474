import Verif.Spec.Editing
import Verif.Spec.TufRules
import Verif.Props.BuildersContent
import Verif.Props.TufRules
import Verif.Props.Shims

/-!
# C108: editing existing metadata
-/

namespace RustTuf.Props
open Spec RustTuf Json

/-! ### Root -/

/-- The threshold that a builder holds for a role. -/
def RootBuilder.thresholdOf (b : RootBuilder) : Role → Nat
  | .root => b.rootThreshold
  | .snapshot => b.snapshotThreshold
  | .targets => b.targetsThreshold
  | .timestamp => b.timestampThreshold

/-- The key IDs that a builder holds for a role. -/
def RootBuilder.idsOf (b : RootBuilder) : Role → List KeyId
  | .root => b.rootKeyIds
  | .snapshot => b.snapshotKeyIds
  | .targets => b.targetsKeyIds
  | .timestamp => b.timestampKeyIds

/-- The state of a builder after some calls on another one. -/
structure HoldsEdited (b0 : RootBuilder) (cs : List RootCall) (b : RootBuilder) : Prop where
  version : b.version = lastArg RootCall.version? b0.version cs
  expires : b.expires = lastArg RootCall.expires? b0.expires cs
  consistent : b.consistentSnapshot = lastArg RootCall.consistent? b0.consistentSnapshot cs
  thresholds : ∀ role, RootBuilder.thresholdOf b role =
    lastArg (RootCall.threshold? role) (RootBuilder.thresholdOf b0 role) cs
  ids : ∀ role, RootBuilder.idsOf b role =
    RootBuilder.idsOf b0 role ++ (askedKeys role cs).map PublicKey.keyId
  keys : ∀ id, b.keys.get? id =
    (((cs.filterMap RootCall.key?).filter fun k => decide (k.keyId = id)).getLast?).or (b0.keys.get? id)
  nodup : (b0.keys.map Prod.fst).Nodup → (b.keys.map Prod.fst).Nodup
  own : ∀ p ∈ b.keys, p ∈ b0.keys ∨ (p.1 = p.2.keyId ∧ p.2 ∈ cs.filterMap RootCall.key?)

theorem HoldsEdited.step {b0 : RootBuilder} {cs : List RootCall} {b : RootBuilder}
    (h : HoldsEdited b0 cs b) (c : RootCall) : HoldsEdited b0 (cs ++ [c]) (b.call c) := by
  obtain ⟨h1, h2, h3, h4, h5, h6, h7, h8⟩ := h
  have same : RootCall.key? c = none →
      (cs ++ [c]).filterMap RootCall.key? = cs.filterMap RootCall.key? := by
    intro e; simp [List.filterMap_append, e]
  cases c with
  | key r k =>
    refine ⟨?_, ?_, ?_, ?_, ?_, ?_, ?_, ?_⟩
    · rw [lastArg_append]; cases r <;> exact h1
    · rw [lastArg_append]; cases r <;> exact h2
    · rw [lastArg_append]; cases r <;> exact h3
    · intro role
      rw [lastArg_append]
      have := h4 role
      cases r <;> cases role <;> exact this
    · intro role
      rw [askedKeys_append, ← List.append_assoc, ← h5 role]
      cases r <;> cases role <;>
        simp [RootBuilder.call, RootBuilder.addKey, RootBuilder.idsOf, RootCall.keyOf?]
    · intro id
      have e : (b.call (.key r k)).keys = b.keys.insert k.keyId k := by cases r <;> rfl
      rw [e, List.filterMap_append, List.filter_append]
      by_cases hid : k.keyId = id
      · subst hid
        rw [Map.get?_insert, if_pos rfl]
        simp [RootCall.key?]
      · rw [Map.get?_insert, if_neg (Ne.symm hid), h6 id]
        simp [RootCall.key?, hid]
    · intro hn
      have e : (b.call (.key r k)).keys = b.keys.insert k.keyId k := by cases r <;> rfl
      rw [e]
      exact Map.nodup_keys_insert (h7 hn) _ _
    · intro p hp
      have e : (b.call (.key r k)).keys = b.keys.insert k.keyId k := by cases r <;> rfl
      rw [e] at hp
      simp only [Map.insert, List.mem_cons] at hp
      rcases hp with rfl | hp
      · exact .inr ⟨rfl, by simp [List.filterMap_append, RootCall.key?]⟩
      · refine (h8 p (List.mem_filter.1 hp).1).imp_right fun ⟨g1, g2⟩ => ⟨g1, ?_⟩
        rw [List.filterMap_append]
        exact List.mem_append_left _ g2
  | threshold r n =>
    refine ⟨?_, ?_, ?_, ?_, ?_, ?_, ?_, ?_⟩
    · rw [lastArg_append]; cases r <;> exact h1
    · rw [lastArg_append]; cases r <;> exact h2
    · rw [lastArg_append]; cases r <;> exact h3
    · intro role
      rw [lastArg_append]
      have := h4 role
      cases r <;> cases role <;> first | rfl | exact this
    · intro role
      rw [askedKeys_append]
      have := h5 role
      cases r <;> cases role <;> (simp only [RootCall.keyOf?, Option.map_none, Option.toList, List.append_nil]; exact this)
    · intro id
      rw [same rfl]
      have := h6 id
      cases r <;> exact this
    · cases r <;> exact h7
    · rw [same rfl]
      cases r <;> exact h8
  | version n =>
    refine ⟨?_, ?_, ?_, ?_, ?_, ?_, ?_, ?_⟩
    · rw [lastArg_append]; rfl
    · rw [lastArg_append]; exact h2
    · rw [lastArg_append]; exact h3
    · intro role
      rw [lastArg_append]
      have := h4 role
      cases role <;> exact this
    · intro role
      rw [askedKeys_append]
      have := h5 role
      cases role <;> (simp only [RootCall.keyOf?, Option.map_none, Option.toList, List.append_nil]; exact this)
    · intro id; rw [same rfl]; exact h6 id
    · exact h7
    · rw [same rfl]; exact h8
  | expires n =>
    refine ⟨?_, ?_, ?_, ?_, ?_, ?_, ?_, ?_⟩
    · rw [lastArg_append]; exact h1
    · rw [lastArg_append]; rfl
    · rw [lastArg_append]; exact h3
    · intro role
      rw [lastArg_append]
      have := h4 role
      cases role <;> exact this
    · intro role
      rw [askedKeys_append]
      have := h5 role
      cases role <;> (simp only [RootCall.keyOf?, Option.map_none, Option.toList, List.append_nil]; exact this)
    · intro id; rw [same rfl]; exact h6 id
    · exact h7
    · rw [same rfl]; exact h8
  | consistentSnapshot n =>
    refine ⟨?_, ?_, ?_, ?_, ?_, ?_, ?_, ?_⟩
    · rw [lastArg_append]; exact h1
    · rw [lastArg_append]; exact h2
    · rw [lastArg_append]; rfl
    · intro role
      rw [lastArg_append]
      have := h4 role
      cases role <;> exact this
    · intro role
      rw [askedKeys_append]
      have := h5 role
      cases role <;> (simp only [RootCall.keyOf?, Option.map_none, Option.toList, List.append_nil]; exact this)
    · intro id; rw [same rfl]; exact h6 id
    · exact h7
    · rw [same rfl]; exact h8

theorem holdsEdited (b0 : RootBuilder) (cs : List RootCall) : HoldsEdited b0 cs (b0.calls cs) := by
  induction cs using List.reverseRecOn with
  | nil =>
    refine ⟨rfl, rfl, rfl, fun _ => rfl, fun _ => ?_, fun _ => rfl, id, fun p hp => .inl hp⟩
    simp [askedKeys, RootBuilder.calls]
  | append_singleton cs c ih =>
    have e : b0.calls (cs ++ [c]) = (b0.calls cs).call c := by simp [RootBuilder.calls]
    rw [e]
    exact ih.step c

theorem ofRoot_thresholdOf (r : RootMetadata) (role : Role) :
    RootBuilder.thresholdOf (RootBuilder.ofRoot r) role = (roleOf r role).threshold := by
  cases role <;> rfl

theorem ofRoot_idsOf (r : RootMetadata) (role : Role) :
    RootBuilder.idsOf (RootBuilder.ofRoot r) role = (roleOf r role).keyIds := by
  cases role <;> rfl

theorem rootBuild_roles {b : RootBuilder} {r : RootMetadata} (h : b.build = .ok r) (role : Role) :
    roleOf r role = ⟨RootBuilder.thresholdOf b role, RootBuilder.idsOf b role⟩ := by
  obtain ⟨_, rfl⟩ := rootBuild_ok.1 h
  cases role <;> rfl

/-- **C108.** A root edited with the builder, by calls in any order and with any repetitions, differs
from the old one exactly in what was called for. -/
theorem C108_root_is_edited (r : RootMetadata) (cs : List RootCall) (r' : RootMetadata)
    (h : ((RootBuilder.ofRoot r).calls cs).build = .ok r') : EditedRoot r cs r' := by
  have H := holdsEdited (RootBuilder.ofRoot r) cs
  have hr := rootBuild_roles h
  obtain ⟨_, e⟩ := rootBuild_ok.1 h
  refine ⟨?_, ?_, ?_, fun role => ?_, fun role => ?_, fun id => ?_⟩
  · rw [e]; exact H.version
  · rw [e]; exact H.expires
  · rw [e]; exact H.consistent
  · rw [hr role, ← ofRoot_thresholdOf]; exact H.thresholds role
  · rw [hr role, ← ofRoot_idsOf]; exact H.ids role
  · rw [e]; exact H.keys id

/-- **C108.** It builds exactly if the version is positive and every threshold lies between 1 and the
number of keys, old and new, listed for the role. -/
theorem C108_root_builds_iff (r : RootMetadata) (cs : List RootCall) :
    (∃ r', ((RootBuilder.ofRoot r).calls cs).build = .ok r') ↔
      1 ≤ lastArg RootCall.version? r.version cs ∧
      ∀ role, 1 ≤ lastArg (RootCall.threshold? role) (roleOf r role).threshold cs ∧
        lastArg (RootCall.threshold? role) (roleOf r role).threshold cs ≤
          (roleOf r role).keyIds.length + (askedKeys role cs).length := by
  have H := holdsEdited (RootBuilder.ofRoot r) cs
  have hv : lastArg RootCall.version? r.version cs = ((RootBuilder.ofRoot r).calls cs).version :=
    H.version.symm
  have ht : ∀ role, lastArg (RootCall.threshold? role) (roleOf r role).threshold cs =
      RootBuilder.thresholdOf ((RootBuilder.ofRoot r).calls cs) role := fun role => by
    rw [← ofRoot_thresholdOf]; exact (H.thresholds role).symm
  have hl : ∀ role, (roleOf r role).keyIds.length + (askedKeys role cs).length =
      (RootBuilder.idsOf ((RootBuilder.ofRoot r).calls cs) role).length := fun role => by
    rw [H.ids role, ofRoot_idsOf, List.length_append, List.length_map]
  simp only [hv, ht, hl]
  constructor
  · rintro ⟨r', h⟩
    obtain ⟨⟨h0, h1, h2, h3, h4⟩, _⟩ := rootBuild_ok.1 h
    refine ⟨h0, fun role => ?_⟩
    cases role <;> assumption
  · rintro ⟨h0, h⟩
    exact ⟨_, rootBuild_ok.2 ⟨⟨h0, h .root, h .snapshot, h .targets, h .timestamp⟩, rfl⟩⟩

/-- **C108.** The builder offers no call that removes a key: every key that the old root lists for a
role is still listed for it, with the same threshold unless another one was called for. -/
theorem C108_no_key_is_removed (r : RootMetadata) (cs : List RootCall) (r' : RootMetadata)
    (h : ((RootBuilder.ofRoot r).calls cs).build = .ok r') (role : Role) (id : KeyId)
    (hid : id ∈ (roleOf r role).keyIds) :
    id ∈ (roleOf r' role).keyIds ∧
      ((∀ k ∈ cs.filterMap RootCall.key?, k.keyId ≠ id) → r'.keys.get? id = r.keys.get? id) := by
  have E := C108_root_is_edited r cs r' h
  constructor
  · rw [E.keyIds role]
    exact List.mem_append_left _ hid
  · intro hk
    rw [E.keys id, List.filter_eq_nil_iff.2 (by simpa using hk)]
    rfl

/-- **C108.** Adding a key that the role has already makes a root that lists it twice, which no client
accepts (C77). -/
theorem C108_key_listed_already (r : RootMetadata) (cs : List RootCall) (r' : RootMetadata)
    (h : ((RootBuilder.ofRoot r).calls cs).build = .ok r') (role : Role) (k : PublicKey)
    (hk : RootCall.key role k ∈ cs) (hid : k.keyId ∈ (roleOf r role).keyIds) : ¬ DistinctIds r' := by
  intro hd
  have E := C108_root_is_edited r cs r' h
  have := hd role
  rw [E.keyIds role] at this
  refine (List.nodup_append.1 this).2.2 _ hid _ ?_ rfl
  exact List.mem_map.2 ⟨k, List.mem_filterMap.2 ⟨_, hk, by simp [RootCall.keyOf?]⟩, rfl⟩

/-- **C108.** A publishable root, edited with good keys that its roles do not have yet, can be
published. -/
theorem C108_edited_root_is_publishable (X : ShimLib) (r : RootMetadata) (hr : PublishableRoot X r)
    (cs : List RootCall) (r' : RootMetadata) (h : ((RootBuilder.ofRoot r).calls cs).build = .ok r')
    (hfit : ∀ c ∈ cs, RootCall.Fits c)
    (hkeys : ∀ k ∈ cs.filterMap RootCall.key?, IsKeyId k.keyId ∧ GoodKey X k)
    (hdate : GoodDate X r'.expires) (hd : DistinctIds r') : PublishableRoot X r' := by
  have E := C108_root_is_edited r cs r' h
  have H := holdsEdited (RootBuilder.ofRoot r) cs
  obtain ⟨b0, bounds⟩ := (C108_root_builds_iff r cs).1 ⟨r', h⟩
  have hr' := rootBuild_roles h
  obtain ⟨_, e⟩ := rootBuild_ok.1 h
  have old : ∀ role, GoodRole (roleOf r role).threshold (roleOf r role).keyIds ∧
      (roleOf r role).threshold < 2 ^ 32 := by
    intro role
    cases role
    · exact ⟨hr.good.root, hr.small.1⟩
    · exact ⟨hr.good.snapshot, hr.small.2.1⟩
    · exact ⟨hr.good.targets, hr.small.2.2.1⟩
    · exact ⟨hr.good.timestamp, hr.small.2.2.2⟩
  have small : ∀ role, (roleOf r' role).threshold < 2 ^ 32 := by
    intro role
    rw [E.thresholds role]
    rcases lastArg_mem (RootCall.threshold? role) (roleOf r role).threshold cs with e | ⟨c, hc, e⟩
    · rw [e]; exact (old role).2
    · have := hfit c hc
      cases c with
      | threshold r' n =>
        simp only [RootCall.threshold?] at e
        split at e
        · have e := Option.some.inj e
          rw [← e]; exact this
        · cases e
      | _ => cases e
  have vsmall : r'.version < 2 ^ 32 := by
    rw [E.version]
    rcases lastArg_mem RootCall.version? r.version cs with e | ⟨c, hc, e⟩
    · rw [e]; exact hr.good.version.2
    · have := hfit c hc
      cases c with
      | version n =>
        have e := Option.some.inj e
        rw [← e]; exact this
      | _ => cases e
  have role : ∀ role, GoodRole (roleOf r' role).threshold (roleOf r' role).keyIds := by
    intro role
    refine ⟨?_, ?_, hd role, ?_⟩
    · rw [E.thresholds role]; exact (bounds role).1
    · rw [E.thresholds role, E.keyIds role, List.length_append, List.length_map]
      exact (bounds role).2
    · intro i hi
      rw [E.keyIds role] at hi
      rcases List.mem_append.1 hi with hi | hi
      · exact (old role).1.ids i hi
      · obtain ⟨k, hk, rfl⟩ := List.mem_map.1 hi
        obtain ⟨c, hc, e⟩ := List.mem_filterMap.1 hk
        refine (hkeys k (List.mem_filterMap.2 ⟨c, hc, ?_⟩)).1
        cases c with
        | key r' k' =>
          simp only [RootCall.keyOf?] at e
          split at e
          · exact e
          · cases e
        | _ => cases e
  refine ⟨⟨⟨?_, vsmall⟩, role .root, role .snapshot, role .targets, role .timestamp, ?_, ?_⟩, ?_, hdate,
    small .root, small .snapshot, small .targets, small .timestamp⟩
  · rw [E.version]; exact b0
  · rw [e]; exact H.nodup hr.good.keys
  · rw [e]
    intro p hp
    rcases H.own p hp with g | g
    · exact hr.good.own p g
    · exact g.1
  · rw [e]
    intro p hp
    rcases H.own p hp with g | ⟨g1, g2⟩
    · exact hr.keys p g
    · rw [g1]
      exact hkeys _ g2

/-! ### The next root -/

theorem mem_keysFor {keys : Map KeyId PublicKey} (hn : (keys.map Prod.fst).Nodup) {ids : List KeyId}
    {k : PublicKey} : k ∈ keysFor keys ids ↔ ∃ id ∈ ids, keys.get? id = some k := by
  unfold keysFor
  rw [List.mem_filterMap]
  constructor
  · rintro ⟨p, hp, e⟩
    split at e
    · rename_i hc
      cases e
      exact ⟨p.1, by simpa using hc, Map.get?_of_mem_nodup hn hp⟩
    · cases e
  · rintro ⟨id, hid, e⟩
    exact ⟨(id, k), Map.mem_of_get? e, by simp [hid]⟩

theorem sameRoot_signers {a b : RootMetadata} (h : SameRoot a b) (ha : (a.keys.map Prod.fst).Nodup)
    (hb : (b.keys.map Prod.fst).Nodup) (k : PublicKey) : k ∈ rootSigners a ↔ k ∈ rootSigners b := by
  unfold rootSigners
  rw [mem_keysFor ha, mem_keysFor hb, ← h.root]
  have get : ∀ id, a.keys.get? id = b.keys.get? id := by
    intro id
    cases e : a.keys.get? id with
    | none => exact (h.keys.none id e).symm
    | some v =>
      obtain ⟨w, hw, rfl⟩ := h.keys.there id v e
      exact hw.symm
  simp only [get]

/-- **C108.** A root edited to the next version and signed by enough root keys of the old one and
enough of its own is accepted by every client that trusts the old one. -/
theorem C108_next_root_is_accepted (X : ShimLib) (ring : Scheme → Bytes → Bytes → Bytes → Bool)
    (order : Map KeyId Signature → List (KeyId × Signature)) (perm : ∀ m, (order m).Perm m)
    (L : Laws X) (t : Tuf) (hr : PublishableRoot X t.root) (cs : List RootCall) (r' : RootMetadata)
    (h : ((RootBuilder.ofRoot t.root).calls cs).build = .ok r')
    (hfit : ∀ c ∈ cs, RootCall.Fits c)
    (hkeys : ∀ k ∈ cs.filterMap RootCall.key?, IsKeyId k.keyId ∧ GoodKey X k)
    (hdate : GoodDate X r'.expires) (hd : DistinctIds r')
    (hnext : lastArg RootCall.version? t.root.version cs = t.root.version + 1)
    (sm : SignedMetadata JsonValue)
    (hold : Published X ring order perm (encodeRoot X) (decodeRoot X) r' sm (rootSigners t.root)
      t.root.root.threshold)
    (hnew : Published X ring order perm (encodeRoot X) (decodeRoot X) r' sm (rootSigners r')
      r'.root.threshold) :
    ∃ raw new, sm.toRaw = .ok raw ∧
      t.updateRoot (jsonEnv X ring order perm) raw = (.ok (), ⟨new, none, none, none, []⟩) ∧
      SameRoot r' new := by
  have E := C108_root_is_edited _ cs r' h
  have hp := C108_edited_root_is_publishable X t.root hr cs r' h hfit hkeys hdate hd
  obtain ⟨j, new, h1, h2, h3⟩ := C70_root X L r' hp
  have hgood : GoodRoot new := decodeRoot_some h2
  have hnest : ∀ j, encodeRoot X r' = some j → nesting j < 127 := fun j e => by
    have := nesting_encodeRoot X e; omega
  obtain ⟨raw, h4, h5⟩ := hold.accepted X ring order perm hnest h1 h2
  have hsame := sameRoot_signers h3 hp.good.keys hgood.keys
  have hself : Published X ring order perm (encodeRoot X) (decodeRoot X) r' sm (rootSigners new)
      new.root.threshold := by
    refine ⟨hnew.made, hnew.content, hnew.ids, ?_, hgood.root.least, ?_⟩
    · intro k hk k' hk'
      exact hnew.oneKey k ((hsame k).2 hk) k' ((hsame k').2 hk')
    · obtain ⟨signers, g1, g2, g3⟩ := hnew.enough
      exact ⟨signers, g1, by rw [← h3.root]; exact g2, fun k hk =>
        ⟨(hsame k).1 (g3 k hk).1, (g3 k hk).2⟩⟩
  obtain ⟨raw', h6, h7⟩ := hself.accepted X ring order perm hnest h1 h2
  rw [h4] at h6
  cases h6
  refine ⟨raw, new, h4, (C07_root_rule _ _ _ _).2 ⟨new, ⟨?_, ?_, ?_, ?_⟩, rfl⟩, h3⟩
  · exact (verifySignatures_ok_iff ..).1 h5
  · exact (verifySignatures_ok_iff ..).1 h7
  · rw [← h3.version, E.version, hnext]
  · have := hgood.version.2
    rw [← h3.version, E.version, hnext] at this
    omega

/-! ### Snapshot -/

theorem editedSnapshot (D : Digest) (m : SnapshotMetadata) (cs : List SnapshotCall) : ∀ b,
    (SnapshotBuilder.ofSnapshot m).calls D cs = .ok b →
      EditedSnapshot D m cs ⟨b.version, b.expires, b.metas⟩ ∧
      ((m.metas.map Prod.fst).Nodup → (b.metas.map Prod.fst).Nodup) ∧
      ∀ p ∈ b.metas, p ∈ m.metas ∨ (GoodDescription p.2 ∧ MetadataPath.new p.1 = .ok p.1) ∨
        ∃ c ∈ cs, c = .description p.1 p.2 := by
  induction cs using List.reverseRecOn with
  | nil =>
    intro b h
    cases h
    refine ⟨⟨rfl, rfl, fun _ _ => rfl, ?_⟩, id, fun p hp => .inl hp⟩
    rintro p c ⟨cs1, cs2, e, _⟩
    simp at e
  | append_singleton cs c ih =>
    intro b h
    obtain ⟨b1, e1, e2⟩ := snapshotCalls_append D cs c _ _ h
    obtain ⟨⟨h1, h2, h3, h4⟩, h5, h6⟩ := ih b1 e1
    have keep : ∀ p ∈ b1.metas, p ∈ m.metas ∨ (GoodDescription p.2 ∧ MetadataPath.new p.1 = .ok p.1) ∨
        ∃ c' ∈ cs ++ [c], c' = .description p.1 p.2 := fun p hp => (h6 p hp).imp_right
      fun g => g.imp_right fun ⟨c', hc', e⟩ => ⟨c', List.mem_append_left _ hc', e⟩
    -- a call about no path
    have plain : SnapshotCall.path? c = none → b.metas = b1.metas →
        (∀ p, (¬ ∃ c', LastAbout SnapshotCall.path? (cs ++ [c]) p c') →
          b.metas.get? p = m.metas.get? p) ∧
        (∀ p c', LastAbout SnapshotCall.path? (cs ++ [c]) p c' →
          ∃ d, b.metas.get? p = some d ∧ SnapshotCall.Gives D c' d) := by
      intro hp hb
      rw [hb]
      constructor
      · intro p hn
        refine h3 p fun ⟨c', hc'⟩ => hn ⟨c', lastAbout_append.2 (.inr ⟨by rw [hp]; simp, hc'⟩)⟩
      · intro p c' hc
        rcases lastAbout_append.1 hc with ⟨hq, rfl⟩ | ⟨hq, hl⟩
        · rw [hp] at hq; cases hq
        · exact h4 p c' hl
    -- a call about a path
    have about : ∀ path d, SnapshotCall.path? c = some path → SnapshotCall.Gives D c d →
        b.metas = b1.metas.insert path d →
        (∀ p, (¬ ∃ c', LastAbout SnapshotCall.path? (cs ++ [c]) p c') →
          b.metas.get? p = m.metas.get? p) ∧
        (∀ p c', LastAbout SnapshotCall.path? (cs ++ [c]) p c' →
          ∃ d, b.metas.get? p = some d ∧ SnapshotCall.Gives D c' d) := by
      intro path d hp hg hb
      rw [hb]
      constructor
      · intro p hn
        have hne : p ≠ path := by
          rintro rfl
          exact hn ⟨c, lastAbout_append.2 (.inl ⟨hp, rfl⟩)⟩
        rw [Map.get?_insert, if_neg hne]
        refine h3 p fun ⟨c', hc'⟩ => hn ⟨c', lastAbout_append.2 (.inr ⟨?_, hc'⟩)⟩
        rw [hp]
        exact fun e => hne (Option.some.inj e).symm
      · intro p c' hc
        rw [Map.get?_insert]
        rcases lastAbout_append.1 hc with ⟨hq, rfl⟩ | ⟨hq, hl⟩
        · rw [hp] at hq
          rw [if_pos (Option.some.inj hq).symm]
          exact ⟨d, rfl, hg⟩
        · rw [if_neg (by rintro rfl; exact hq hp)]
          exact h4 p c' hl
    cases c with
    | version n =>
      cases e2
      obtain ⟨g1, g2⟩ := plain rfl rfl
      refine ⟨⟨?_, ?_, g1, g2⟩, h5, keep⟩
      · rw [lastArg_append]; rfl
      · rw [lastArg_append]; exact h2
    | expires n =>
      cases e2
      obtain ⟨g1, g2⟩ := plain rfl rfl
      refine ⟨⟨?_, ?_, g1, g2⟩, h5, keep⟩
      · rw [lastArg_append]; exact h1
      · rw [lastArg_append]; rfl
    | metadata path sm algs =>
      obtain ⟨d, k1, k2, rfl⟩ := insertWithPath_ok e2
      obtain ⟨k3, k4⟩ := C77_description_of_published_bytes D sm algs d k1
      obtain ⟨g1, g2⟩ := about path d rfl k3 rfl
      refine ⟨⟨?_, ?_, g1, g2⟩, fun hn => Map.nodup_keys_insert (h5 hn) _ _, ?_⟩
      · rw [lastArg_append]; exact h1
      · rw [lastArg_append]; exact h2
      · intro p hp
        simp only [SnapshotBuilder.insertDescription, Map.insert, List.mem_cons] at hp
        rcases hp with rfl | hp
        · exact .inr (.inl ⟨k4, k2⟩)
        · exact keep p (List.mem_filter.1 hp).1
    | description path d =>
      cases e2
      obtain ⟨g1, g2⟩ := about path d rfl rfl rfl
      refine ⟨⟨?_, ?_, g1, g2⟩, fun hn => Map.nodup_keys_insert (h5 hn) _ _, ?_⟩
      · rw [lastArg_append]; exact h1
      · rw [lastArg_append]; exact h2
      · intro p hp
        simp only [SnapshotBuilder.insertDescription, Map.insert, List.mem_cons] at hp
        rcases hp with rfl | hp
        · exact .inr (.inr ⟨_, by simp, rfl⟩)
        · exact keep p (List.mem_filter.1 hp).1

/-- **C108.** An edited snapshot differs from the old one exactly in what was called for; in particular,
nothing that it lists is ever removed. -/
theorem C108_snapshot_is_edited (D : Digest) (m : SnapshotMetadata) (cs : List SnapshotCall)
    (b : SnapshotBuilder) (m' : SnapshotMetadata)
    (h : (SnapshotBuilder.ofSnapshot m).calls D cs = .ok b) (hb : b.build = .ok m') :
    EditedSnapshot D m cs m' ∧ ∀ p d, m.metas.get? p = some d → ∃ d', m'.metas.get? p = some d' := by
  obtain ⟨E, _⟩ := editedSnapshot D m cs b h
  obtain ⟨_, rfl⟩ := snapshotBuild_ok hb
  refine ⟨E, fun p d hd => ?_⟩
  by_cases hc : ∃ c, LastAbout SnapshotCall.path? cs p c
  · obtain ⟨c, hc⟩ := hc
    obtain ⟨d', hd', _⟩ := E.described p c hc
    exact ⟨d', hd'⟩
  · exact ⟨d, by rw [← hd]; exact E.kept p hc⟩

/-- **C108.** A publishable snapshot, edited, can be published. -/
theorem C108_edited_snapshot_is_publishable (D : Digest) (m : SnapshotMetadata) (hm : GoodSnapshot m)
    (hpaths : ∀ p ∈ m.metas, MetadataPath.new p.1 = .ok p.1) (cs : List SnapshotCall)
    (b : SnapshotBuilder) (m' : SnapshotMetadata)
    (h : (SnapshotBuilder.ofSnapshot m).calls D cs = .ok b) (hb : b.build = .ok m')
    (hfit : ∀ c ∈ cs, SnapshotCall.Fits c) :
    GoodSnapshot m' ∧ ∀ p ∈ m'.metas, MetadataPath.new p.1 = .ok p.1 := by
  obtain ⟨E, hn, hall⟩ := editedSnapshot D m cs b h
  obtain ⟨hv, rfl⟩ := snapshotBuild_ok hb
  have vsmall : b.version < 2 ^ 32 := by
    have hv : b.version = _ := E.version
    rw [hv]
    rcases lastArg_mem SnapshotCall.version? m.version cs with e | ⟨c, hc, e⟩
    · rw [e]; exact hm.version.2
    · have := hfit c hc
      cases c with
      | version n =>
        have e := Option.some.inj e
        rw [← e]; exact this
      | _ => cases e
  have good : ∀ p ∈ b.metas, GoodDescription p.2 ∧ MetadataPath.new p.1 = .ok p.1 := by
    intro p hp
    rcases hall p hp with g | g | ⟨c, hc, rfl⟩
    · exact ⟨hm.metas p g, hpaths p g⟩
    · exact g
    · have := hfit _ hc
      exact ⟨this.2, this.1⟩
  exact ⟨⟨⟨hv, vsmall⟩, fun p hp => (good p hp).1, hn hm.nodup⟩, fun p hp => (good p hp).2⟩

end RustTuf.Props
