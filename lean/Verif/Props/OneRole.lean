import Verif.Spec.OneRole
import Verif.Props.Shims
import Verif.Props.Anchored
import Verif.Props.PublishExample

/-!
# C107: a document serves for one role
-/

namespace RustTuf.Props
open Spec RustTuf

section
variable {X : ShimLib}

theorem names_unique {j : Json} {s s' : Str} (h : Names j s) (h' : Names j s') : s = s' := by
  cases h <;> cases h' <;> rfl

theorem hasType_unique {j : Json} {s s' : Str} (h : HasType j s) (h' : HasType j s') : s = s' := by
  cases h with
  | obj m t s h1 h2 =>
    cases h' with
    | obj _ t' _ h3 h4 =>
      rw [h1] at h3
      cases h3
      exact names_unique h2 h4
  | arr t l s h1 =>
    cases h' with
    | arr _ _ _ h2 => exact names_unique h1 h2

theorem decodeRole_names {j : Json} {r : Role} (h : decodeRole j = some r) : Names j r.name := by
  have key : ∀ s, Map.get? [(Role.root.name, Role.root), (Role.snapshot.name, Role.snapshot),
      (Role.targets.name, Role.targets), (Role.timestamp.name, Role.timestamp)] s = some r → s = r.name := by
    intro s hs
    have := Map.mem_of_get? hs
    simp only [List.mem_cons, Prod.mk.injEq, List.not_mem_nil, or_false] at this
    rcases this with ⟨rfl, rfl⟩ | ⟨rfl, rfl⟩ | ⟨rfl, rfl⟩ | ⟨rfl, rfl⟩ <;> rfl
  unfold decodeRole at h
  split at h
  · cases h
  · rename_i v hv
    unfold asVariant at hv
    split at hv
    · cases hv
      rw [← key _ h]
      exact .str _
    · rename_i s j
      cases hv
      cases j with
      | null => rw [← key _ h]; exact .obj _
      | _ => cases h
    · cases hv

theorem decodeHead_type {role : Role} {names : List Str} {j : Json} {m : Map Str Json} {x : Nat × Time}
    (hm : asStruct ("_type".toList :: names) j = some m) (h : decodeHead X role m = some x) :
    HasType j role.name := by
  unfold decodeHead at h
  simp only [Option.bind_eq_bind, Option.bind_eq_some_iff] at h
  obtain ⟨typ, h1, spec, -, version, -, expires, -, t, -, h2⟩ := h
  split at h2
  · rename_i hh
    obtain ⟨rfl, -⟩ := hh
    unfold field at h1
    split at h1
    · cases h1
    · rename_i jt hjt
      have hn := decodeRole_names h1
      unfold asStruct at hm
      split at hm
      · split at hm
        · cases hm; exact .obj _ _ _ hjt hn
        · cases hm
      · split at hm
        · rename_i l hl
          cases hm
          cases l with
          | nil => simp at hl
          | cons a l =>
            simp [Map.get?] at hjt
            subst hjt
            exact .arr _ _ _ hn
        · cases hm
      · cases hm
  · cases h2

/-- **C107.** Metadata of each role is read only from documents that name this role as their type. -/
theorem C107_type_is_read (X : ShimLib) (j : Json) :
    (∀ m, decodeRoot X j = some m → HasType j "root".toList) ∧
    (∀ m, decodeTimestamp X j = some m → HasType j "timestamp".toList) ∧
    (∀ m, decodeSnapshot X j = some m → HasType j "snapshot".toList) ∧
    (∀ m, decodeTargets X j = some m → HasType j "targets".toList) := by
  refine ⟨fun m h => ?_, fun m h => ?_, fun m h => ?_, fun m h => ?_⟩
  · unfold decodeRoot at h
    simp only [Option.bind_eq_bind, Option.bind_eq_some_iff] at h
    obtain ⟨a, h1, _, -, _, -, _, -, _, h2, -⟩ := h
    exact decodeHead_type h1 h2
  · unfold decodeTimestamp at h
    simp only [Option.bind_eq_bind, Option.bind_eq_some_iff] at h
    obtain ⟨a, h1, _, -, _, h2, -⟩ := h
    exact decodeHead_type h1 h2
  · unfold decodeSnapshot at h
    simp only [Option.bind_eq_bind, Option.bind_eq_some_iff] at h
    obtain ⟨a, h1, _, -, _, h2, -⟩ := h
    exact decodeHead_type h1 h2
  · unfold decodeTargets at h
    simp only [Option.bind_eq_bind, Option.bind_eq_some_iff] at h
    obtain ⟨a, h1, _, -, _, -, _, h2, -⟩ := h
    exact decodeHead_type h1 h2

end

section json
variable (X : ShimLib) (ring : Scheme → Bytes → Bytes → Bytes → Bool)
  (order : Map KeyId Signature → List (KeyId × Signature)) (perm : ∀ m, (order m).Perm m)

/-- What is signed determines the type. -/
theorem is_type {raw : Bytes} {role : Role} (h : Is (jsonEnv X ring order perm) raw role) :
    ∃ sigs signed msg j, (jsonEnv X ring order perm).parseSigned raw = .ok (sigs, signed) ∧
      (jsonEnv X ring order perm).canonicalize signed = .ok msg ∧ parseJson X.float msg = .ok j ∧
      HasType j role.name := by
  cases role <;> obtain ⟨m, sigs, signed, msg, h1, h2, h3⟩ := h <;> obtain ⟨j, h4, h5⟩ := fromSlice_ok h3
  · exact ⟨sigs, signed, msg, j, h1, h2, h4, (C107_type_is_read X j).1 _ h5⟩
  · exact ⟨sigs, signed, msg, j, h1, h2, h4, (C107_type_is_read X j).2.2.1 _ h5⟩
  · exact ⟨sigs, signed, msg, j, h1, h2, h4, (C107_type_is_read X j).2.2.2 _ h5⟩
  · exact ⟨sigs, signed, msg, j, h1, h2, h4, (C107_type_is_read X j).2.1 _ h5⟩

/-- **C107.** A document is metadata of one role at most. -/
theorem C107_one_role (raw : Bytes) (role role' : Role) (h : Is (jsonEnv X ring order perm) raw role)
    (h' : Is (jsonEnv X ring order perm) raw role') : role = role' := by
  obtain ⟨sigs, signed, msg, j, h1, h2, h3, h4⟩ := is_type X ring order perm h
  obtain ⟨sigs', signed', msg', j', g1, g2, g3, g4⟩ := is_type X ring order perm h'
  rw [h1] at g1; cases g1
  rw [h2] at g2; cases g2
  rw [h3] at g3; cases g3
  have e := hasType_unique h4 g4
  cases role <;> cases role' <;> first | rfl | (revert e; decide)

/-- **C107.** So a document of one role is never taken for another one, also if the same keys sign for
both: update calls that expect another role change nothing and report no change. -/
theorem C107_other_roles_refuse (raw : Bytes) (role : Role) (hr : Is (jsonEnv X ring order perm) raw role)
    (t : Tuf) (op : Tuf.Op) (k : Kind) (hk : Submits op k raw) (hne : expects k ≠ role) :
    (Tuf.step (jsonEnv X ring order perm) t op).2 = t ∧
    (Tuf.step (jsonEnv X ring order perm) t op).1 ≠ .changed := by
  have hc := Tuf.step_case (jsonEnv X ring order perm) t op
  generalize (Tuf.step (jsonEnv X ring order perm) t op).1 = out at hc
  generalize (Tuf.step (jsonEnv X ring order perm) t op).2 = t' at hc
  cases hc with
  | failed => exact ⟨rfl, by simp⟩
  | same => exact ⟨rfl, by simp⟩
  | root raw new h =>
    cases hk
    exact absurd (C107_one_role X ring order perm raw .root role ⟨_, says_of_authentic h.signedByOld⟩ hr) hne
  | timestamp clk raw new h =>
    cases hk
    exact absurd (C107_one_role X ring order perm raw .timestamp role ⟨_, says_of_authentic h.signed⟩ hr) hne
  | timestampExpired clk raw new h =>
    cases hk
    exact absurd (C107_one_role X ring order perm raw .timestamp role ⟨_, says_of_authentic h⟩ hr) hne
  | snapshot clk raw new t' h =>
    cases hk
    exact absurd (C107_one_role X ring order perm raw .snapshot role ⟨_, says_of_authentic h.signed⟩ hr) hne
  | targets clk raw new h =>
    cases hk
    exact absurd (C107_one_role X ring order perm raw .targets role ⟨_, says_of_authentic h.signed⟩ hr) hne
  | delegation clk parent role' raw new h =>
    cases hk
    obtain ⟨_, _, -, h⟩ := h.signed
    exact absurd (C107_one_role X ring order perm raw .targets role ⟨_, says_of_authentic h⟩ hr) hne

/-- **C107.** Nor can a client be started with it. -/
theorem C107_only_roots_start (raw : Bytes) (role : Role) (hr : Is (jsonEnv X ring order perm) raw role)
    (hne : role ≠ .root) :
    (∃ e, Tuf.fromTrustedRoot (jsonEnv X ring order perm) raw = .error e) ∧
    ∀ n keys, ∃ e, Tuf.fromRootWithTrustedKeys (jsonEnv X ring order perm) raw n keys = .error e := by
  have key : ∀ n keys m, ¬ Authentic (jsonEnv X ring order perm) (jsonEnv X ring order perm).rootFromSlice raw n keys m :=
    fun n keys m h => hne (C107_one_role X ring order perm raw role .root hr ⟨m, says_of_authentic h⟩)
  constructor
  · cases h : Tuf.fromTrustedRoot (jsonEnv X ring order perm) raw with
    | error e => exact ⟨e, rfl⟩
    | ok t =>
      exfalso
      unfold Tuf.fromTrustedRoot at h
      split at h
      · cases h
      · split at h
        · cases h
        · split at h
          · cases h
          · rename_i hv
            exact key _ _ _ ((verifySignatures_ok_iff _ _ _ _ _ _).1 hv)
  · intro n keys
    cases h : Tuf.fromRootWithTrustedKeys (jsonEnv X ring order perm) raw n keys with
    | error e => exact ⟨e, rfl⟩
    | ok t =>
      exfalso
      obtain ⟨r, h1, -⟩ := (C06_bootstrap_trusted_keys _ raw n keys t).1 h
      exact key _ _ _ h1

end json

/-- **Limit of C107.** A document with delegated metadata does not name the role it belongs to: where it is
accepted for one role, it is accepted for another one as well, if that role is delegated to the same keys
and has the same version in the snapshot. (A client compares the digest with the snapshot, too.) -/
theorem C107_delegated_role_is_not_named (E : Env) (clk : Clock) (t t' : Tuf) (parent a b : MetadataPath)
    (raw : Bytes) (h : Tuf.updateDelegation E clk t parent a raw = (.ok true, t'))
    (hsame : ∀ ds d, Delegates t parent a ds d → ∃ d', Delegates t parent b ds d' ∧
      d'.threshold = d.threshold ∧ d'.keyIds = d.keyIds)
    (sn : SnapshotMetadata) (hsn : t.snapshot = some sn) (m m' : MetadataDescription)
    (hm : sn.metas.get? a = some m) (hm' : sn.metas.get? b = some m') (hv : m'.version = m.version)
    (hnew : t.delegations.get? b = none) :
    ∃ new, t'.delegations.get? a = some new ∧
      Tuf.updateDelegation E clk t parent b raw =
        (.ok true, { t with delegations := t.delegations.insert b new }) := by
  obtain ⟨new, hr, rfl⟩ := (Tuf.updateDelegation_true_iff E clk t t' parent a raw).1 h
  refine ⟨new, by rw [Map.get?_insert, if_pos rfl], ?_⟩
  refine (Tuf.updateDelegation_true_iff E clk t _ parent b raw).2 ⟨new, ?_, rfl⟩
  obtain ⟨d0, ⟨c1, ⟨sn', c2, c3, c4⟩, c5⟩, c6, c7⟩ := hr.context
  rw [hsn] at c2; cases c2
  rw [hm] at c4; cases c4
  obtain ⟨ds, d, g1, g2⟩ := hr.signed
  obtain ⟨d', g3, g4, g5⟩ := hsame ds d g1
  refine ⟨⟨m', ⟨c1, ⟨sn, hsn, c3, hm'⟩, c5⟩, ?_, by rw [hv]; exact c7⟩, ⟨ds, d', g3, by rw [g4, g5]; exact g2⟩,
    hr.unexpired⟩
  rw [hnew, hv]
  exact Nat.lt_of_le_of_lt (Nat.zero_le _) c6

namespace OneRoleExample
open PublishExample (lib ring)

def bytes (s : String) : Bytes := s.toList.map fun c => c.toNat.toUInt8

/-- An unsigned snapshot without contents. -/
def document : Bytes := bytes
  "{\"signatures\":[],\"signed\":{\"version\":2,\"_type\":\"snapshot\",\"expires\":\"1\",\"meta\":{},\"spec_version\":\"1.0\"}}"

/-- Is the document read as a snapshot? -/
def isSnapshot (E : Env) (raw : Bytes) : Bool :=
  match E.parseSigned raw with
  | .ok p => match E.canonicalize p.2 with
    | .ok msg => (E.snapshotFromSlice msg).isOk
    | .error _ => false
  | .error _ => false

theorem is_of_check {E : Env} {raw : Bytes} (h : isSnapshot E raw = true) : Is E raw .snapshot := by
  unfold isSnapshot at h
  split at h
  · rename_i p hp
    split at h
    · rename_i msg hmsg
      cases hm : E.snapshotFromSlice msg with
      | error e => rw [hm] at h; cases h
      | ok m => exact ⟨m, p.1, p.2, msg, hp, hmsg, hm⟩
    · cases h
  · cases h

-- Hypotheses of `C107_one_role` and the theorems after it.
example : Is (jsonEnv lib ring id fun _ => .refl _) document .snapshot := is_of_check (by decide +kernel)

-- Hypotheses of `C107_delegated_role_is_not_named`: the metadata of `a` is accepted as that of `b`.
example : Tuf.updateDelegation Toy.env (Toy.clk 100) { Toy.full with delegations := [] } "targets".toList
      "a".toList [40] = (.ok true, { Toy.full with delegations := [("a".toList, Toy.targets 1 500 [("p/y", 3)] none)] }) ∧
    (∀ ds d, Delegates { Toy.full with delegations := [] } "targets".toList "a".toList ds d →
      ∃ d', Delegates { Toy.full with delegations := [] } "targets".toList "b".toList ds d' ∧
        d'.threshold = d.threshold ∧ d'.keyIds = d.keyIds) ∧
    ∃ sn m m', Toy.full.snapshot = some sn ∧ sn.metas.get? "a".toList = some m ∧
      sn.metas.get? "b".toList = some m' ∧ m'.version = m.version := by
  refine ⟨by decide, ?_, _, Toy.descr 1, Toy.descr 1, rfl, by decide, by decide, rfl⟩
  rintro ds d ⟨ta, h | ⟨h, -⟩, h2, pre, post, h3, h4, -⟩
  · obtain ⟨-, h⟩ := h
    cases h
    cases h2
    refine ⟨Toy.delegation "b" false ["q/"], ⟨Toy.topTargets, .inl ⟨rfl, rfl⟩, rfl, [], _, rfl, rfl, nofun⟩, ?_⟩
    have hd : d ∈ [Toy.delegation "b" false ["q/"], Toy.delegation "a" true ["p/"]] := by
      have : d ∈ pre ++ d :: post := by simp
      rw [← h3] at this
      exact this
    simp only [List.mem_cons, List.not_mem_nil, or_false] at hd
    rcases hd with rfl | rfl <;> exact ⟨rfl, rfl⟩
  · exact absurd rfl h

end OneRoleExample

end RustTuf.Props
