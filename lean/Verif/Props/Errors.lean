import Verif.Lemmas.Tuf
import Verif.Spec.Errors
import Verif.Spec.TufWorld
import Verif.Model.JsonEnv
import Verif.Lemmas.JsonTotal

/-!
# Errors name the role they are about (C93)
-/

namespace RustTuf.Props
open Spec Tuf

theorem verify_not_about {E : Env} (q : DecoderErrors E) {M : Type} {dec : Bytes → Except Err M}
    (hd : ∀ b e, dec b = .error e → ¬ AboutRole e) {raw n keys e}
    (h : verifySignatures E dec raw n keys = .error e) : ¬ AboutRole e := by
  unfold verifySignatures at h
  split at h
  · cases h; simp [AboutRole]
  · dsimp only at h
    split at h
    · rename_i he; cases h; exact q.parse _ _ he
    · split at h
      · cases h; simp [AboutRole]
      · split at h
        · rename_i he; cases h; exact q.canonicalize _ _ he
        · split at h
          · cases h; simp [AboutRole]
          · exact hd _ _ h

/-- What the error of an update call may be about. -/
def Claim (E : Env) (t : Tuf) (op : Op) (e : Err) : Prop :=
  (∀ r, e = .expired r → (∃ clk, ReadsClock clk op ∧ TrustedExpired clk t r) ∨ OfferedExpired E t op r ∨
    (r = .snapshot ∧ (∃ clk raw, op = .targets clk raw) ∧ OfferedExpired E t op .targets)) ∧
  ∀ r, e = .missing r → NotTrusted t r

theorem Claim.of_not_about {E : Env} {t : Tuf} {op : Op} {e : Err} (h : ¬ AboutRole e) :
    Claim E t op e :=
  ⟨fun r hr => absurd ⟨r, .inl hr⟩ h, fun r hr => absurd ⟨r, .inr hr⟩ h⟩

theorem rootUnexpired_claim {E : Env} {t : Tuf} {op : Op} {clk : Clock} {e : Err}
    (h : t.rootUnexpired clk = .error e) (hc : ReadsClock clk op) : Claim E t op e := by
  unfold rootUnexpired at h
  split at h <;> cases h
  rename_i hx
  refine ⟨fun r hr => ?_, fun r hr => by cases hr⟩
  cases hr
  exact .inl ⟨clk, hc, hx⟩

theorem timestampUnexpired_claim {E : Env} {t : Tuf} {op : Op} {clk : Clock} {e : Err}
    (h : t.timestampUnexpired clk = .error e) (hc : ReadsClock clk op) : Claim E t op e := by
  unfold timestampUnexpired at h
  split at h
  · rename_i m hm
    split at h <;> cases h
    rename_i hx
    refine ⟨fun r hr => ?_, fun r hr => by cases hr⟩
    cases hr
    exact .inl ⟨clk, hc, m, hm, hx⟩
  · rename_i hm
    cases h
    refine ⟨fun r hr => (by cases hr), fun r hr => ?_⟩
    cases hr
    exact hm

theorem snapshotUnexpired_claim {E : Env} {t : Tuf} {op : Op} {clk : Clock} {e : Err}
    (h : t.snapshotUnexpired clk = .error e) (hc : ReadsClock clk op) : Claim E t op e := by
  unfold snapshotUnexpired at h
  split at h
  · rename_i m hm
    split at h <;> cases h
    rename_i hx
    refine ⟨fun r hr => ?_, fun r hr => by cases hr⟩
    cases hr
    exact .inl ⟨clk, hc, m, hm, hx⟩
  · rename_i hm
    cases h
    refine ⟨fun r hr => (by cases hr), fun r hr => ?_⟩
    cases hr
    exact hm

theorem targetsUnexpired_claim {E : Env} {t : Tuf} {op : Op} {clk : Clock} {e : Err}
    (h : t.targetsUnexpired clk = .error e) (hc : ReadsClock clk op) : Claim E t op e := by
  unfold targetsUnexpired at h
  split at h
  · rename_i m hm
    split at h <;> cases h
    rename_i hx
    refine ⟨fun r hr => ?_, fun r hr => by cases hr⟩
    cases hr
    exact .inl ⟨clk, hc, m, hm, hx⟩
  · rename_i hm
    cases h
    refine ⟨fun r hr => (by cases hr), fun r hr => ?_⟩
    cases hr
    exact hm

theorem updateRoot_not_about {E : Env} (q : DecoderErrors E) {t t' : Tuf} {raw : Bytes} {e : Err}
    (h : updateRoot E t raw = (.error e, t')) : ¬ AboutRole e := by
  unfold updateRoot at h
  split at h
  · rename_i he; cases h; exact verify_not_about q q.root he
  · split at h
    · rename_i he; cases h; exact verify_not_about q q.root he
    · split at h
      · cases h; simp [AboutRole]
      · split at h <;> cases h
        simp [AboutRole]

theorem updateTimestamp_errors {E : Env} (q : DecoderErrors E) {clk : Clock} {t t' : Tuf} {raw : Bytes}
    {e : Err} (h : updateTimestamp E clk t raw = (.error e, t')) :
    ¬ AboutRole e ∨ e = .expired .timestamp ∧ OfferedExpired E t (.timestamp clk raw) .timestamp := by
  unfold updateTimestamp at h
  split at h
  · rename_i he; cases h; exact .inl (verify_not_about q q.timestamp he)
  · rename_i new hv
    split at h
    · cases h; exact .inl (by simp [AboutRole])
    · split at h
      · cases h
      · dsimp only at h
        split at h
        · rename_i hx
          cases h
          exact .inr ⟨rfl, new, hx, (verifySignatures_ok_iff E _ _ _ _ _).1 hv⟩
        · cases h

theorem updateTimestamp_claim {E : Env} (q : DecoderErrors E) {clk : Clock} {t t' : Tuf} {raw : Bytes}
    {e : Err} (h : updateTimestamp E clk t raw = (.error e, t')) : Claim E t (.timestamp clk raw) e := by
  rcases updateTimestamp_errors q h with h | ⟨rfl, ho⟩
  · exact .of_not_about h
  · refine ⟨fun r hr => ?_, fun r hr => by cases hr⟩
    cases hr
    exact .inr (.inl ho)

theorem rootUnexpired_missing {t : Tuf} {clk : Clock} {r : Role} : t.rootUnexpired clk ≠ .error (.missing r) := by
  unfold rootUnexpired
  split <;> simp

theorem updateSnapshot_missing {E : Env} (q : DecoderErrors E) {clk : Clock} {t t' : Tuf} {raw : Bytes}
    {r : Role} (h : updateSnapshot E clk t raw = (.error (.missing r), t')) : t.timestamp = none := by
  unfold updateSnapshot at h
  split at h
  · rename_i he; cases h; exact absurd he rootUnexpired_missing
  · split at h
    · rename_i he
      cases h
      unfold timestampUnexpired at he
      split at he
      · split at he <;> cases he
      · assumption
    · dsimp only at h
      repeat' split at h
      all_goals cases h
      all_goals exact absurd ⟨r, .inr rfl⟩ (verify_not_about q q.snapshot ‹_›)

theorem updateTargets_missing {E : Env} (q : DecoderErrors E) {clk : Clock} {t t' : Tuf} {raw : Bytes}
    {r : Role} (h : updateTargets E clk t raw = (.error (.missing r), t')) : t.snapshot = none := by
  unfold updateTargets at h
  split at h
  · rename_i he; cases h; exact absurd he rootUnexpired_missing
  · split at h
    · rename_i he
      cases h
      unfold snapshotUnexpired at he
      split at he
      · split at he <;> cases he
      · assumption
    · repeat' split at h
      all_goals cases h
      all_goals exact absurd ⟨r, .inr rfl⟩ (verify_not_about q q.targets ‹_›)

theorem updateSnapshot_claim {E : Env} (q : DecoderErrors E) {clk : Clock} {t t' : Tuf} {raw : Bytes}
    {e : Err} (h : updateSnapshot E clk t raw = (.error e, t')) : Claim E t (.snapshot clk raw) e := by
  unfold updateSnapshot at h
  split at h
  · rename_i he; cases h; exact rootUnexpired_claim he rfl
  · split at h
    · rename_i he; cases h; exact timestampUnexpired_claim he rfl
    · split at h
      · cases h; exact .of_not_about (by simp [AboutRole])
      · split at h
        · cases h
        · split at h
          · rename_i he; cases h; exact .of_not_about (verify_not_about q q.snapshot he)
          · split at h
            · cases h; exact .of_not_about (by simp [AboutRole])
            · split at h
              · cases h; exact .of_not_about (by simp [AboutRole])
              · cases h

theorem updateTargets_claim {E : Env} (q : DecoderErrors E) {clk : Clock} {t t' : Tuf} {raw : Bytes}
    {e : Err} (h : updateTargets E clk t raw = (.error e, t')) : Claim E t (.targets clk raw) e := by
  unfold updateTargets at h
  split at h
  · rename_i he; cases h; exact rootUnexpired_claim he rfl
  · rename_i root hroot
    split at h
    · rename_i he; cases h; exact snapshotUnexpired_claim he rfl
    · split at h
      · cases h; exact .of_not_about (by simp [AboutRole])
      · split at h
        · cases h; exact .of_not_about (by simp [AboutRole])
        · split at h
          · cases h
          · split at h
            · rename_i he; cases h; exact .of_not_about (verify_not_about q q.targets he)
            · rename_i new hv
              split at h
              · cases h; exact .of_not_about (by simp [AboutRole])
              · split at h
                · rename_i hx
                  cases h
                  have : root = t.root := by
                    unfold rootUnexpired at hroot
                    split at hroot <;> cases hroot
                    rfl
                  subst this
                  refine ⟨fun r hr => ?_, fun r hr => by cases hr⟩
                  cases hr
                  exact .inr (.inr ⟨rfl, ⟨_, _, rfl⟩, new, hx, (verifySignatures_ok_iff E _ _ _ _ _).1 hv⟩)
                · cases h

theorem updateDelegation_claim {E : Env} (q : DecoderErrors E) {clk : Clock} {t t' : Tuf}
    {parent role : MetadataPath} {raw : Bytes} {e : Err}
    (h : updateDelegation E clk t parent role raw = (.error e, t')) :
    Claim E t (.delegation clk parent role raw) e := by
  unfold updateDelegation at h
  split at h
  · rename_i he; cases h; exact rootUnexpired_claim he rfl
  · split at h
    · rename_i he; cases h; exact snapshotUnexpired_claim he rfl
    · split at h
      · rename_i he; cases h; exact targetsUnexpired_claim he rfl
      · split at h
        · cases h; exact .of_not_about (by simp [AboutRole])
        · split at h
          · cases h; exact .of_not_about (by simp [AboutRole])
          · split at h
            · cases h; exact .of_not_about (by simp [AboutRole])
            · split at h
              · cases h; exact .of_not_about (by simp [AboutRole])
              · rename_i n keys hf
                split at h
                · rename_i he; cases h; exact .of_not_about (verify_not_about q q.targets he)
                · rename_i new hv
                  split at h
                  · cases h
                  · split at h
                    · cases h; exact .of_not_about (by simp [AboutRole])
                    · split at h
                      · rename_i hx
                        cases h
                        refine ⟨fun r hr => ?_, fun r hr => by cases hr⟩
                        cases hr
                        rw [findDelegation_eq_some_iff] at hf
                        obtain ⟨ds, d, hd, h1, h2⟩ := hf
                        subst h1 h2
                        exact .inr (.inl ⟨new, hx, ds, d, hd, (verifySignatures_ok_iff E _ _ _ _ _).1 hv⟩)
                      · cases h

theorem step_claim {E : Env} (q : DecoderErrors E) {t t' : Tuf} {op : Op} {e : Err}
    (h : step E t op = (.failed e, t')) : Claim E t op e := by
  unfold step at h
  split at h <;> split at h <;> cases h
  · rename_i hu; exact .of_not_about (updateRoot_not_about q hu)
  · rename_i hu; exact updateTimestamp_claim q hu
  · rename_i hu; exact updateSnapshot_claim q hu
  · rename_i hu; exact updateTargets_claim q hu
  · rename_i hu; exact updateDelegation_claim q hu

/-- **C93 (partial).** If an update call reports that metadata of a role have expired, then the
trusted metadata of that role have expired, or those that were offered. Missing: if expired targets
metadata are offered, the error names the snapshot role. -/
theorem C93_expired_names_role_partial (E : Env) (q : DecoderErrors E) (t t' : Tuf) (op : Op) (r : Role)
    (h : step E t op = (.failed (.expired r), t')) :
    (∃ clk, ReadsClock clk op ∧ TrustedExpired clk t r) ∨ OfferedExpired E t op r ∨
      (r = .snapshot ∧ (∃ clk raw, op = .targets clk raw) ∧ OfferedExpired E t op .targets) :=
  (step_claim q h).1 r rfl

/-- **C93.** If an update call reports that metadata of a role are missing, then none are trusted. -/
theorem C93_missing_names_role (E : Env) (q : DecoderErrors E) (t t' : Tuf) (op : Op) (r : Role)
    (h : step E t op = (.failed (.missing r), t')) : NotTrusted t r :=
  (step_claim q h).2 r rfl

/-- **C93.** What is missing above: whenever targets metadata meet every condition for being trusted
but have expired, the error blames the snapshot role, whose metadata are trusted and have not expired. -/
theorem C93_targets_blamed_on_snapshot (E : Env) (clk : Clock) (t : Tuf) (raw : Bytes)
    (sn : SnapshotMetadata) (m : MetadataDescription) (new : TargetsMetadata)
    (hroot : clk .root < t.root.expires) (hsn : t.snapshot = some sn) (hfresh : clk .snapshot < sn.expires)
    (hm : sn.metas.get? targetsName = some m) (hnewer : verOf (·.version) t.targets < m.version)
    (hv : new.version = m.version)
    (ha : Authentic E E.targetsFromSlice raw t.root.targets.threshold (targetsSigners t.root) new)
    (hx : new.expires ≤ clk .new) :
    step E t (.targets clk raw) = (.failed (.expired .snapshot), t) ∧ ¬ TrustedExpired clk t .snapshot := by
  constructor
  · have h1 : t.rootUnexpired clk = .ok t.root := by unfold rootUnexpired; rw [if_neg (by omega)]
    have h2 : t.snapshotUnexpired clk = .ok sn := by
      unfold snapshotUnexpired; simp only [hsn]; rw [if_neg (by omega)]
    have h3 : sn.metas.get? (MetadataPath.fromRole .targets) = some m := hm
    have h4 : ¬ m.version < t.targetsVersion := by rw [targetsVersion_eq]; omega
    have h5 : ¬ m.version = t.targetsVersion := by rw [targetsVersion_eq]; omega
    have h6 : verifySignatures E E.targetsFromSlice raw t.root.targets.threshold t.root.targetsKeys = .ok new :=
      (verifySignatures_ok_iff E _ _ _ _ _).2 ha
    simp only [step, updateTargets, h1, h2, h3, h4, h5, h6, hv, hx, if_false, if_true, ne_eq,
      not_true_eq_false]
  · rintro ⟨s, hs, hle⟩
    rw [hsn] at hs
    cases hs
    omega

/-- **C93.** The same for looking a target up in the trusted metadata; and if the target is reported
unavailable, the metadata that say so are trusted and current. -/
theorem C93_lookup_errors (clk : Clock) (t : Tuf) (path : VirtualTargetPath) (e : Err)
    (h : targetDescription clk t path = .error e) :
    (∀ r, e = .expired r → TrustedExpired clk t r) ∧ (∀ r, e = .missing r → NotTrusted t r) ∧
    (e = .targetUnavailable → clk .root < t.root.expires ∧
      (∃ sn, t.snapshot = some sn ∧ clk .snapshot < sn.expires) ∧
      ∃ ta, t.targets = some ta ∧ clk .targets < ta.expires ∧ ta.targets.get? path = none) := by
  have key : ∀ {e' : Err}, (∀ op, ReadsClock clk op → Claim Toy.env t op e') →
      (∀ r, e' = .expired r → TrustedExpired clk t r) ∧ (∀ r, e' = .missing r → NotTrusted t r) := by
    intro e' hc
    have := hc (.snapshot clk []) rfl
    refine ⟨fun r hr => ?_, this.2⟩
    rcases this.1 r hr with ⟨c, rfl, h⟩ | h | ⟨_, ⟨_, _, h⟩, _⟩
    · exact h
    · cases r <;> exact h.elim
    · cases h
  unfold targetDescription at h
  split at h
  · rename_i he
    cases h
    refine ⟨(key fun op ho => rootUnexpired_claim he ho).1, (key fun op ho => rootUnexpired_claim he ho).2, ?_⟩
    rintro rfl
    unfold rootUnexpired at he
    split at he <;> cases he
  · rename_i root hroot
    have h1 : clk .root < t.root.expires := by
      unfold rootUnexpired at hroot
      split at hroot
      · cases hroot
      · omega
    split at h
    · rename_i he
      cases h
      refine ⟨(key fun op ho => snapshotUnexpired_claim he ho).1,
        (key fun op ho => snapshotUnexpired_claim he ho).2, ?_⟩
      rintro rfl
      unfold snapshotUnexpired at he
      split at he
      · split at he <;> cases he
      · cases he
    · rename_i sn hsn
      have h2 : ∃ sn, t.snapshot = some sn ∧ clk .snapshot < sn.expires := by
        unfold snapshotUnexpired at hsn
        split at hsn
        · rename_i m hm
          split at hsn
          · cases hsn
          · exact ⟨m, hm, by omega⟩
        · cases hsn
      split at h
      · rename_i he
        cases h
        refine ⟨(key fun op ho => targetsUnexpired_claim he ho).1,
          (key fun op ho => targetsUnexpired_claim he ho).2, ?_⟩
        rintro rfl
        unfold targetsUnexpired at he
        split at he
        · split at he <;> cases he
        · cases he
      · rename_i ta hta
        have h3 : t.targets = some ta ∧ clk .targets < ta.expires := by
          unfold targetsUnexpired at hta
          split at hta
          · rename_i m hm
            split at hta <;> cases hta
            exact ⟨hm, by omega⟩
          · cases hta
        split at h
        · cases h
        · rename_i hg
          have fin : ∀ {e' : Err}, (∀ r, e' ≠ .expired r) → (∀ r, e' ≠ .missing r) →
              (∀ r, e' = .expired r → TrustedExpired clk t r) ∧ (∀ r, e' = .missing r → NotTrusted t r) ∧
              (e' = .targetUnavailable → clk .root < t.root.expires ∧
                (∃ sn, t.snapshot = some sn ∧ clk .snapshot < sn.expires) ∧
                ∃ ta, t.targets = some ta ∧ clk .targets < ta.expires ∧ ta.targets.get? path = none) :=
            fun a b => ⟨fun r hr => absurd hr (a r), fun r hr => absurd hr (b r),
              fun _ => ⟨h1, h2, ta, h3.1, h3.2, hg⟩⟩
          split at h
          · cases h; exact fin (by simp) (by simp)
          · split at h <;> cases h <;> exact fin (by simp) (by simp)

theorem not_about_encoding : ¬ AboutRole .encoding := by simp [AboutRole]

/-- **C93.** The assumption holds for JSON. -/
theorem C93_json (X : ShimLib) (ringVerify : Scheme → Bytes → Bytes → Bytes → Bool)
    (sigOrder : Map KeyId Signature → List (KeyId × Signature)) (h : ∀ m, (sigOrder m).Perm m) :
    DecoderErrors (jsonEnv X ringVerify sigOrder h) where
  parse := fun b e he => by rw [fromSlice_error he]; exact not_about_encoding
  canonicalize := fun b e he => by
    rw [Json.canonicalize_error he]
    simp [AboutRole]
  root := fun b e he => by rw [fromSlice_error he]; exact not_about_encoding
  timestamp := fun b e he => by rw [fromSlice_error he]; exact not_about_encoding
  snapshot := fun b e he => by rw [fromSlice_error he]; exact not_about_encoding
  targets := fun b e he => by rw [fromSlice_error he]; exact not_about_encoding

theorem toy_decoderErrors (w : Toy.World) : DecoderErrors w.env where
  parse := fun b e h => by rw [Toy.tab_error h]; exact not_about_encoding
  canonicalize := fun b e h => by cases h
  root := fun b e h => by rw [Toy.tab_error h]; exact not_about_encoding
  timestamp := fun b e h => by rw [Toy.tab_error h]; exact not_about_encoding
  snapshot := fun b e h => by rw [Toy.tab_error h]; exact not_about_encoding
  targets := fun b e h => by rw [Toy.tab_error h]; exact not_about_encoding

/-- The trusted snapshot has expired: the error of a targets update says so. -/
example : step Toy.env { Toy.full with snapshot := some (Toy.snapshot 1 50 [("targets", 2)]) }
      (.targets (Toy.clk 100) [31]) =
    (.failed (.expired .snapshot), { Toy.full with snapshot := some (Toy.snapshot 1 50 [("targets", 2)]) }) := by
  decide
/-- An expired timestamp is offered. -/
example : (step Toy.env Toy.full (.timestamp (Toy.clk 100) [12])).1 = .failed (.expired .timestamp) := by
  decide
example : step Toy.env Toy.boot (.snapshot (Toy.clk 100) [20]) = (.failed (.missing .timestamp), Toy.boot) := by
  decide

/-- A state in which the snapshot asks for newer targets metadata. -/
def wantsTargets : Tuf := { Toy.full with snapshot := some (Toy.snapshot 2 900 [("targets", 2)]) }

/-- Targets metadata that expired at 500 are offered at 600; the snapshot expires at 900. -/
example : step Toy.env wantsTargets (.targets (Toy.clk 600) [31]) =
    (.failed (.expired .snapshot), wantsTargets) := by decide
example : wantsTargets.snapshot.map (·.expires) = some 900 := by decide
example : targetDescription (Toy.clk 100) Toy.full "nowhere".toList = .error .targetUnavailable := by
  decide

end RustTuf.Props
