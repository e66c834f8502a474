import Verif.Lemmas.Keeps
import Verif.Spec.During

/-!
# Lemmas on what happens to the outside world during a call
-/

namespace RustTuf
open Client Spec
variable {W : Type} {E : Env} {D : Digest} {R : World W} {cfg : Config} {w w' w'' : W} {P Q : W → Prop}

theorem Spec.Evolves.trans (h : Evolves R w w') (h' : Evolves R w' w'') : Evolves R w w'' := by
  induction h' with
  | refl => exact h
  | step a b _ ha ih => exact .step _ _ _ ih ha

theorem Spec.During.later (h : During R w w' P) (h' : Evolves R w' w'') : During R w w'' P := by
  obtain ⟨x, h1, h2, h3⟩ := h
  exact ⟨x, h1, h2, h3.trans h'⟩

theorem Spec.During.imp (h : During R w w' P) (hp : ∀ x, P x → Q x) : During R w w' Q := by
  obtain ⟨x, h1, h2, h3⟩ := h
  exact ⟨x, h1, hp x h2, h3⟩

/-- Code that does nothing but the actions. -/
def Acts {α : Type} (R : World W) (m : M (Io W) α) : Prop :=
  ∀ w, Keeps (fun io : Io W => Evolves R w io.w) m

theorem acts_call {α : Type} {f : W → Except Err α × W} (h : ∀ w, Action R w (f w).2) :
    Acts R (Io.call f) := by
  intro w io hio
  have ha := h io.w
  unfold Io.call
  cases hf : f io.w with
  | mk r x =>
    rw [hf] at ha
    cases r <;> exact hio.step _ _ _ ha

theorem acts_note (e : LogEntry) : Acts R (Io.note e) := fun _ _ hio => hio

theorem acts_fetch (src : Source) (role : Role) (p : MetadataPath) (v : MetadataVersion)
    (mx : Option Nat) (h : HashData) : Acts R (fetchMetadata D R src role p v mx h) := by
  intro w
  unfold fetchMetadata
  refine (Keeps.ofExcept _).bind fun _ => (acts_note _ w).bind fun _ => ?_
  refine (acts_call (fun x => ?_) w).bind fun evs => (Keeps.ofExcept _).bind fun raw => ?_
  · cases src
    · exact .fetchRemote ..
    · exact .fetchCache ..
  · exact (acts_note _ w).bind fun _ => Keeps.ret _

theorem acts_store (role : Role) (p : MetadataPath) (v : MetadataVersion) (raw : Bytes) :
    Acts R (storeMetadata R role p v raw) := by
  intro w
  unfold storeMetadata
  exact (Keeps.ofExcept _).bind fun _ => (acts_note _ w).bind fun _ => acts_call (fun x => .store ..) w

theorem Acts.lift {α : Type} {m : M (Io W) α} (h : Acts R m) (w : W) :
    Keeps (fun s : St W => Evolves R w s.io.w) (lift m) := by
  intro s hs
  have h1 := h w s.io hs
  unfold Client.lift
  cases hm : m s.io with
  | mk r io' =>
    rw [hm] at h1
    cases r <;> exact h1

/-- The client does nothing else to the outside world. -/
theorem evolves_prims (w : W) : Prims E D R (fun s : St W => Evolves R w s.io.w) (fun _ => True) True
    (fun _ => True) where
  fetch := fun src _ role p v mx h => (acts_fetch src role p v mx h).lift w
  store := fun _ role p v raw => (acts_store role p v raw).lift w
  clock := fun _ hs => hs.step _ _ _ (.clock _)
  op := fun o _ => Tri.updateTuf fun s o t' hs _ => by cases o <;> exact hs

theorem evolves_top (w : W) : Prims E D R (fun s : St W => Evolves R w s.io.w) (fun _ => True) True TopOp :=
  ⟨(evolves_prims (E := E) w).fetch, (evolves_prims (E := E) (D := D) w).store,
    (evolves_prims (E := E) (D := D) w).clock, fun o _ => (evolves_prims (D := D) w).op o trivial⟩

/-- The state after running client code comes from the state before by actions. -/
theorem evolves_of_keeps {α : Type} {m : M (St W) α} {s s' : St W} {r : Except Err α}
    (h : ∀ w, Keeps (fun s : St W => Evolves R w s.io.w) m) (e : m s = (r, s')) :
    Evolves R s.io.w s'.io.w := by
  have := (h s.io.w).run (s := s) (.refl _)
  rw [e] at this
  exact this

/-- `update_root_with_repos` succeeds only if the clock showed, during the call, a time before the
expiry of the root that is trusted then. -/
theorem updateRoot_clock (src : Source) (persist : Bool) (w0 : W) :
    Tri (fun s : St W => Evolves R w0 s.io.w) (updateRootWithRepos E D R cfg src persist)
      (fun _ s => During R w0 s.io.w fun w => (R.clock w).1 .root < s.tuf.root.expires)
      (fun _ _ => True) := by
  unfold updateRootWithRepos
  refine Tri.bind (Q := fun _ (s : St W) => Evolves R w0 s.io.w)
    (((evolves_top w0).rootLoop src trivial persist (fun _ => trivial) _ _).conseq (fun _ h => h)
      (fun _ _ h => h) (fun _ _ _ => trivial)) fun b => ?_
  refine Tri.fix fun s0 h0 => ?_
  refine Tri.bind (Q := fun c (s : St W) => c = (R.clock s0.io.w).1 ∧ s.tuf = s0.tuf ∧
    s.io.w = (R.clock s0.io.w).2) (Tri.getClock (by rintro s rfl; exact ⟨rfl, rfl, rfl⟩)) fun c =>
    Tri.assume fun hc => ?_
  refine Tri.bind (Q := fun (t : Tuf) (s : St W) => t = s0.tuf ∧ s.tuf = s0.tuf ∧
    s.io.w = (R.clock s0.io.w).2) (fun s hs => ⟨hs.1, hs⟩) fun t => Tri.assume fun ht => ?_
  refine Tri.ite (fun _ => Tri.fail fun s hs => trivial) (fun hlt => Tri.ret fun s hs => ?_)
  refine ⟨s0.io.w, h0, ?_, ?_⟩
  · show (R.clock s0.io.w).1 .root < s.tuf.root.expires
    rw [hs.1, ← hc, ← ht]
    exact Int.not_le.1 hlt
  · rw [hs.2]
    exact .step _ _ _ (.refl _) (.clock _)

end RustTuf
