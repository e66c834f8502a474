import Verif.Model.Client

/-!
# Reasoning about `M`
`Tri P m Q X`: from a state with `P`, code `m` either succeeds with a value and state satisfying `Q`
or fails with an error and state satisfying `X`.
-/

namespace RustTuf
open Client
universe u

variable {σ α β : Type}

def Tri (P : σ → Prop) (m : M σ α) (Q : α → σ → Prop) (X : Err → σ → Prop) : Prop :=
  ∀ s, P s → match m s with
    | (.ok a, s') => Q a s'
    | (.error e, s') => X e s'

namespace Tri
variable {P P' : σ → Prop} {Q Q' : α → σ → Prop} {X X' : Err → σ → Prop}

theorem conseq {m : M σ α} (h : Tri P m Q X) (hP : ∀ s, P' s → P s)
    (hQ : ∀ a s, Q a s → Q' a s) (hX : ∀ e s, X e s → X' e s) : Tri P' m Q' X' := by
  intro s hs
  have := h s (hP s hs)
  split
  · rename_i heq; rw [heq] at this; exact hQ _ _ this
  · rename_i heq; rw [heq] at this; exact hX _ _ this

theorem pre {m : M σ α} (h : Tri P m Q X) (hP : ∀ s, P' s → P s) : Tri P' m Q X :=
  h.conseq hP (fun _ _ h => h) (fun _ _ h => h)

theorem post {m : M σ α} (h : Tri P m Q X) (hQ : ∀ a s, Q a s → Q' a s) : Tri P m Q' X :=
  h.conseq (fun _ h => h) hQ (fun _ _ h => h)

theorem bind {R : β → σ → Prop} {m : M σ α} {f : α → M σ β} (h : Tri P m Q X)
    (hf : ∀ a, Tri (Q a) (f a) R X) : Tri P (m >>= f) R X := by
  intro s hs
  have h1 := h s hs
  show match M.bind m f s with | (.ok a, s') => R a s' | (.error e, s') => X e s'
  unfold M.bind
  cases hm : m s with
  | mk r s' =>
    rw [hm] at h1
    cases r with
    | ok a => exact hf a s' h1
    | error e => exact h1

theorem ret {a : α} (h : ∀ s, P s → Q a s) : Tri P (Pure.pure a : M σ α) Q X := fun s hs => h s hs
theorem ret' {a : α} (h : ∀ s, P s → Q a s) : Tri P (M.pure a : M σ α) Q X := fun s hs => h s hs

theorem fail {e : Err} (h : ∀ s, P s → X e s) : Tri P (M.fail e : M σ α) Q X := fun s hs => h s hs

theorem ofExcept {r : Except Err α} (h1 : ∀ a s, r = .ok a → P s → Q a s)
    (h2 : ∀ e s, r = .error e → P s → X e s) : Tri P (M.ofExcept r) Q X := by
  intro s hs
  cases r with
  | ok a => exact h1 a s rfl hs
  | error e => exact h2 e s rfl hs

theorem attempt {m : M σ α} {Y : Err → σ → Prop} (h : Tri P m Q X)
    (hY : ∀ s, X .panic s → Y .panic s := by
      first | exact fun _ h => h | exact fun _ h => h.2 | exact fun _ h => h.elim | exact fun _ _ => trivial) :
    Tri P (M.attempt m) (fun r s => match r with | .ok a => Q a s | .error e => X e s) Y := by
  intro s hs
  have h1 := h s hs
  cases hm : m s with
  | mk r s' =>
    rw [hm] at h1
    cases r with
    | ok a => rw [M.attempt_ok hm]; exact h1
    | error e =>
      by_cases he : e = .panic
      · subst he; rw [M.attempt_panic hm]; exact hY _ h1
      · rw [M.attempt_error hm he]; exact h1

theorem when {b : Bool} {m : M σ Unit} {Q : Unit → σ → Prop} (h : b = true → Tri P m Q X)
    (h' : b = false → ∀ s, P s → Q () s) : Tri P (M.when b m) Q X := by
  unfold M.when
  cases b with
  | true => exact h rfl
  | false => exact ret' (h' rfl)

theorem ite {c : Prop} [Decidable c] {m n : M σ α} (h : c → Tri P m Q X) (h' : ¬ c → Tri P n Q X) :
    Tri P (if c then m else n) Q X := by
  split
  · exact h ‹_›
  · exact h' ‹_›

/-- Facts that do not mention the state can be moved out of the precondition. -/
theorem assume {m : M σ α} {p : Prop} (h : p → Tri P m Q X) : Tri (fun s => p ∧ P s) m Q X :=
  fun s hs => h hs.1 s hs.2

theorem ex {ι : Sort u} {P : ι → σ → Prop} {m : M σ α} (h : ∀ i, Tri (P i) m Q X) :
    Tri (fun s => ∃ i, P i s) m Q X := fun s ⟨i, hs⟩ => h i s hs

/-- Fix the initial state. -/
theorem fix {m : M σ α} (h : ∀ s0, P s0 → Tri (fun s => s = s0) m Q X) : Tri P m Q X :=
  fun s hs => h s hs s rfl

theorem run_ok {m : M σ α} (h : Tri P m Q X) {s s' : σ} {a : α} (hs : P s) (e : m s = (.ok a, s')) :
    Q a s' := by have := h s hs; rw [e] at this; exact this

theorem run_error {m : M σ α} (h : Tri P m Q X) {s s' : σ} {x : Err} (hs : P s)
    (e : m s = (.error x, s')) : X x s' := by have := h s hs; rw [e] at this; exact this

end Tri

section client
variable {W : Type}

theorem Tri.getTuf {P : St W → Prop} {X : Err → St W → Prop} :
    Tri P getTuf (fun t s => t = s.tuf ∧ P s) X := fun _ hs => ⟨rfl, hs⟩

theorem Tri.getClock {R : World W} {P : St W → Prop} {Q : Clock → St W → Prop}
    {X : Err → St W → Prop}
    (h : ∀ s, P s → Q (R.clock s.io.w).1 { s with io := { s.io with w := (R.clock s.io.w).2 } }) :
    Tri P (getClock R) Q X := fun s hs => h s hs

theorem Tri.lift {m : M (Io W) α} {P : Io W → Prop} {Q : α → Io W → Prop} {X : Err → Io W → Prop}
    (h : Tri P m Q X) (t : Tuf) :
    Tri (fun s => s.tuf = t ∧ P s.io) (lift m) (fun a s => s.tuf = t ∧ Q a s.io)
      (fun e s => s.tuf = t ∧ X e s.io) := by
  rintro ⟨t', io⟩ ⟨rfl, hs⟩
  have h1 := h io hs
  unfold Client.lift
  cases hm : m io with
  | mk r s' =>
    rw [hm] at h1
    cases r with
    | ok a => exact ⟨rfl, h1⟩
    | error e => exact ⟨rfl, h1⟩

theorem Tri.updateTuf {E : Env} {op : Tuf.Op} {P : St W → Prop} {Q : Tuf.Outcome → St W → Prop}
    {X : Err → St W → Prop}
    (h : ∀ s o t', P s → Tuf.step E s.tuf op = (o, t') →
      match o with
      | .failed e => X e ⟨t', { s.io with log := s.io.log ++ [.op op o] }⟩
      | o => Q o ⟨t', { s.io with log := s.io.log ++ [.op op o] }⟩) :
    Tri P (Client.updateTuf E op) Q X := by
  intro s hs
  cases hst : Tuf.step E s.tuf op with
  | mk o t' =>
    have h1 := h s o t' hs hst
    unfold Client.updateTuf
    rw [hst]
    cases o <;> exact h1

end client

end RustTuf
