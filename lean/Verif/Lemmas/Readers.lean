import Verif.Spec.Readers
import Verif.Lemmas.Map

namespace RustTuf
open Spec

theorem SafeReader.poll_cons (D : Digest) (s : SafeReader) (b : UInt8) (bs : Bytes) :
    s.poll D (.data (b :: bs)) =
    if s.bytesRead + (b :: bs).length ≤ u64Max ∧ s.bytesRead + (b :: bs).length ≤ s.maxSize then
      (.data (b :: bs), { s with
        bytesRead := s.bytesRead + (b :: bs).length
        hasher := s.hasher.map fun (alg, ctx, v) => (alg, ctx ++ (b :: bs), v) })
    else (.err .invalidData, s) := rfl

/-- The reader after `acc` has passed through it. -/
def SafeReader.At (s : SafeReader) (max : Nat) (expect : Option (HashAlg × HashValue))
    (acc : Bytes) : Prop :=
  s.maxSize = max ∧ s.bytesRead = acc.length ∧
  s.hasher = expect.map fun (alg, v) => (alg, acc, v)

theorem SafeReader.new_at {max : Nat} {expect : Option (HashAlg × HashValue)} {s : SafeReader}
    (h : SafeReader.new max expect = .ok s) : s.At max expect [] := by
  unfold SafeReader.new at h
  split at h
  · cases h; exact ⟨rfl, rfl, rfl⟩
  · rename_i alg v
    cases alg <;> simp only [digestContext] at h <;> cases h <;> exact ⟨rfl, rfl, rfl⟩

theorem SafeReader.At.push {s : SafeReader} {max : Nat} {expect} {acc : Bytes}
    (h : s.At max expect acc) (b : UInt8) (bs : Bytes) :
    SafeReader.At { s with
        bytesRead := s.bytesRead + (b :: bs).length
        hasher := s.hasher.map fun (alg, ctx, v) => (alg, ctx ++ (b :: bs), v) }
      max expect (acc ++ b :: bs) := by
  obtain ⟨h1, h2, h3⟩ := h
  refine ⟨h1, by simp [h2], ?_⟩
  simp only [h3]
  cases expect <;> rfl

theorem readToEnd_eq_aux (D : Digest) (max : Nat) (hmax : max ≤ u64Max)
    (expect : Option (HashAlg × HashValue)) (evs : List Ev) :
    ∀ (s : SafeReader) (acc : Bytes), s.At max expect acc → acc.length ≤ max →
      s.readToEnd D evs acc =
        checkedRead D max expect (acc ++ (delivered evs).1, (delivered evs).2) := by
  have finish : ∀ (s : SafeReader) (acc : Bytes), s.At max expect acc → acc.length ≤ max →
      (∀ k s', s.poll D (.data []) = (.err k, s') →
        checkedRead D max expect (acc, .eof) = .error k) ∧
      (∀ k s', s.poll D (.data []) = (.data k, s') →
        k = [] ∧ checkedRead D max expect (acc, .eof) = .ok acc) ∧
      (∀ s', s.poll D (.data []) ≠ (.pending, s')) := by
    intro s acc hs hlen
    obtain ⟨h1, h2, h3⟩ := hs
    have hn : ¬ acc.length > max := by omega
    simp only [SafeReader.poll, checkedRead, h3]
    cases expect with
    | none => refine ⟨?_, ?_, ?_⟩ <;> simp [hn]
    | some p =>
      obtain ⟨alg, v⟩ := p
      simp only [Option.map_some]
      by_cases hd : D alg acc = v
      · simp [hd, hn]
      · simp only [ne_eq, hd, not_false_eq_true, if_true, if_false, hn]
        refine ⟨?_, ?_, ?_⟩
        · intro k s' h; cases h; rfl
        · intro k s' h; cases h
        · intro s' h; cases h
  induction evs with
  | nil =>
    intro s acc hs hlen
    obtain ⟨f1, f2, f3⟩ := finish s acc hs hlen
    unfold SafeReader.readToEnd
    simp only [delivered, List.append_nil]
    rcases hp : s.poll D (.data []) with ⟨ev, s'⟩
    cases ev with
    | data bs => simp only []; rw [(f2 _ _ hp).2]
    | err k => simp only []; rw [f1 _ _ hp]
    | pending => exact absurd hp (f3 _)
  | cons ev evs ih =>
    intro s acc hs hlen
    cases ev with
    | pending => simp only [SafeReader.readToEnd, SafeReader.poll, delivered]; exact ih s acc hs hlen
    | err k =>
      have hn : ¬ acc.length > max := by omega
      simp [SafeReader.readToEnd, SafeReader.poll, delivered, checkedRead, hn]
    | data bs =>
      cases bs with
      | nil =>
        obtain ⟨f1, f2, f3⟩ := finish s acc hs hlen
        unfold SafeReader.readToEnd
        simp only [delivered, if_true, List.append_nil]
        rcases hp : s.poll D (.data []) with ⟨ev, s'⟩
        cases ev with
        | data bs => obtain ⟨rfl, e⟩ := f2 _ _ hp; simp only []; rw [e]
        | err k => simp only []; rw [f1 _ _ hp]
        | pending => exact absurd hp (f3 _)
      | cons b bs =>
        unfold SafeReader.readToEnd
        rw [SafeReader.poll_cons]
        have e : delivered (.data (b :: bs) :: evs) =
          ((b :: bs) ++ (delivered evs).1, (delivered evs).2) := by simp [delivered]
        rw [e]
        obtain ⟨h1, h2, h3⟩ := hs
        by_cases hb : s.bytesRead + (b :: bs).length ≤ u64Max ∧
            s.bytesRead + (b :: bs).length ≤ s.maxSize
        · rw [if_pos hb]
          simp only []
          rw [ih _ (acc ++ b :: bs) (SafeReader.At.push ⟨h1, h2, h3⟩ b bs)
            (by rw [List.length_append]; omega)]
          simp only [List.append_assoc]
        · rw [if_neg hb]
          have : (acc ++ ((b :: bs) ++ (delivered evs).1)).length > max := by
            simp only [List.length_append]
            omega
          simp only [checkedRead, if_pos this]

theorem readToEnd_eq (D : Digest) (max : Nat) (hmax : max ≤ u64Max)
    (expect : Option (HashAlg × HashValue)) (evs : List Ev) (s : SafeReader)
    (h : SafeReader.new max expect = .ok s) :
    s.readToEnd D evs [] = checkedRead D max expect (delivered evs) := by
  have := readToEnd_eq_aux D max hmax expect evs s [] (SafeReader.new_at h) (by simp)
  simpa using this

end RustTuf
