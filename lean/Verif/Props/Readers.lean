import Verif.Lemmas.Readers

/-! Properties of checked streams and digests: C47, C48, C49, C55, C63, C64. -/

namespace RustTuf
open Spec

/-! ## C47 Reads never exceed the announced length -/

theorem polls_bound (D : Digest) (evs : List Ev) : ∀ s : SafeReader, s.bytesRead ≤ s.maxSize →
    s.bytesRead + (handedOut (s.polls D evs)).length ≤ s.maxSize := by
  induction evs with
  | nil => intro s h; simpa [SafeReader.polls, handedOut] using h
  | cons ev evs ih =>
    intro s h
    cases ev with
    | pending => simpa [SafeReader.polls, SafeReader.poll, handedOut] using ih s h
    | err k => simpa [SafeReader.polls, SafeReader.poll, handedOut] using ih s h
    | data bs =>
      cases bs with
      | nil =>
        have key : ∀ ev s', s.poll D (.data []) = (ev, s') → s'.bytesRead = s.bytesRead ∧
            s'.maxSize = s.maxSize ∧ ∀ evs, handedOut (ev :: evs) = handedOut evs := by
          intro ev s' he
          simp only [SafeReader.poll] at he
          split at he
          · split at he <;> (cases he; simp [handedOut])
          · cases he; simp [handedOut]
        unfold SafeReader.polls
        obtain ⟨k1, k2, k3⟩ := key (s.poll D (.data [])).1 (s.poll D (.data [])).2 rfl
        rw [k3, ← k1, ← k2]
        exact ih _ (by omega)
      | cons b bs =>
        unfold SafeReader.polls
        rw [SafeReader.poll_cons]
        split
        · rename_i hb
          have := ih { s with
            bytesRead := s.bytesRead + (b :: bs).length
            hasher := s.hasher.map fun (alg, ctx, v) => (alg, ctx ++ (b :: bs), v) } hb.2
          simp only [handedOut, List.length_append] at this ⊢
          omega
        · simp only [handedOut]; exact ih s h

/-- Whatever the source does and however long the consumer keeps polling, even after errors, it
never receives more than `max` bytes in total. -/
theorem C47_never_more_than_limit (D : Digest) (max : Nat) (expect : Option (HashAlg × HashValue))
    (s : SafeReader) (h : SafeReader.new max expect = .ok s) (evs : List Ev) :
    (handedOut (s.polls D evs)).length ≤ max := by
  obtain ⟨h1, h2, _⟩ := SafeReader.new_at h
  have := polls_bound D evs s (by rw [h1, h2]; simp)
  rw [h1, h2] at this
  simpa using this

/-- If the source would deliver more than `max` bytes before it ends, the complete read fails. -/
theorem C47_oversize_fails (D : Digest) (max : Nat) (hmax : max ≤ u64Max)
    (expect : Option (HashAlg × HashValue)) (s : SafeReader)
    (h : SafeReader.new max expect = .ok s) (evs : List Ev) (hbig : max < (delivered evs).1.length) :
    s.readToEnd D evs [] = .error .invalidData := by
  rw [readToEnd_eq D max hmax expect evs s h]
  simp [checkedRead, hbig]

/-- Data up to the limit is handed out unchanged: exactly `max` bytes are still accepted. -/
theorem C47_within_limit_passes (D : Digest) (max : Nat) (hmax : max ≤ u64Max) (s : SafeReader)
    (h : SafeReader.new max none = .ok s) (evs : List Ev) (hok : (delivered evs).1.length ≤ max)
    (heof : (delivered evs).2 = .eof) : s.readToEnd D evs [] = .ok (delivered evs).1 := by
  rw [readToEnd_eq D max hmax none evs s h]
  simp [checkedRead, heof, hok]

example : SafeReader.new 3 none = .ok ⟨3, none, 0⟩ ∧
    (SafeReader.mk 3 none 0).polls (fun _ b => b) [.data [1, 2], .pending, .data [3, 4], .data [5], .data [6]] =
      [.data [1, 2], .pending, .err .invalidData, .data [5], .err .invalidData] ∧
    delivered [.data [1, 2], .pending, .data [3, 4]] = ([1, 2, 3, 4], .eof) := by decide

/-! ## C48 Reads complete only with the right digest -/

/-- A complete read that succeeds returns what the source delivered, the source ended normally, the
length is within the limit and the digest is the expected one. Conversely such a source is read
successfully. -/
theorem C48_success_iff (D : Digest) (max : Nat) (hmax : max ≤ u64Max) (alg : HashAlg)
    (v : HashValue) (s : SafeReader) (h : SafeReader.new max (some (alg, v)) = .ok s)
    (evs : List Ev) (bs : Bytes) :
    s.readToEnd D evs [] = .ok bs ↔
      delivered evs = (bs, .eof) ∧ bs.length ≤ max ∧ D alg bs = v := by
  rw [readToEnd_eq D max hmax _ evs s h]
  rcases delivered evs with ⟨d, ending⟩
  simp only [checkedRead]
  by_cases hl : d.length > max
  · rw [if_pos hl]
    constructor
    · intro h; cases h
    · rintro ⟨h, h', _⟩; cases h; omega
  · rw [if_neg hl]
    cases ending with
    | error k =>
      constructor
      · intro h; cases h
      · rintro ⟨h, _⟩; cases h
    | eof =>
      simp only []
      constructor
      · intro h
        split at h
        · rename_i hd; cases h; exact ⟨rfl, by omega, hd⟩
        · cases h
      · rintro ⟨h, _, hd⟩; cases h; rw [if_pos hd]

/-- A consumer that polls by hand: the first time it is told the stream has ended, if no error was
reported before, the digest of all bytes it received is the expected one. -/
theorem C48_streaming (D : Digest) (max : Nat) (alg : HashAlg) (v : HashValue) (s : SafeReader)
    (h : SafeReader.new max (some (alg, v)) = .ok s) (evs : List Ev) (pre post : List Ev)
    (hp : s.polls D evs = pre ++ .data [] :: post)
    (hpre : ∀ e ∈ pre, e ≠ .data [] ∧ ∀ k, e ≠ .err k) : D alg (handedOut pre) = v := by
  have gen : ∀ (evs pre : List Ev) (s : SafeReader) (acc : Bytes), s.At max (some (alg, v)) acc →
      s.polls D evs = pre ++ .data [] :: post → (∀ e ∈ pre, e ≠ .data [] ∧ ∀ k, e ≠ .err k) →
      D alg (acc ++ handedOut pre) = v := by
    intro evs
    induction evs with
    | nil => intro pre s acc _ hp; cases pre <;> simp [SafeReader.polls] at hp
    | cons ev evs ih =>
      intro pre s acc hat hp hpre
      unfold SafeReader.polls at hp
      cases ev with
      | pending =>
        simp only [SafeReader.poll] at hp
        cases pre with
        | nil => simp at hp
        | cons e pre =>
          simp only [List.cons_append, List.cons.injEq] at hp
          obtain ⟨rfl, hp⟩ := hp
          exact ih pre s acc hat hp (fun e he => hpre e (by simp [he]))
      | err k =>
        simp only [SafeReader.poll] at hp
        cases pre with
        | nil => simp at hp
        | cons e pre =>
          simp only [List.cons_append, List.cons.injEq] at hp
          exact absurd hp.1.symm ((hpre e (by simp)).2 k)
      | data bs =>
        cases bs with
        | nil =>
          obtain ⟨h1, h2, h3⟩ := hat
          simp only [SafeReader.poll, h3, Option.map_some] at hp
          by_cases hd : D alg acc = v
          · rw [if_neg (by simp [hd])] at hp
            cases pre with
            | nil => simpa [handedOut] using hd
            | cons e pre =>
              simp only [List.cons_append, List.cons.injEq] at hp
              exact absurd hp.1.symm (hpre e (by simp)).1
          · rw [if_pos (by simpa using hd)] at hp
            cases pre with
            | nil => simp at hp
            | cons e pre =>
              simp only [List.cons_append, List.cons.injEq] at hp
              exact absurd hp.1.symm ((hpre e (by simp)).2 _)
        | cons b bs =>
          rw [SafeReader.poll_cons] at hp
          split at hp
          · cases pre with
            | nil => simp at hp
            | cons e pre =>
              simp only [List.cons_append, List.cons.injEq] at hp
              obtain ⟨rfl, hp⟩ := hp
              have := ih pre _ _ (hat.push b bs) hp (fun e he => hpre e (by simp [he]))
              simpa [handedOut] using this
          · cases pre with
            | nil => simp at hp
            | cons e pre =>
              simp only [List.cons_append, List.cons.injEq] at hp
              exact absurd hp.1.symm ((hpre e (by simp)).2 _)
  simpa using gen evs pre s [] (SafeReader.new_at h) hp hpre

/-- The check is made once: a consumer that ignores the error and polls again is told the stream
ended normally. (Hence "the first time" and "no error before" above cannot be dropped.) -/
theorem C48_error_not_sticky (D : Digest) (max : Nat) (alg : HashAlg) (v : HashValue)
    (s : SafeReader) (h : SafeReader.new max (some (alg, v)) = .ok s) (hd : D alg [] ≠ v) :
    s.polls D [.data [], .data []] = [.err .invalidData, .data []] := by
  obtain ⟨h1, h2, h3⟩ := SafeReader.new_at h
  simp [SafeReader.polls, SafeReader.poll, h3, hd]

/-- An unsupported algorithm is refused before anything is read. -/
theorem C48_unsupported_refused (max : Nat) (a : HashAlg) (v : HashValue) :
    (∃ s, SafeReader.new max (some (a, v)) = .ok s) ↔ a = .sha256 ∨ a = .sha512 := by
  cases a <;> simp [SafeReader.new, digestContext]

example : SafeReader.new 9 (some (.sha256, [3])) = .ok ⟨9, some (.sha256, [], [3]), 0⟩ ∧
    (SafeReader.mk 9 (some (.sha256, [], [3])) 0).readToEnd (fun _ b => [b.foldl (· + ·) 0])
      [.data [1], .pending, .data [2]] [] = .ok [1, 2] ∧
    (SafeReader.mk 9 (some (.sha256, [], [3])) 0).readToEnd (fun _ b => [b.foldl (· + ·) 0])
      [.data [1], .data [1]] [] = .error .invalidData := by decide

/-! ## C49 Reading does not depend on chunking -/

/-- The outcome of a complete read is a function of the bytes delivered and the way the source
ends. -/
theorem C49_outcome (D : Digest) (max : Nat) (hmax : max ≤ u64Max)
    (expect : Option (HashAlg × HashValue)) (s : SafeReader)
    (h : SafeReader.new max expect = .ok s) (evs : List Ev) :
    s.readToEnd D evs [] = checkedRead D max expect (delivered evs) :=
  readToEnd_eq D max hmax expect evs s h

/-- Two sources that deliver the same bytes and end in the same way give the same outcome. -/
theorem C49_chunking_independent (D : Digest) (max : Nat) (hmax : max ≤ u64Max)
    (expect : Option (HashAlg × HashValue)) (s : SafeReader)
    (h : SafeReader.new max expect = .ok s) (evs evs' : List Ev)
    (he : delivered evs = delivered evs') : s.readToEnd D evs [] = s.readToEnd D evs' [] := by
  rw [readToEnd_eq D max hmax expect evs s h, readToEnd_eq D max hmax expect evs' s h, he]

example : delivered [.data [1, 2], .pending, .data [3]] =
      delivered [.pending, .data [1], .data [2, 3], .data [], .data [9]] ∧
    (delivered [.data [1, 2], .err .timedOut, .data [3]]) = ([1, 2], .error .timedOut) := by decide

/-! ## C55 Strongest available hash is chosen -/

theorem C55_preference (hashes : Map HashAlg HashValue) :
    (∀ v, hashes.get? .sha512 = some v → hashPreference hashes = .ok (.sha512, v)) ∧
    (∀ v, hashes.get? .sha512 = none → hashes.get? .sha256 = some v →
      hashPreference hashes = .ok (.sha256, v)) ∧
    (hashes.get? .sha512 = none → hashes.get? .sha256 = none →
      hashPreference hashes = .error .noSupportedHash) := by
  refine ⟨?_, ?_, ?_⟩
  · intro v h; simp [hashPreference, hashAlgPrefs, hashPreferenceIn, h]
  · intro v h h'; simp [hashPreference, hashAlgPrefs, hashPreferenceIn, h, h']
  · intro h h'; simp [hashPreference, hashAlgPrefs, hashPreferenceIn, h, h']

/-- The choice depends only on the two supported entries: not on map order, nor on others. -/
theorem C55_depends_only_on_supported (m m' : Map HashAlg HashValue)
    (h : m.get? .sha512 = m'.get? .sha512) (h' : m.get? .sha256 = m'.get? .sha256) :
    hashPreference m = hashPreference m' := by
  simp [hashPreference, hashAlgPrefs, hashPreferenceIn, h, h']

/-- The chosen digest is listed, and its algorithm is one the stream checker supports: a download
checked by preference is never refused for its algorithm. -/
theorem C55_choice_is_usable (m : Map HashAlg HashValue) (a : HashAlg) (v : HashValue) (max : Nat)
    (h : hashPreference m = .ok (a, v)) :
    m.get? a = some v ∧ ∃ s, SafeReader.new max (some (a, v)) = .ok s := by
  simp only [hashPreference, hashAlgPrefs, hashPreferenceIn] at h
  split at h
  · rename_i h1; cases h; exact ⟨h1, _, rfl⟩
  · split at h
    · rename_i h1; cases h; exact ⟨h1, _, rfl⟩
    · cases h

example : hashPreference [(.unknown "md5".toList, [7]), (.sha256, [1]), (.sha512, [2])] =
      .ok (.sha512, [2]) ∧
    hashPreference [(.sha256, [1]), (.unknown "md5".toList, [7])] = .ok (.sha256, [1]) ∧
    hashPreference [(.unknown "md5".toList, [7])] = .error .noSupportedHash := by decide

/-! ## C63 Computed digests are those of the whole input -/

/-- An algorithm `ring` supports. -/
def Spec.Supported (a : HashAlg) : Prop := a = .sha256 ∨ a = .sha512

theorem contextsFor_spec (algs : List HashAlg) : ∀ m : Map HashAlg Bytes,
    (∀ p ∈ m, p.2 = []) →
    ((∀ a ∈ algs, Supported a) → ∃ m', contextsFor algs m = .ok m' ∧ (∀ p ∈ m', p.2 = []) ∧
      ∀ a, m'.get? a = if a ∈ algs then some [] else m.get? a) ∧
    ((∃ a ∈ algs, ¬ Supported a) → contextsFor algs m = .error .illegalArgument) := by
  induction algs with
  | nil => intro m hm; exact ⟨fun _ => ⟨m, rfl, hm, by simp⟩, by simp⟩
  | cons a as ih =>
    intro m hm
    have step : Supported a → contextsFor (a :: as) m = contextsFor as (m.insert a []) := by
      rintro (rfl | rfl) <;> rfl
    have hins : ∀ p ∈ m.insert a [], p.2 = [] := by
      intro p hp
      simp only [Map.insert, List.mem_cons] at hp
      rcases hp with rfl | hp
      · rfl
      · exact hm p (List.mem_filter.1 hp).1
    constructor
    · intro h
      rw [step (h a (by simp))]
      obtain ⟨m', e, h1, h2⟩ := (ih _ hins).1 (fun x hx => h x (by simp [hx]))
      refine ⟨m', e, h1, fun b => ?_⟩
      rw [h2]
      by_cases hb : b ∈ as
      · simp [hb]
      · by_cases hab : b = a
        · subst hab; simp [hb, Map.get?_insert]
        · simp [hb, hab, Map.get?_insert]
    · rintro ⟨x, hx, hbad⟩
      by_cases ha : Supported a
      · rw [step ha]
        refine (ih _ hins).2 ⟨x, ?_, hbad⟩
        rcases List.mem_cons.1 hx with rfl | h
        · exact absurd ha hbad
        · exact h
      · cases a with
        | sha256 => exact absurd (.inl rfl) ha
        | sha512 => exact absurd (.inr rfl) ha
        | unknown s => rfl

theorem get?_map_snd {K V W : Type} [DecidableEq K] (f : K → V → W) (m : Map K V) (k : K) :
    Map.get? (m.map fun p => (p.1, f p.1 p.2)) k = (m.get? k).map (f k) := by
  induction m with
  | nil => rfl
  | cons p m ih =>
    obtain ⟨k', v⟩ := p
    simp only [List.map_cons, Map.get?]
    by_cases h : k' = k
    · subst h; simp
    · simp [h, ih]

theorem hashLoop_spec (evs : List Ev) : ∀ (n : Nat) (m : Map HashAlg Bytes),
    hashLoop evs n m = match (delivered evs).2 with
      | .error k => .error k
      | .eof => .ok (n + (delivered evs).1.length, m.map fun p => (p.1, p.2 ++ (delivered evs).1)) := by
  induction evs with
  | nil => intro n m; simp [hashLoop, delivered]
  | cons ev evs ih =>
    intro n m
    cases ev with
    | pending => simpa [hashLoop, delivered] using ih n m
    | err k => simp [hashLoop, delivered]
    | data bs =>
      cases bs with
      | nil => simp [hashLoop, delivered]
      | cons b bs =>
        have e : delivered (.data (b :: bs) :: evs) =
          ((b :: bs) ++ (delivered evs).1, (delivered evs).2) := by simp [delivered]
        rw [e]
        unfold hashLoop
        rw [ih]
        cases (delivered evs).2 with
        | error k => rfl
        | eof =>
          simp only [List.map_map, List.length_append, Function.comp_def, List.append_assoc]
          congr 2
          omega

/-- For supported algorithms and a source that ends normally, the size is the number of bytes and
the map has, for exactly the requested algorithms, the digest of all bytes. -/
theorem C63_digests_of_everything (D : Digest) (src : List Ev) (algs : List HashAlg)
    (hne : algs ≠ []) (hs : ∀ a ∈ algs, Supported a) (bs : Bytes) (hd : delivered src = (bs, .eof)) :
    ∃ m, calculateHashes D src algs = .ok (bs.length, m) ∧
      ∀ a, m.get? a = if a ∈ algs then some (D a bs) else none := by
  obtain ⟨m', e, h1, h2⟩ := (contextsFor_spec algs [] (by simp)).1 hs
  have hemp : algs.isEmpty = false := by cases algs <;> simp_all
  refine ⟨(m'.map fun p => (p.1, p.2 ++ bs)).map fun p => (p.1, D p.1 p.2), ?_, ?_⟩
  · unfold calculateHashes
    rw [hemp, e]
    simp only [hashLoop_spec, hd, Bool.false_eq_true, if_false, Nat.zero_add]
  · intro a
    rw [get?_map_snd (fun a b => D a b), get?_map_snd (fun _ b => b ++ bs), h2]
    split <;> simp [Map.get?]

/-- Otherwise it fails: no algorithm, an unsupported one, or a read error. -/
theorem C63_failures (D : Digest) (src : List Ev) (algs : List HashAlg) :
    (algs = [] → calculateHashes D src algs = .error .illegalArgument) ∧
    ((∃ a ∈ algs, ¬ Supported a) → calculateHashes D src algs = .error .illegalArgument) ∧
    (∀ k, algs ≠ [] → (∀ a ∈ algs, Supported a) → (delivered src).2 = .error k →
      calculateHashes D src algs = .error k.toErr) := by
  refine ⟨?_, ?_, ?_⟩
  · rintro rfl; rfl
  · intro h
    have hemp : algs.isEmpty = false := by
      obtain ⟨a, ha, _⟩ := h
      cases algs <;> simp_all
    unfold calculateHashes
    rw [hemp, (contextsFor_spec algs [] (by simp)).2 h]; rfl
  · intro k hne hs hd
    obtain ⟨m', e, _, _⟩ := (contextsFor_spec algs [] (by simp)).1 hs
    have hemp : algs.isEmpty = false := by cases algs <;> simp_all
    unfold calculateHashes
    rw [hemp, e]
    simp only [hashLoop_spec, hd]; rfl

example : calculateHashes (fun a b => match a with | .sha256 => b | _ => b.reverse)
    [.data [1, 2], .data [3]] [.sha256, .sha512, .sha256] =
    .ok (3, [(.sha256, [1, 2, 3]), (.sha512, [3, 2, 1])]) := by decide

/-! ## C64 A computed description accepts exactly its own data -/

/-- A description computed from some data by `calculate_hashes` (as the target and metadata builders
do) lets every download of the same data succeed, whatever the chunking on either side; and whatever
download succeeds has the same digest under the preferred algorithm and is not longer. -/
theorem C64_description_round_trip (D : Digest) (src : List Ev) (algs : List HashAlg) (bs : Bytes)
    (hd : delivered src = (bs, .eof)) (n : Nat) (m : Map HashAlg HashValue)
    (hc : calculateHashes D src algs = .ok (n, m)) (hn : n ≤ u64Max) :
    ∃ a v s, hashPreference m = .ok (a, v) ∧ SafeReader.new n (some (a, v)) = .ok s ∧
      ∀ evs out, s.readToEnd D evs [] = .ok out ↔
        delivered evs = (out, .eof) ∧ out.length ≤ bs.length ∧ D a out = D a bs := by
  have hne : algs ≠ [] := by
    rintro rfl; rw [(C63_failures D src []).1 rfl] at hc; cases hc
  have hs : ∀ a ∈ algs, Supported a := by
    intro a ha
    apply Classical.byContradiction
    intro hb
    rw [(C63_failures D src algs).2.1 ⟨a, ha, hb⟩] at hc; cases hc
  obtain ⟨m', e, hm⟩ := C63_digests_of_everything D src algs hne hs bs hd
  rw [e] at hc
  cases hc
  obtain ⟨p1, p2, p3⟩ := C55_preference m
  have : ∃ a, hashPreference m = .ok (a, D a bs) := by
    by_cases h5 : HashAlg.sha512 ∈ algs
    · exact ⟨_, p1 _ (by rw [hm, if_pos h5])⟩
    · by_cases h2 : HashAlg.sha256 ∈ algs
      · exact ⟨_, p2 _ (by rw [hm, if_neg h5]) (by rw [hm, if_pos h2])⟩
      · exfalso
        cases algs with
        | nil => exact hne rfl
        | cons a as =>
          rcases hs a (by simp) with rfl | rfl
          · exact h2 (by simp)
          · exact h5 (by simp)
  obtain ⟨a, ha⟩ := this
  obtain ⟨_, s, hs'⟩ := C55_choice_is_usable m a _ bs.length ha
  exact ⟨a, D a bs, s, ha, hs', fun evs out => C48_success_iff D _ hn a _ s hs' evs out⟩

example : delivered [.data [1, 2], .data [3]] = ([1, 2, 3], .eof) := by decide

end RustTuf
