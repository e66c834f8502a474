import Verif.Spec.Http
import Verif.Lemmas.Utf8
import Verif.Lemmas.Paths
import Verif.Props.Paths

/-! Properties of the HTTP repository: C59, C60, C61. -/

namespace RustTuf
open Spec

theorem byte_forall (P : UInt8 → Prop) (h : ∀ n < 256, P (UInt8.ofNat n)) (b : UInt8) : P b := by
  have := h b.toNat b.toNat_lt
  rwa [UInt8.ofNat_toNat] at this

theorem encodeByte_chars : ∀ b : UInt8, ∀ c ∈ encodeByte b, validPathChar c = true ∧ c ≠ '?' ∧
    c ≠ '#' ∧ (c = '/' → b = 47) :=
  byte_forall _ (by decide +kernel)

theorem encodeSegment_chars (s : Str) (c : Char) (h : c ∈ encodeSegment s) :
    validPathChar c = true ∧ c ≠ '?' ∧ c ≠ '#' ∧ (c = '/' → '/' ∈ s) := by
  unfold encodeSegment at h
  obtain ⟨b, hb, hc⟩ := List.mem_flatMap.1 h
  obtain ⟨h1, h2, h3, h4⟩ := encodeByte_chars b c hc
  refine ⟨h1, h2, h3, fun e => ?_⟩
  have := h4 e
  subst this
  exact ascii_mem_utf8 s 47 hb (by decide)

theorem percentDecode_cons {c : Char} (h : c ≠ '%') (rest : Str) :
    percentDecode (c :: rest) = UInt8.ofNat c.toNat :: percentDecode rest := by
  match rest with
  | [] => simp [percentDecode]
  | [a] => simp [percentDecode]
  | a :: b :: rest => simp [percentDecode, h]

theorem encodeByte_cases : ∀ b : UInt8, b ≠ 37 →
    (∃ x y, encodeByte b = ['%', x, y] ∧ ∃ m n, hexVal x = some m ∧ hexVal y = some n ∧
      UInt8.ofNat (16 * m + n) = b) ∨
    (∃ c, encodeByte b = [c] ∧ c ≠ '%' ∧ UInt8.ofNat c.toNat = b) := by
  have key : ∀ n < 256, n ≠ 37 →
      (shouldEncode (UInt8.ofNat n) = true ∧
        hexVal (hexUpperDigit (n / 16)) = some (n / 16) ∧
        hexVal (hexUpperDigit (n % 16)) = some (n % 16)) ∨
      (shouldEncode (UInt8.ofNat n) = false ∧ Char.ofNat n ≠ '%' ∧ (Char.ofNat n).toNat = n) := by
    decide +kernel
  intro b hb
  have hlt := b.toNat_lt
  have hne : b.toNat ≠ 37 := fun e => hb (UInt8.toNat_inj.1 (by rw [e]; rfl))
  have hk := key b.toNat hlt hne
  rw [UInt8.ofNat_toNat] at hk
  rcases hk with ⟨h1, h2, h3⟩ | ⟨h1, h2, h3⟩
  · left
    refine ⟨_, _, by unfold encodeByte; rw [if_pos h1], b.toNat / 16, b.toNat % 16, h2, h3, ?_⟩
    rw [Nat.div_add_mod, UInt8.ofNat_toNat]
  · right
    refine ⟨_, by unfold encodeByte; rw [if_neg (by rw [h1]; simp)], h2, ?_⟩
    rw [h3, UInt8.ofNat_toNat]

theorem percentDecode_encodeBytes (bs : Bytes) (h : (37 : UInt8) ∉ bs) :
    percentDecode (bs.flatMap encodeByte) = bs := by
  induction bs with
  | nil => rfl
  | cons b bs ih =>
    simp only [List.mem_cons, not_or] at h
    rw [List.flatMap_cons]
    rcases encodeByte_cases b (fun e => h.1 e.symm) with ⟨x, y, e, m, n, hm, hn, hb⟩ | ⟨c, e, hc, hb⟩
    · rw [e]
      simp only [List.cons_append, List.nil_append, percentDecode, if_true, hm, hn, hb, ih h.2]
    · rw [e, List.singleton_append, percentDecode_cons hc, hb, ih h.2]

/-- Decoding undoes the encoding of segments without '%'. -/
theorem percentDecode_encodeSegment (s : Str) (h : '%' ∉ s) :
    percentDecode (encodeSegment s) = utf8 s := by
  apply percentDecode_encodeBytes
  intro hm
  exact h (ascii_mem_utf8 s 37 hm (by decide))

theorem encodeSegment_injective {a b : Str} (ha : '%' ∉ a) (hb : '%' ∉ b)
    (h : encodeSegment a = encodeSegment b) : a = b := by
  apply utf8_injective
  rw [← percentDecode_encodeSegment a ha, ← percentDecode_encodeSegment b hb, h]

theorem joinWith_append (b : Str) (l : List Str) :
    joinWith '/' (splitOn '/' b ++ l) = b ++ l.flatMap fun c => '/' :: c := by
  have gen : ∀ (xs : List Str) (l : List Str), xs ≠ [] →
      joinWith '/' (xs ++ l) = joinWith '/' xs ++ l.flatMap fun c => '/' :: c := by
    intro xs
    induction xs with
    | nil => intro l h; exact absurd rfl h
    | cons x xs ih =>
      intro l _
      cases xs with
      | nil =>
        have g2 : ∀ (l : List Str) (x : Str), joinWith '/' (x :: l) = x ++ l.flatMap fun c => '/' :: c := by
          intro l
          induction l with
          | nil => intro x; simp [joinWith]
          | cons y ys ihl =>
            intro x
            have e : joinWith '/' (x :: y :: ys) = x ++ '/' :: joinWith '/' (y :: ys) := rfl
            rw [e, ihl y]; simp
        rw [List.singleton_append, g2]; simp [joinWith]
      | cons y ys =>
        have e : ∀ zs, joinWith '/' (x :: y :: zs) = x ++ '/' :: joinWith '/' (y :: zs) := fun _ => rfl
        rw [List.cons_append, List.cons_append, e, ← List.cons_append, ih l (by simp), e]
        simp
  rw [gen _ l (splitOn_ne_nil '/' b), joinWith_splitOn]

theorem takeWhile_all {p : Char → Bool} {s r : Str} (h : ∀ c ∈ s, p c = true)
    (hr : ∀ c, r.head? = some c → p c = false) :
    (s ++ r).takeWhile p = s ∧ (s ++ r).dropWhile p = r := by
  induction s with
  | nil =>
    cases r with
    | nil => simp
    | cons c cs => simp [hr c rfl]
  | cons c cs ih =>
    have hc := h c (by simp)
    obtain ⟨i1, i2⟩ := ih (fun x hx => h x (by simp [hx]))
    simp [hc, i1, i2]

theorem validQueryChar_ne_hash {c : Char} (h : validQueryChar c = true) : c ≠ '#' := by
  rintro rfl; revert h; decide

theorem validPathChar_ne {c : Char} (h : validPathChar c = true) : c ≠ '#' ∧ c ≠ '?' := by
  constructor <;> (rintro rfl; revert h; decide)

theorem parse_path (p : Str) (h : ∀ c ∈ p, validPathChar c = true) (q : Option Str)
    (hq : ∀ s, q = some s → ∀ c ∈ s, validQueryChar c = true) :
    parsePathAndQuery (withQuery p q) = .ok (p, q) := by
  have hp : ∀ c ∈ p, decide (c ≠ '?' ∧ c ≠ '#') = true := by
    intro c hc
    have := validPathChar_ne (h c hc)
    simp [this]
  have hall : p.all validPathChar = true := List.all_eq_true.2 h
  cases q with
  | none =>
    obtain ⟨e1, e2⟩ := takeWhile_all (r := []) hp (by simp)
    rw [List.append_nil] at e1 e2
    simp only [withQuery, parsePathAndQuery, e1, e2, hall, if_true]
  | some q =>
    obtain ⟨e1, e2⟩ := takeWhile_all (r := '?' :: q) hp (by simp)
    have hq' := hq q rfl
    obtain ⟨f1, _⟩ := takeWhile_all (p := fun c => decide (c ≠ '#')) (s := q) (r := [])
      (fun c hc => by simp [validQueryChar_ne_hash (hq' c hc)]) (by simp)
    rw [List.append_nil] at f1
    have hqall : q.all validQueryChar = true := List.all_eq_true.2 hq'
    simp only [withQuery, parsePathAndQuery, e1, e2, hall, if_true, f1, hqall]

/-! ## C59 Request URLs stay below the base URL -/

/-- For every base URI that came out of the parser and every prefix and component list, the request
URL exists, has the same scheme, authority and query, and its path is the base path (without one
trailing slash) followed by exactly one encoded segment per prefix element and component. -/
theorem C59_url_shape (u : Uri) (hu : ValidBase u) (pre : Option (List Str)) (comps : List Str) :
    ∃ u' b, extendUri u pre comps = .ok u' ∧ u'.scheme = u.scheme ∧ u'.authority = u.authority ∧
      (basePath u = b ++ ['/'] ∨ (basePath u = b ∧ b.getLast? ≠ some '/')) ∧
      u'.pathAndQuery =
        some (b ++ ((pre.getD []) ++ comps).flatMap (fun c => '/' :: encodeSegment c), queryOf u) := by
  obtain ⟨hsa, hpq⟩ := hu
  have hbase : uriPath u = basePath u := by
    unfold basePath uriPath pathOf
    rcases u.pathAndQuery with _ | ⟨p, q⟩ <;> rfl
  have hquery : uriQuery u = queryOf u := by
    unfold queryOf uriQuery
    rcases u.pathAndQuery with _ | ⟨p, q⟩ <;> rfl
  have hvalid : ∀ c ∈ basePath u, validPathChar c = true := by
    intro c hc
    unfold basePath at hc
    rcases hp : u.pathAndQuery with _ | ⟨p, q⟩
    · rw [hp] at hc; cases hc
    · rw [hp] at hc
      simp only at hc
      split at hc
      · simp only [List.mem_singleton] at hc; subst hc; decide
      · exact (hpq p q hp).1 c hc
  have hvq : ∀ s, queryOf u = some s → ∀ c ∈ s, validQueryChar c = true := by
    intro s hs
    unfold queryOf at hs
    rcases hp : u.pathAndQuery with _ | ⟨p, q⟩
    · rw [hp] at hs; cases hs
    · rw [hp] at hs
      exact (hpq p q hp).2 s hs
  obtain ⟨b, hb, hbe⟩ : ∃ b, (if (basePath u).getLast? = some '/' then (basePath u).dropLast
      else basePath u) = b ∧
      (basePath u = b ++ ['/'] ∨ (basePath u = b ∧ b.getLast? ≠ some '/')) := by
    by_cases h : (basePath u).getLast? = some '/'
    · rw [if_pos h]
      refine ⟨_, rfl, .inl ?_⟩
      have hne : basePath u ≠ [] := by intro e; rw [e] at h; cases h
      rw [List.getLast?_eq_some_getLast hne] at h
      injection h with h
      have := List.dropLast_concat_getLast hne
      rw [h] at this
      exact this.symm
    · rw [if_neg h]; exact ⟨_, rfl, .inr ⟨rfl, h⟩⟩
  have hbv : ∀ c ∈ b, validPathChar c = true := by
    intro c hc
    rcases hbe with e | ⟨e, _⟩
    · exact hvalid c (by rw [e]; simp [hc])
    · exact hvalid c (by rw [e]; exact hc)
  have hpath : ∀ c ∈ b ++ ((pre.getD []) ++ comps).flatMap (fun c => '/' :: encodeSegment c),
      validPathChar c = true := by
    intro c hc
    rw [List.mem_append] at hc
    rcases hc with hc | hc
    · exact hbv c hc
    · obtain ⟨x, _, hx⟩ := List.mem_flatMap.1 hc
      rcases List.mem_cons.1 hx with rfl | hx
      · decide
      · exact (encodeSegment_chars x c hx).1
  have hparse := parse_path _ hpath (queryOf u) hvq
  have hjoin : joinWith '/' (splitOn '/' b ++ ((pre.getD []) ++ comps).map encodeSegment) =
      b ++ ((pre.getD []) ++ comps).flatMap (fun c => '/' :: encodeSegment c) := by
    rw [joinWith_append, List.flatMap_map]
  have hok : ∀ x, uriFromParts { u with pathAndQuery := x } = .ok { u with pathAndQuery := x } := by
    intro x
    unfold uriFromParts
    cases hs : u.scheme <;> cases ha : u.authority <;> rw [hs, ha] at hsa <;> simp_all
  refine ⟨{ u with pathAndQuery := some (_, queryOf u) }, b, ?_, rfl, rfl, hbe, rfl⟩
  unfold extendUri
  simp only [hbase, hquery, hb, hjoin, hparse]
  exact hok _

theorem serverWalk_append (d a b : List Bytes) :
    serverWalk d (a ++ b) = serverWalk (serverWalk d a) b := by
  induction a generalizing d with
  | nil => rfl
  | cons c cs ih =>
    simp only [List.cons_append, serverWalk]
    split
    · exact ih d
    · split <;> exact ih _

theorem serverWalk_plain (l : List Bytes) (h : ∀ c ∈ l, c ≠ [46] ∧ c ≠ [46, 46]) :
    ∀ d, serverWalk d l = d ++ l.filter (· ≠ []) := by
  induction l with
  | nil => intro d; simp [serverWalk]
  | cons c cs ih =>
    intro d
    obtain ⟨h1, h2⟩ := h c (by simp)
    have ih := ih (fun x hx => h x (by simp [hx]))
    by_cases hc : c = []
    · subst hc; simp [serverWalk, ih]
    · simp [serverWalk, hc, h1, h2, ih]

theorem split_flat (b : Str) (l : List Str) (h : ∀ c ∈ l, '/' ∉ c) :
    splitOn '/' (b ++ l.flatMap fun c => '/' :: c) = splitOn '/' b ++ l := by
  induction l generalizing b with
  | nil => simp
  | cons c cs ih =>
    have e : b ++ (c :: cs).flatMap (fun c => '/' :: c) =
        (b ++ '/' :: c) ++ cs.flatMap (fun c => '/' :: c) := by simp
    rw [e, ih _ (fun x hx => h x (by simp [hx])), splitOn_append, splitOn_of_not_mem '/' c (h c (by simp))]
    simp

/-- A server that decodes and normalises the request path ends up below the base: it descends from
the base through the non-empty prefix elements and components. Only for segments without '%'; for
others the claim is false, see `C59_percent_traversal`. -/
theorem C59_server_stays_below_partial (u : Uri) (hu : ValidBase u) (pre : Option (List Str))
    (comps : List Str) (hc : ∀ c ∈ (pre.getD []) ++ comps, UrlSafe c) :
    ∃ u' p, extendUri u pre comps = .ok u' ∧ u'.pathAndQuery = some (p, queryOf u) ∧
      serverFile p = serverFile (basePath u) ++
        (((pre.getD []) ++ comps).filter (· ≠ [])).map utf8 := by
  obtain ⟨u', b, h1, _, _, hb, h2⟩ := C59_url_shape u hu pre comps
  refine ⟨u', _, h1, h2, ?_⟩
  have hbase : serverFile (basePath u) = serverWalk [] ((splitOn '/' b).map percentDecode) := by
    have key : ∀ s : Str, serverFile s = serverWalk [] ((splitOn '/' s).map percentDecode) := by
      intro s
      unfold serverFile
      have := pieces_eq s
      unfold pieces at this
      rw [this]
    rcases hb with e | ⟨e, _⟩
    · rw [key, e, splitOn_append, List.map_append, serverWalk_append]
      simp [splitOn, percentDecode, serverWalk]
    · rw [key, e]
  have hsp := pieces_eq (b ++ ((pre.getD []) ++ comps).flatMap (fun c => '/' :: encodeSegment c))
  unfold pieces at hsp
  rw [hbase]
  unfold serverFile
  rw [hsp]
  have hfl : ((pre.getD []) ++ comps).flatMap (fun c => '/' :: encodeSegment c) =
      (((pre.getD []) ++ comps).map encodeSegment).flatMap (fun c => '/' :: c) := by
    rw [List.flatMap_map]
  rw [hfl, split_flat, List.map_append, serverWalk_append, List.map_map]
  · have hdec : List.map (percentDecode ∘ encodeSegment) ((pre.getD []) ++ comps) =
        ((pre.getD []) ++ comps).map utf8 := by
      apply List.map_congr_left
      intro c hcm
      exact percentDecode_encodeSegment c (hc c hcm).1
    rw [hdec, serverWalk_plain]
    · congr 1
      rw [List.filter_map]
      congr 1
      apply List.filter_congr
      intro c _
      simp only [Function.comp, decide_eq_decide]
      constructor
      · intro h e; exact h (by rw [e]; rfl)
      · intro h e; exact h (utf8_injective (by rw [e]; rfl))
    · intro x hx
      obtain ⟨c, hcm, rfl⟩ := List.mem_map.1 hx
      obtain ⟨_, _, h3, h4⟩ := hc c hcm
      constructor
      · intro e
        apply h3
        apply utf8_injective
        rw [e]; decide
      · intro e
        apply h4
        apply utf8_injective
        rw [e]; decide
  · intro x hx
    obtain ⟨c, hcm, rfl⟩ := List.mem_map.1 hx
    intro hs
    exact (hc c hcm).2.1 ((encodeSegment_chars c '/' hs).2.2.2 rfl)

/-- Components of accepted target paths without '%' are safe for URLs, so are those of accepted
metadata paths at any version. -/
theorem C59_accepted_components (s : Str) (h : '%' ∉ s) :
    (∀ p, TargetPath.new s = .ok p → ∀ c ∈ TargetPath.components p, UrlSafe c) ∧
    (∀ p v, MetadataPath.new s = .ok p → ∀ c ∈ MetadataPath.components p v, UrlSafe c) := by
  constructor
  · intro p hp c hc
    obtain ⟨rfl, hs⟩ := accepted_iff_target.1 hp
    have hh := accepted_component hs hc
    exact ⟨fun hm => h (mem_splitOn_subset '/' p c hc _ hm), hh.noSlash, hh.notDot, hh.notDotDot⟩
  · intro p v hp c hc
    obtain ⟨rfl, hs⟩ := accepted_iff_meta.1 hp
    have hh := metadata_component hs v hc
    refine ⟨?_, hh.noSlash, hh.notDot, hh.notDotDot⟩
    intro hm
    unfold MetadataPath.components at hc
    simp only [List.mem_append, List.mem_singleton] at hc
    rcases hc with hc | rfl
    · exact h (mem_splitOn_subset '/' p c ((List.dropLast_sublist _).subset hc) _ hm)
    · simp only [List.mem_append] at hm
      rcases hm with (hm | hm) | hm
      · rcases prefixStr_chars v _ hm with e | ⟨e, _⟩
        · exact absurd e (by decide)
        · exact absurd e (by decide)
      · exact h (mem_splitOn_subset '/' p _ (getLastD_mem (splitOn_ne_nil '/' p)) _ hm)
      · revert hm; decide

/-- The example base: https://h/repo/pub?k=1. -/
def Spec.exBase : Uri := ⟨some "https".toList, some "h".toList, some ("/repo/pub/".toList, some "k=1".toList)⟩

/-- A path with percent signs is accepted as a target path, and a decoding server leaves the base
directory. -/
theorem C59_percent_traversal : ∃ (s : Str) (u' : Uri) (p : Str), TargetPath.new s = .ok s ∧
    ValidBase exBase ∧
    extendUri exBase none (TargetPath.components s) = .ok u' ∧
    u'.pathAndQuery = some (p, some "k=1".toList) ∧
    serverFile (basePath exBase) = ["repo".toList, "pub".toList].map utf8 ∧
    serverFile p = ["etc".toList].map utf8 := by
  refine ⟨"%2e%2e/%2E./etc".toList,
    ⟨some "https".toList, some "h".toList,
      some ("/repo/pub/%2e%2e/%2E./etc".toList, some "k=1".toList)⟩,
    "/repo/pub/%2e%2e/%2E./etc".toList, by decide, ?_, by decide +kernel, rfl, by decide +kernel,
    by decide +kernel⟩
  refine ⟨rfl, ?_⟩
  intro p q h
  simp only [exBase, Option.some.injEq, Prod.mk.injEq] at h
  obtain ⟨rfl, rfl⟩ := h
  refine ⟨by decide, ?_⟩
  intro s hs
  injection hs with hs
  subst hs
  decide

example : extendUri exBase (some ["meta data".toList]) ["1.root.json".toList] =
    .ok ⟨some "https".toList, some "h".toList,
      some ("/repo/pub/meta%20data/1.root.json".toList, some "k=1".toList)⟩ := by decide +kernel

/-! ## C60 Different files have different URLs -/

/-- '%' is not encoded, so the claim is false in general. -/
theorem C60_percent_collision : TargetPath.new "a%20b".toList = .ok "a%20b".toList ∧
    TargetPath.new "a b".toList = .ok "a b".toList ∧
    extendUri exBase none (TargetPath.components "a%20b".toList) =
      extendUri exBase none (TargetPath.components "a b".toList) := by decide +kernel

/-- Different component lists (without '%' or '/') are requested from different URLs. -/
theorem C60_injective_partial (u : Uri) (hu : ValidBase u) (pre : Option (List Str))
    (comps comps' : List Str) (h : ∀ c ∈ comps, '%' ∉ c ∧ '/' ∉ c)
    (h' : ∀ c ∈ comps', '%' ∉ c ∧ '/' ∉ c)
    (e : extendUri u pre comps = extendUri u pre comps') : comps = comps' := by
  obtain ⟨u1, b1, e1, _, _, hb1, p1⟩ := C59_url_shape u hu pre comps
  obtain ⟨u2, b2, e2, _, _, hb2, p2⟩ := C59_url_shape u hu pre comps'
  rw [e1, e2] at e
  injection e with e
  subst e
  have hb : b1 = b2 := by
    rcases hb1 with h1 | ⟨h1, n1⟩ <;> rcases hb2 with h2 | ⟨h2, n2⟩
    · exact List.append_cancel_right (h1.symm.trans h2)
    · exfalso; apply n2; rw [← h2, h1]; simp
    · exfalso; apply n1; rw [← h1, h2]; simp
    · exact h1.symm.trans h2
  subst hb
  rw [p1] at p2
  simp only [Option.some.injEq, Prod.mk.injEq, and_true, List.flatMap_append] at p2
  have p2 := List.append_cancel_left (List.append_cancel_left p2)
  have hf : ∀ l : List Str, l.flatMap (fun c => '/' :: encodeSegment c) =
      (l.map encodeSegment).flatMap (fun c => '/' :: c) := by intro l; rw [List.flatMap_map]
  have hno : ∀ l : List Str, (∀ c ∈ l, '%' ∉ c ∧ '/' ∉ c) → ∀ c ∈ l.map encodeSegment, '/' ∉ c := by
    intro l hl c hc
    obtain ⟨x, hx, rfl⟩ := List.mem_map.1 hc
    intro hs
    exact (hl x hx).2 ((encodeSegment_chars x '/' hs).2.2.2 rfl)
  have q := congrArg (splitOn '/') p2
  have s1 := split_flat [] (comps.map encodeSegment) (hno comps h)
  have s2 := split_flat [] (comps'.map encodeSegment) (hno comps' h')
  rw [List.nil_append, ← hf] at s1 s2
  rw [s1, s2] at q
  have q := List.append_cancel_left q
  exact map_inj_on encodeSegment comps comps' (fun a ha b hb =>
    encodeSegment_injective (h a ha).1 (h' b hb).1) q

/-- In particular different accepted target paths without '%' have different URLs. -/
theorem C60_targets_partial (u : Uri) (hu : ValidBase u) (pre : Option (List Str))
    (p p' : TargetPath) (h : TargetPath.new p = .ok p) (h' : TargetPath.new p' = .ok p')
    (hp : '%' ∉ p) (hp' : '%' ∉ p')
    (e : extendUri u pre (TargetPath.components p) = extendUri u pre (TargetPath.components p')) :
    p = p' := by
  have a := (C59_accepted_components p hp).1 p h
  have a' := (C59_accepted_components p' hp').1 p' h'
  exact splitOn_injective '/' (C60_injective_partial u hu pre _ _
    (fun c hc => ⟨(a c hc).1, (a c hc).2.1⟩) (fun c hc => ⟨(a' c hc).1, (a' c hc).2.1⟩) e)

example : extendUri exBase none ["ä?b".toList] ≠ extendUri exBase none ["ä#b".toList] := by
  decide +kernel

/-! ## C61 Only status 200 is content -/

/-- An answer is used as content exactly when the request went through with status 200, and then the
content is the body of that response. -/
theorem C61_content_iff (request : Uri → Except Err (Nat × List Ev)) (base : Uri)
    (pre : Option (List Str)) (comps : List Str) (body : List Ev) :
    httpFetch request base pre comps = .ok body ↔
      ∃ uri, extendUri base pre comps = .ok uri ∧ request uri = .ok (200, body) := by
  unfold httpFetch
  constructor
  · intro h
    split at h
    · cases h
    · rename_i uri hu
      split at h
      · cases h
      · rename_i code b hr
        unfold statusResult at h
        split at h
        · cases h
        · rename_i hs
          split at hs
          · rename_i hc; subst hc; cases h; exact ⟨uri, hu, hr⟩
          · split at hs <;> cases hs
  · rintro ⟨uri, hu, hr⟩
    simp [hu, hr, statusResult]

/-- Status 404 is reported as NotFound; every other status than 200 and 404 as a status error that
carries the code. -/
theorem C61_other_statuses (request : Uri → Except Err (Nat × List Ev)) (base : Uri)
    (pre : Option (List Str)) (comps : List Str) (uri : Uri) (code : Nat) (body : List Ev)
    (hu : extendUri base pre comps = .ok uri) (hr : request uri = .ok (code, body)) :
    (code = 404 → httpFetch request base pre comps = .error .notFound) ∧
    (code ≠ 200 → code ≠ 404 →
      httpFetch request base pre comps = .error (.badHttpStatus code)) := by
  constructor
  · rintro rfl; simp [httpFetch, hu, hr, statusResult]
  · intro h1 h2; simp [httpFetch, hu, hr, statusResult, h1, h2]

example : httpFetch (fun _ => .ok (206, [.data [1]])) exBase none ["x".toList] =
      .error (.badHttpStatus 206) ∧
    httpFetch (fun _ => .ok (404, [.data [1]])) exBase none ["x".toList] = .error .notFound ∧
    httpFetch (fun _ => .ok (200, [.data [1]])) exBase none ["x".toList] = .ok [.data [1]] := by
  decide +kernel

end RustTuf
