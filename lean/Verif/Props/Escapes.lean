import Verif.Spec.Escapes
import Verif.Props.Http

/-!
# C59, C60 with percent signs: which file a server looks up, and which paths share a URL
-/

namespace RustTuf.Props
open Spec RustTuf

/-- The encoding of bytes, as bytes. -/
def encBytes (bs : Bytes) : Bytes := bs.flatMap fun b => (encodeByte b).map fun c => UInt8.ofNat c.toNat

theorem unescape_cons (esc : UInt8 → UInt8 → Option UInt8) {x : UInt8} (h : x ≠ 37) (rest : Bytes) :
    unescapeWith esc (x :: rest) = x :: unescapeWith esc rest := by
  match rest with
  | [] => simp [unescapeWith]
  | [a] => simp [unescapeWith]
  | a :: b :: rest => simp [unescapeWith, h]

/-- What two bytes must be for an escape. -/
def HexPair (esc : UInt8 → UInt8 → Option UInt8) : Prop :=
  (∀ a b c, esc a b = some c → shouldEncode a = false ∧ shouldEncode b = false) ∧
  (∀ a, esc 37 a = none ∧ esc a 37 = none) ∧
  ∀ b, shouldEncode b = true →
    ∃ x y, (encodeByte b).map (fun c => UInt8.ofNat c.toNat) = [37, x, y] ∧ esc x y = some b

theorem enc_plain {b : UInt8} (h : shouldEncode b = false) :
    (encodeByte b).map (fun c => UInt8.ofNat c.toNat) = [b] := by
  have key : ∀ n < 256, shouldEncode (UInt8.ofNat n) = false → (Char.ofNat n).toNat = n := by
    decide +kernel
  have h' := key b.toNat b.toNat_lt (by rw [UInt8.ofNat_toNat]; exact h)
  unfold encodeByte
  rw [if_neg (by rw [h]; simp)]
  simp only [List.map_cons, List.map_nil, h', UInt8.ofNat_toNat]

theorem encBytes_cons (b : UInt8) (bs : Bytes) :
    encBytes (b :: bs) = (encodeByte b).map (fun c => UInt8.ofNat c.toNat) ++ encBytes bs := rfl

theorem percent_plain : shouldEncode 37 = false := by decide

theorem unescape_percent (esc : UInt8 → UInt8 → Option UInt8) (rest : Bytes)
    (h : ∀ a b r, rest = a :: b :: r → esc a b = none) :
    unescapeWith esc (37 :: rest) = 37 :: unescapeWith esc rest := by
  match rest with
  | [] => simp [unescapeWith]
  | [a] => simp [unescapeWith]
  | a :: b :: rest => simp [unescapeWith, h a b rest rfl]

/-- Encoding does not change what is decoded. -/
theorem unescape_encBytes {esc : UInt8 → UInt8 → Option UInt8} (he : HexPair esc) :
    ∀ (n : Nat) (bs : Bytes), bs.length ≤ n → unescapeWith esc (encBytes bs) = unescapeWith esc bs := by
  intro n
  induction n with
  | zero => intro bs hl; rw [List.length_eq_zero_iff.1 (by omega : bs.length = 0)]; rfl
  | succ n ih =>
    intro bs hl
    match bs with
    | [] => rfl
    | x :: rest =>
      have hr : rest.length ≤ n := by simpa using hl
      by_cases hx : x = 37
      · subst hx
        rw [encBytes_cons, enc_plain percent_plain, List.singleton_append]
        by_cases hesc : ∃ a b r c, rest = a :: b :: r ∧ esc a b = some c
        · obtain ⟨a, b, r, c, rfl, hc⟩ := hesc
          obtain ⟨ha, hb⟩ := he.1 a b c hc
          rw [encBytes_cons, encBytes_cons, enc_plain ha, enc_plain hb]
          simp only [List.singleton_append, unescapeWith, if_true, hc]
          rw [ih r (by simp at hr; omega)]
        · rw [unescape_percent esc rest, unescape_percent, ih rest hr]
          · intro a b r hab
            cases rest with
            | nil => cases hab
            | cons y rest =>
              rw [encBytes_cons] at hab
              cases hy : shouldEncode y with
              | true =>
                obtain ⟨p, q, e, -⟩ := he.2.2 y hy
                rw [e] at hab
                cases hab
                exact (he.2.1 _).1
              | false =>
                rw [enc_plain hy, List.singleton_append] at hab
                injection hab with h1 h2
                subst h1
                cases rest with
                | nil => cases h2
                | cons z rest =>
                  rw [encBytes_cons] at h2
                  cases hz : shouldEncode z with
                  | true =>
                    obtain ⟨p, q, e, -⟩ := he.2.2 z hz
                    rw [e] at h2
                    cases h2
                    exact (he.2.1 _).2
                  | false =>
                    rw [enc_plain hz, List.singleton_append] at h2
                    injection h2 with h3 h4
                    subst h3
                    cases hc : esc y z with
                    | none => rfl
                    | some c => exact absurd ⟨y, z, rest, c, rfl, hc⟩ hesc
          · intro a b r hab
            cases hc : esc a b with
            | none => rfl
            | some c => exact absurd ⟨a, b, r, c, hab, hc⟩ hesc
      · rw [unescape_cons esc hx, encBytes_cons]
        cases h : shouldEncode x with
        | true =>
          obtain ⟨p, q, e, e'⟩ := he.2.2 x h
          rw [e]
          simp only [List.cons_append, List.nil_append, unescapeWith, if_true, e']
          rw [ih rest hr]
        | false => rw [enc_plain h, List.singleton_append, unescape_cons esc hx, ih rest hr]

/-- Decoding escapes that the encoding would write does not change what is encoded. -/
theorem encBytes_unescape {esc : UInt8 → UInt8 → Option UInt8} (he : HexPair esc)
    (hw : ∀ a b c, esc a b = some c → (encodeByte c).map (fun c => UInt8.ofNat c.toNat) = [37, a, b]) :
    ∀ (n : Nat) (bs : Bytes), bs.length ≤ n → encBytes (unescapeWith esc bs) = encBytes bs := by
  intro n
  induction n with
  | zero => intro bs hl; rw [List.length_eq_zero_iff.1 (by omega : bs.length = 0)]; rfl
  | succ n ih =>
    intro bs hl
    match bs with
    | [] => rfl
    | x :: rest =>
      have hr : rest.length ≤ n := by simpa using hl
      by_cases hesc : x = 37 ∧ ∃ a b r c, rest = a :: b :: r ∧ esc a b = some c
      · obtain ⟨rfl, a, b, r, c, rfl, hc⟩ := hesc
        obtain ⟨ha, hb⟩ := he.1 a b c hc
        simp only [unescapeWith, if_true, hc]
        rw [encBytes_cons, encBytes_cons, encBytes_cons, encBytes_cons, hw a b c hc, enc_plain percent_plain,
          enc_plain ha, enc_plain hb, ih r (by simp at hr; omega)]
        rfl
      · have : unescapeWith esc (x :: rest) = x :: unescapeWith esc rest := by
          by_cases hx : x = 37
          · subst hx
            refine unescape_percent esc rest fun a b r hab => ?_
            cases hc : esc a b with
            | none => rfl
            | some c => exact absurd ⟨rfl, a, b, r, c, hab, hc⟩ hesc
          · exact unescape_cons esc hx rest
        rw [this, encBytes_cons, encBytes_cons, ih rest hr]

theorem anyEscape_pair : HexPair anyEscape := by
  have k1 : ∀ n < 256, hexVal (Char.ofNat (UInt8.ofNat n).toNat) ≠ none → shouldEncode (UInt8.ofNat n) = false := by
    decide +kernel
  have k1' : ∀ b : UInt8, hexVal (Char.ofNat b.toNat) ≠ none → shouldEncode b = false :=
    fun b => byte_forall (fun b => hexVal (Char.ofNat b.toNat) ≠ none → shouldEncode b = false) k1 b
  refine ⟨fun a b c h => ?_, fun a => ⟨?_, ?_⟩, ?_⟩
  · unfold anyEscape at h
    split at h
    · rename_i x y hx hy
      exact ⟨k1' a (by rw [hx]; simp), k1' b (by rw [hy]; simp)⟩
    · cases h
  · rfl
  · unfold anyEscape
    rw [show hexVal (Char.ofNat (37 : UInt8).toNat) = none by decide]
    split
    · rename_i h; cases h
    · rfl
  · refine byte_forall _ ?_
    have k2 : ∀ n < 256, shouldEncode (UInt8.ofNat n) = true →
        anyEscape (UInt8.ofNat (hexUpperDigit (n / 16)).toNat) (UInt8.ofNat (hexUpperDigit (n % 16)).toNat) =
          some (UInt8.ofNat n) := by decide +kernel
    intro n hn h
    refine ⟨_, _, ?_, k2 n hn h⟩
    unfold encodeByte
    rw [if_pos h]
    simp only [UInt8.toNat_ofNat', Nat.mod_eq_of_lt (show n < 2 ^ 8 from hn), List.map_cons, List.map_nil]
    rfl

theorem neededEscape_pair : HexPair neededEscape ∧ ∀ a b c, neededEscape a b = some c →
    (encodeByte c).map (fun c => UInt8.ofNat c.toNat) = [37, a, b] := by
  have k1 : ∀ n < 256, hexUpperVal (UInt8.ofNat n) ≠ none → shouldEncode (UInt8.ofNat n) = false := by
    decide +kernel
  have k1' : ∀ b : UInt8, hexUpperVal b ≠ none → shouldEncode b = false :=
    fun b => byte_forall (fun b => hexUpperVal b ≠ none → shouldEncode b = false) k1 b
  have k2 : ∀ n < 256, shouldEncode (UInt8.ofNat n) = true →
      neededEscape (UInt8.ofNat (hexUpperDigit (n / 16)).toNat) (UInt8.ofNat (hexUpperDigit (n % 16)).toNat) =
        some (UInt8.ofNat n) := by decide +kernel
  have k3 : ∀ n < 256, NotInUrl (UInt8.ofNat n) → shouldEncode (UInt8.ofNat n) = true := by decide +kernel
  have k4 : ∀ n < 256, ∀ x, hexUpperVal (UInt8.ofNat n) = some x →
      x < 16 ∧ UInt8.ofNat (hexUpperDigit x).toNat = UInt8.ofNat n := by
    intro n hn x hx
    have : ∀ n < 256, ∀ x ∈ hexUpperVal (UInt8.ofNat n),
        x < 16 ∧ UInt8.ofNat (hexUpperDigit x).toNat = UInt8.ofNat n := by decide +kernel
    exact this n hn x hx
  have k4' : ∀ (b : UInt8) x, hexUpperVal b = some x → x < 16 ∧ UInt8.ofNat (hexUpperDigit x).toNat = b :=
    fun b => byte_forall (fun b => ∀ x, hexUpperVal b = some x → x < 16 ∧
      UInt8.ofNat (hexUpperDigit x).toNat = b) k4 b
  refine ⟨⟨fun a b c h => ?_, fun a => ⟨?_, ?_⟩, ?_⟩, fun a b c h => ?_⟩
  · unfold neededEscape at h
    split at h
    · rename_i x y hx hy
      exact ⟨k1' a (by rw [hx]; simp), k1' b (by rw [hy]; simp)⟩
    · cases h
  · rfl
  · unfold neededEscape
    rw [show hexUpperVal (37 : UInt8) = none by decide]
    split
    · rename_i h; cases h
    · rfl
  · refine byte_forall _ ?_
    intro n hn h
    refine ⟨_, _, ?_, k2 n hn h⟩
    unfold encodeByte
    rw [if_pos h]
    simp only [UInt8.toNat_ofNat', Nat.mod_eq_of_lt (show n < 2 ^ 8 from hn), List.map_cons, List.map_nil]
    rfl
  · unfold neededEscape at h
    split at h
    · rename_i x y hx hy
      split at h
      · rename_i hu
        cases h
        obtain ⟨hx16, hx⟩ := k4' a x hx
        obtain ⟨hy16, hy⟩ := k4' b y hy
        have hn : 16 * x + y < 256 := by omega
        have hs := k3 _ hn hu
        unfold encodeByte
        rw [if_pos hs]
        simp only [UInt8.toNat_ofNat', Nat.mod_eq_of_lt (show 16 * x + y < 2 ^ 8 from hn), List.map_cons,
          List.map_nil, show (16 * x + y) / 16 = x by omega, show (16 * x + y) % 16 = y by omega, hx, hy]
        rfl
      · cases h
    · cases h

/-! ### Encoded text and its bytes -/

theorem encodeByte_byte (b : UInt8) : ∀ c ∈ encodeByte b, c.toNat < 128 := by
  revert b
  refine byte_forall _ ?_
  decide +kernel

theorem encodeSegment_byte {s : Str} {c : Char} (h : c ∈ encodeSegment s) : c.toNat < 128 := by
  unfold encodeSegment at h
  obtain ⟨b, -, hc⟩ := List.mem_flatMap.1 h
  exact encodeByte_byte b c hc

theorem encodeSegment_bytes (s : Str) :
    (encodeSegment s).map (fun c => UInt8.ofNat c.toNat) = encBytes (utf8 s) := by
  unfold encodeSegment encBytes
  rw [List.map_flatMap]

theorem ofNat_byte {c : Char} (h : c.toNat < 128) : Char.ofNat (UInt8.ofNat c.toNat).toNat = c := by
  rw [UInt8.toNat_ofNat', Nat.mod_eq_of_lt (by omega), Char.ofNat_toNat]

theorem byte_eq_percent {c : Char} (h : c.toNat < 128) : UInt8.ofNat c.toNat = 37 ↔ c = '%' := by
  constructor
  · intro e
    have := ofNat_byte h
    rw [e] at this
    exact this.symm
  · rintro rfl; rfl

theorem percentDecode_bytes : ∀ s : Str, (∀ c ∈ s, c.toNat < 128) →
    percentDecode s = unescapeWith anyEscape (s.map fun c => UInt8.ofNat c.toNat) := by
  intro s
  induction s using percentDecode.induct with
  | case1 => intro _; rfl
  | case2 a b rest x y hx hy ih =>
    intro hs
    rw [percentDecode, if_pos rfl, hx, hy]
    simp only [List.map_cons, unescapeWith]
    rw [if_pos (show UInt8.ofNat '%'.toNat = 37 from rfl)]
    have : anyEscape (UInt8.ofNat a.toNat) (UInt8.ofNat b.toNat) = some (UInt8.ofNat (16 * x + y)) := by
      unfold anyEscape
      rw [ofNat_byte (hs a (by simp)), ofNat_byte (hs b (by simp)), hx, hy]
    simp only [this]
    rw [ih fun c hc => hs c (by simp [hc])]
  | case3 a b rest h ih =>
    intro hs
    have : anyEscape (UInt8.ofNat a.toNat) (UInt8.ofNat b.toNat) = none := by
      unfold anyEscape
      rw [ofNat_byte (hs a (by simp)), ofNat_byte (hs b (by simp))]
      split
      · rename_i x y hx hy; exact (h x y hx hy).elim
      · rfl
    have ih := ih fun c hc => hs c (List.mem_cons_of_mem _ hc)
    rw [percentDecode, if_pos rfl]
    split
    · rename_i x y hx hy; exact (h x y hx hy).elim
    · rw [ih]
      simp only [List.map_cons, unescapeWith]
      rw [if_pos (show UInt8.ofNat '%'.toNat = 37 from rfl)]
      simp only [this]
  | case4 c a b rest h ih =>
    intro hs
    rw [List.map_cons, unescape_cons anyEscape fun e => h ((byte_eq_percent (hs c (by simp))).1 e),
      percentDecode_cons h, ih fun c hc => hs c (List.mem_cons_of_mem _ hc)]
  | case5 c rest h ih =>
    intro hs
    match rest, h with
    | [], _ => simp [percentDecode, unescapeWith]
    | [a], _ => simp [percentDecode, unescapeWith]
    | a :: b :: rest, h => exact (h a b rest rfl).elim

/-- What a server makes of an encoded segment. -/
theorem percentDecode_segment (s : Str) : percentDecode (encodeSegment s) = serverName s := by
  rw [percentDecode_bytes _ fun c hc => encodeSegment_byte hc, encodeSegment_bytes]
  exact unescape_encBytes anyEscape_pair _ _ (Nat.le_refl _)

theorem encodeSegment_eq_iff (a b : Str) :
    encodeSegment a = encodeSegment b ↔ partlyDecoded a = partlyDecoded b := by
  have inj : ∀ s t : Str, (∀ c ∈ s, c.toNat < 128) → (∀ c ∈ t, c.toNat < 128) →
      (s.map fun c => UInt8.ofNat c.toNat) = (t.map fun c => UInt8.ofNat c.toNat) → s = t := by
    intro s t hs ht h
    have h := congrArg (List.map fun b : UInt8 => Char.ofNat b.toNat) h
    rw [List.map_map, List.map_map] at h
    have e : ∀ s : Str, (∀ c ∈ s, c.toNat < 128) →
        s.map ((fun b : UInt8 => Char.ofNat b.toNat) ∘ fun c => UInt8.ofNat c.toNat) = s := by
      intro s hs
      exact (List.map_congr_left fun c hc => ofNat_byte (hs c hc)).trans (List.map_id s)
    rwa [e s hs, e t ht] at h
  unfold partlyDecoded
  constructor
  · intro h
    rw [← unescape_encBytes neededEscape_pair.1 _ (utf8 a) (Nat.le_refl _),
      ← unescape_encBytes neededEscape_pair.1 _ (utf8 b) (Nat.le_refl _), ← encodeSegment_bytes,
      ← encodeSegment_bytes, h]
  · intro h
    refine inj _ _ (fun c hc => encodeSegment_byte hc) (fun c hc => encodeSegment_byte hc) ?_
    rw [encodeSegment_bytes, encodeSegment_bytes,
      ← encBytes_unescape neededEscape_pair.1 neededEscape_pair.2 _ (utf8 a) (Nat.le_refl _), h,
      encBytes_unescape neededEscape_pair.1 neededEscape_pair.2 _ (utf8 b) (Nat.le_refl _)]

theorem encodeSegment_join (l : List Str) :
    encodeSegment (joinWith '/' l) = joinWith '/' (l.map encodeSegment) := by
  have app : ∀ a b : Str, encodeSegment (a ++ b) = encodeSegment a ++ encodeSegment b := by
    intro a b
    simp [encodeSegment, utf8]
  induction l with
  | nil => rfl
  | cons x l ih =>
    cases l with
    | nil => rfl
    | cons y l =>
      simp only [joinWith, List.map_cons] at ih ⊢
      rw [app, ← ih]
      exact congrArg (encodeSegment x ++ ·) (app ['/'] _)

/-! ### The theorems -/

/-- **C59.** Exactly this file is looked up by a server that decodes and normalises request paths: from
the base it walks along the names that the prefix and the components have after decoding their
percent escapes. -/
theorem C59_server_file (u : Uri) (hu : ValidBase u) (pre : Option (List Str)) (comps : List Str)
    (hc : ∀ c ∈ (pre.getD []) ++ comps, '/' ∉ c) :
    ∃ u' p, extendUri u pre comps = .ok u' ∧ u'.pathAndQuery = some (p, queryOf u) ∧
      serverFile p = serverWalk (serverFile (basePath u)) (((pre.getD []) ++ comps).map serverName) := by
  obtain ⟨u', b, h1, _, _, hb, h2⟩ := C59_url_shape u hu pre comps
  refine ⟨u', _, h1, h2, ?_⟩
  have key : ∀ s : Str, serverFile s = serverWalk [] ((splitOn '/' s).map percentDecode) := by
    intro s
    unfold serverFile
    have := pieces_eq s
    unfold pieces at this
    rw [this]
  have hbase : serverFile (basePath u) = serverWalk [] ((splitOn '/' b).map percentDecode) := by
    rcases hb with e | ⟨e, _⟩
    · rw [key, e, splitOn_append, List.map_append, serverWalk_append]
      simp [splitOn, percentDecode, serverWalk]
    · rw [key, e]
  have hfl : ((pre.getD []) ++ comps).flatMap (fun c => '/' :: encodeSegment c) =
      (((pre.getD []) ++ comps).map encodeSegment).flatMap (fun c => '/' :: c) := by
    rw [List.flatMap_map]
  rw [hbase, key, hfl, split_flat, List.map_append, serverWalk_append, List.map_map]
  · congr 1
    exact List.map_congr_left fun c _ => percentDecode_segment c
  · intro x hx
    obtain ⟨c, hcm, rfl⟩ := List.mem_map.1 hx
    intro hs
    exact hc c hcm ((encodeSegment_chars c '/' hs).2.2.2 rfl)

theorem extendUri_same_iff (u : Uri) (hu : ValidBase u) (pre : Option (List Str))
    (comps comps' : List Str) (h : ∀ c ∈ comps, '/' ∉ c) (h' : ∀ c ∈ comps', '/' ∉ c) :
    extendUri u pre comps = extendUri u pre comps' ↔
      comps.map encodeSegment = comps'.map encodeSegment := by
  constructor
  · intro e
    obtain ⟨u1, b1, e1, _, _, hb1, p1⟩ := C59_url_shape u hu pre comps
    obtain ⟨u2, b2, e2, _, _, hb2, p2⟩ := C59_url_shape u hu pre comps'
    rw [e1, e2] at e
    injection e with e
    subst e
    have hb : b1 = b2 := by
      rcases hb1 with h1 | ⟨h1, n1⟩ <;> rcases hb2 with h2 | ⟨h2, n2⟩
      · exact List.append_cancel_right (h1.symm.trans h2)
      · exfalso; apply n2; rw [← h2, h1]; simp
      · exfalso; apply n1; rw [← h1, h2]; simp
      · exact h1.symm.trans h2
    subst hb
    rw [p1] at p2
    simp only [Option.some.injEq, Prod.mk.injEq, and_true, List.flatMap_append] at p2
    have p2 := List.append_cancel_left (List.append_cancel_left p2)
    have hf : ∀ l : List Str, l.flatMap (fun c => '/' :: encodeSegment c) =
        (l.map encodeSegment).flatMap (fun c => '/' :: c) := by intro l; rw [List.flatMap_map]
    have hno : ∀ l : List Str, (∀ c ∈ l, '/' ∉ c) → ∀ c ∈ l.map encodeSegment, '/' ∉ c := by
      intro l hl c hc
      obtain ⟨x, hx, rfl⟩ := List.mem_map.1 hc
      intro hs
      exact hl x hx ((encodeSegment_chars x '/' hs).2.2.2 rfl)
    have q := congrArg (splitOn '/') p2
    have s1 := split_flat [] (comps.map encodeSegment) (hno comps h)
    have s2 := split_flat [] (comps'.map encodeSegment) (hno comps' h')
    rw [List.nil_append, ← hf] at s1 s2
    rw [s1, s2] at q
    exact List.append_cancel_left q
  · intro e
    unfold extendUri
    rw [List.map_append, List.map_append, e]

/-- **C60.** Exactly these component lists are requested from the same URL: those that agree after
decoding the escapes in upper case of characters that cannot stand in a URL. -/
theorem C60_same_url_iff (u : Uri) (hu : ValidBase u) (pre : Option (List Str))
    (comps comps' : List Str) (h : ∀ c ∈ comps, '/' ∉ c) (h' : ∀ c ∈ comps', '/' ∉ c) :
    extendUri u pre comps = extendUri u pre comps' ↔
      comps.map partlyDecoded = comps'.map partlyDecoded := by
  rw [extendUri_same_iff u hu pre comps comps' h h']
  clear h h'
  induction comps generalizing comps' with
  | nil => cases comps' <;> simp
  | cons c l ih =>
    cases comps' with
    | nil => simp
    | cons c' l' =>
      simp only [List.map_cons, List.cons.injEq]
      rw [encodeSegment_eq_iff, ih l']

/-- **C60.** The same for target paths, as whole texts. -/
theorem C60_same_target_url_iff (u : Uri) (hu : ValidBase u) (pre : Option (List Str)) (p p' : TargetPath) :
    extendUri u pre (TargetPath.components p) = extendUri u pre (TargetPath.components p') ↔
      partlyDecoded p = partlyDecoded p' := by
  have hno : ∀ p : Str, ∀ c ∈ splitOn '/' p, '/' ∉ c := fun p c hc => mem_splitOn_no_sep '/' p c hc
  have hno' : ∀ p : Str, ∀ c ∈ (splitOn '/' p).map encodeSegment, '/' ∉ c := by
    intro p x hx hs
    obtain ⟨c, hcm, rfl⟩ := List.mem_map.1 hx
    exact hno p c hcm ((encodeSegment_chars c '/' hs).2.2.2 rfl)
  unfold TargetPath.components
  rw [extendUri_same_iff u hu pre _ _ (hno p) (hno p'), ← encodeSegment_eq_iff]
  have e := encodeSegment_join (splitOn '/' p)
  have e' := encodeSegment_join (splitOn '/' p')
  rw [joinWith_splitOn] at e e'
  rw [e, e']
  constructor
  · intro h; rw [h]
  · intro h
    have hne : ∀ p : Str, (splitOn '/' p).map encodeSegment ≠ [] := fun p =>
      by simpa using splitOn_ne_nil '/' p
    have := congrArg (splitOn '/') h
    rwa [splitOn_joinWith '/' _ (hne p) (hno' p), splitOn_joinWith '/' _ (hne p') (hno' p')] at this

-- Of the following names for the target `a b`, the first two have the same URL, and all three the same file
-- on a server.
example : partlyDecoded "a b".toList = partlyDecoded "a%20b".toList ∧
    partlyDecoded "a b".toList ≠ partlyDecoded "%61 b".toList ∧
    serverName "a b".toList = serverName "a%20b".toList ∧
    serverName "a b".toList = serverName "%61 b".toList ∧
    ValidBase exBase ∧ (∀ c ∈ TargetPath.components "x/a%20b".toList, '/' ∉ c) := by
  refine ⟨by decide +kernel, by decide +kernel, by decide +kernel, by decide +kernel, ?_, by decide +kernel⟩
  refine ⟨by decide, ?_⟩
  intro p q h
  cases h
  exact ⟨by decide +kernel, fun s hs => by cases hs; decide +kernel⟩

end RustTuf.Props
