import Verif.Lemmas.Paths

/-! Properties of paths and file names: C42, C43, C44, C46. -/

namespace RustTuf
open Spec

/-! ## C42 Accepted paths stay inside the repository directory -/

theorem accepted_iff_target {p : Str} {q : TargetPath} :
    TargetPath.new p = .ok q ↔ q = p ∧ safePath p = .ok () := by
  unfold TargetPath.new
  cases safePath p with
  | error e => simp
  | ok u => simp [eq_comm]

theorem accepted_iff_meta {p : Str} {q : MetadataPath} :
    MetadataPath.new p = .ok q ↔ q = p ∧ safePath p = .ok () := by
  unfold MetadataPath.new
  cases safePath p with
  | error e => simp
  | ok u => simp [eq_comm]

/-- For every accepted target path and every base directory (absolute or relative to any current
directory), the file used lies strictly below the base directory: it is reached by descending
through the non-empty components of the path, each of which is a harmless name. -/
theorem C42_target_inside (s : Str) (p : TargetPath) (h : TargetPath.new s = .ok p)
    (cwd : List Str) (base : Str) :
    ∃ names, names ≠ [] ∧ (∀ c ∈ names, c ≠ [] ∧ Harmless c) ∧
      names = (pieces s).filter (· ≠ []) ∧
      resolve cwd (targetFile base p) = resolve cwd base ++ names := by
  obtain ⟨rfl, hs⟩ := accepted_iff_target.1 h
  refine ⟨(pieces p).filter (· ≠ []), ?_, ?_, rfl, ?_⟩
  · obtain ⟨x, xs, e, hx⟩ := accepted_head hs
    rw [pieces_eq, e]; simp [hx]
  · intro c hc
    rw [List.mem_filter, pieces_eq] at hc
    exact ⟨by simpa using hc.2, accepted_component hs hc.1⟩
  · unfold targetFile TargetPath.components
    rw [pieces_eq]
    exact resolve_extend cwd _ base (fun c hc =>
      ⟨(accepted_component hs hc).noSlash, (accepted_component hs hc).notDot,
        (accepted_component hs hc).notDotDot⟩)

theorem metadata_inside (s : Str) (p : MetadataPath) (h : MetadataPath.new s = .ok p)
    (v : MetadataVersion) (cwd : List Str) (base : Str) :
    ∃ dirs last file, pieces s = dirs ++ [last] ∧
      file = (match v with | .none => [] | .number n => decimal n ++ ['.']) ++ last ++
        ['.', 'j', 's', 'o', 'n'] ∧
      (∀ c ∈ dirs ++ [file], Harmless c) ∧
      resolve cwd (metadataFile base p v) = resolve cwd base ++ dirs.filter (· ≠ []) ++ [file] := by
  obtain ⟨rfl, hs⟩ := accepted_iff_meta.1 h
  have hne := splitOn_ne_nil '/' p
  have ej : ".json".toList = ['.', 'j', 's', 'o', 'n'] := by decide
  have ec : MetadataPath.components p v = (splitOn '/' p).dropLast ++
      [v.prefixStr ++ (splitOn '/' p).getLastD [] ++ ".json".toList] := rfl
  refine ⟨(splitOn '/' p).dropLast, (splitOn '/' p).getLastD [],
    v.prefixStr ++ (splitOn '/' p).getLastD [] ++ ".json".toList, ?_, ?_, ?_, ?_⟩
  · rw [pieces_eq]; exact (dropLast_append_getLastD _ hne).symm
  · rw [ej]; cases v <;> rfl
  · intro c hc
    exact metadata_component hs v (by rw [ec]; exact hc)
  · unfold metadataFile
    rw [resolve_extend cwd _ base (fun c hc =>
      ⟨(metadata_component hs v hc).noSlash, (metadata_component hs v hc).notDot,
        (metadata_component hs v hc).notDotDot⟩), ec, List.filter_append]
    rw [show List.filter (fun x => decide (x ≠ []))
      [v.prefixStr ++ (splitOn '/' p).getLastD [] ++ ".json".toList] =
      [v.prefixStr ++ (splitOn '/' p).getLastD [] ++ ".json".toList] from by
        rw [List.filter_cons, if_pos (by simp)]; rfl]
    rw [List.append_assoc (resolve cwd base)]

/-- The same for metadata: the directory part of the path, then one file name made of the version,
the last component and the extension. -/
theorem C42_metadata_inside (s : Str) (p : MetadataPath) (h : MetadataPath.new s = .ok p)
    (v : MetadataVersion) (cwd : List Str) (base : Str) :
    ∃ dirs last file, pieces s = dirs ++ [last] ∧
      file = (match v with | .none => [] | .number n => numberText n ++ ['.']) ++ last ++
        ['.', 'j', 's', 'o', 'n'] ∧
      (∀ c ∈ dirs ++ [file], Harmless c) ∧
      resolve cwd (metadataFile base p v) = resolve cwd base ++ dirs.filter (· ≠ []) ++ [file] := by
  obtain ⟨dirs, last, file, h1, h2, h3⟩ := metadata_inside s p h v cwd base
  refine ⟨dirs, last, file, h1, ?_, h3⟩
  rw [h2]
  cases v <;> simp only [decimal_eq]

/-- Conversely the dangerous strings are refused: absolute paths, and paths with a "." or ".."
component or an illegal character. -/
theorem C42_refused (s : Str) (h : s = [] ∨ s.head? = some '/' ∨ ['.'] ∈ pieces s ∨
    ['.', '.'] ∈ pieces s ∨ '\\' ∈ s ∨ ':' ∈ s ∨ ∃ c ∈ s, c.toNat < 0x20) :
    (∀ p, TargetPath.new s ≠ .ok p) ∧ (∀ p, MetadataPath.new s ≠ .ok p) ∧
      ∀ p, VirtualTargetPath.new s ≠ .ok p := by
  have hbad : safePath s ≠ .ok () := by
    intro hok
    obtain ⟨h1, h2, h3, h4⟩ := (safePath_ok_iff s).1 hok
    rw [pieces_eq] at h
    rcases h with h | h | h | h | h | h | ⟨c, hc, h⟩
    · exact h1 h
    · exact h2 h
    · exact (h4 _ h).1 rfl
    · exact (h4 _ h).2.1 rfl
    · exact h3 _ h ((illegalChars_iff _).2 (.inl (by simp)))
    · exact h3 _ h ((illegalChars_iff _).2 (.inl (by simp)))
    · exact h3 _ hc ((illegalChars_iff _).2 (.inr (.inl h)))
  refine ⟨fun p hp => hbad (accepted_iff_target.1 hp).2,
    fun p hp => hbad (accepted_iff_meta.1 hp).2, fun p hp => hbad ?_⟩
  unfold VirtualTargetPath.new at hp
  cases hsp : safePath s with
  | error e => rw [hsp] at hp; cases hp
  | ok u => rfl

/-- A non-trivial instance: a nested path below a relative base containing "..". -/
example : TargetPath.new "a/b//c".toList = .ok "a/b//c".toList ∧
    resolve ["home".toList, "me".toList] (targetFile "../repo".toList "a/b//c".toList) =
      ["home".toList, "repo".toList, "a".toList, "b".toList, "c".toList] ∧
    resolve [] (metadataFile "/srv".toList "x/root".toList (.number 12)) =
      ["srv".toList, "x".toList, "12.root.json".toList] ∧
    ['.', '.'] ∈ pieces "a/../b".toList := by decide

/-! ## C43 Reserved device names

The code compares a lower-cased component with a list of upper-case names, so the check never
fires. The property is false for this code. -/

/-- Every device name, in any mixture of upper and lower case, is accepted as a path. -/
theorem C43_device_names_are_accepted (s : Str) (h : IsDevice s) : TargetPath.new s = .ok s := by
  rw [accepted_iff_target]
  refine ⟨rfl, ?_⟩
  rw [safePath_ok_iff]
  have key : ∀ d ∈ dosDevices, d ≠ [] ∧ ∀ c ∈ d, c ∈ "abcdefghijklmnopqrstuvwxyz0123456789$".toList := by
    decide
  obtain ⟨k1, k2⟩ := key _ h
  have hchar : ∀ c ∈ s, c.toLower ∈ "abcdefghijklmnopqrstuvwxyz0123456789$".toList := by
    intro c hc
    exact k2 _ (List.mem_map.2 ⟨c, hc, rfl⟩)
  have hillegal : ∀ c ∈ illegalChars, c.toLower ∉ "abcdefghijklmnopqrstuvwxyz0123456789$".toList := by
    decide
  have hslash : '/' ∉ s := by
    intro hm
    have := hchar _ hm
    revert this; decide
  have hdot : '.' ∉ s := by
    intro hm
    have := hchar _ hm
    revert this; decide
  refine ⟨?_, ?_, ?_, ?_⟩
  · rintro rfl
    exact k1 rfl
  · intro hh
    cases s with
    | nil => cases hh
    | cons x xs => simp at hh; subst hh; exact hslash (by simp)
  · intro c hc hi
    exact hillegal c hi (hchar c hc)
  · intro comp hcomp
    rw [splitOn_of_not_mem _ _ hslash, List.mem_singleton] at hcomp
    subst hcomp
    refine ⟨?_, ?_, lowercase_not_device _⟩ <;> (rintro rfl; exact hdot (by simp))

/-- The check is dead for all strings: acceptance is decided by the other rules alone. -/
theorem C43_check_never_fires (s : Str) : TargetPath.new s = .ok s ↔
    s ≠ [] ∧ s.head? ≠ some '/' ∧ ['.'] ∉ pieces s ∧ ['.', '.'] ∉ pieces s ∧
    ∀ c ∈ s, c ∉ [':', '\\', '<', '>', '"', '|', '?', '*'] ∧ 0x20 ≤ c.toNat ∧ c.toNat ≠ 0x7f := by
  rw [accepted_iff_target, safePath_ok_iff, pieces_eq]
  constructor
  · rintro ⟨-, h1, h2, h3, h4⟩
    refine ⟨h1, h2, fun h => (h4 _ h).1 rfl, fun h => (h4 _ h).2.1 rfl, fun c hc => ?_⟩
    have := h3 c hc
    rw [illegalChars_iff] at this
    simp only [not_or] at this
    exact ⟨this.1, by omega, this.2.2⟩
  · rintro ⟨h1, h2, h3, h4, h5⟩
    refine ⟨rfl, h1, h2, fun c hc => ?_, fun comp hcomp => ⟨?_, ?_, lowercase_not_device _⟩⟩
    · have := h5 c hc
      rw [illegalChars_iff]
      simp only [not_or]
      exact ⟨this.1, by omega, this.2.2⟩
    · rintro rfl; exact h3 hcomp
    · rintro rfl; exact h4 hcomp

/-- What holds: a device name followed by a colon ("con:") is refused, in any case and at any
position, because of the colon. Missing for the full claim: names without a colon. -/
theorem C43_with_colon_partial (s : Str)
    (h : ∃ d, IsDevice d ∧ d ++ [':'] ∈ pieces s) : ∀ p, TargetPath.new s ≠ .ok p := by
  obtain ⟨d, hd, hc⟩ := h
  refine (C42_refused s ?_).1
  rw [pieces_eq] at hc
  exact .inr (.inr (.inr (.inr (.inr (.inl (mem_splitOn_subset '/' s _ hc ':' (by simp)))))))

example : IsDevice "Com1".toList ∧ IsDevice "NUL".toList := by
  constructor <;> (unfold IsDevice; decide)

example : TargetPath.new "CON".toList = .ok "CON".toList ∧ TargetPath.new "nul".toList = .ok "nul".toList ∧
    TargetPath.new "dir/Com1".toList = .ok "dir/Com1".toList ∧
    TargetPath.new "dir/Com1:".toList = .error .illegalArgument := by decide

/-! ## C44 Different metadata never share a file

False in general: versions are written as a prefix of the file name, and empty components vanish. -/

/-- A metadata path "1.root" without version and "root" at version 1 are the same file; so are the
target paths "a//b" and "a/b". -/
theorem C44_collisions (cwd : List Str) (base : Str) :
    (∃ p v p' v', MetadataPath.new p = .ok p ∧ MetadataPath.new p' = .ok p' ∧ (p, v) ≠ (p', v') ∧
      resolve cwd (metadataFile base p v) = resolve cwd (metadataFile base p' v')) ∧
    (∃ p p', TargetPath.new p = .ok p ∧ TargetPath.new p' = .ok p' ∧ p ≠ p' ∧
      resolve cwd (targetFile base p) = resolve cwd (targetFile base p')) := by
  constructor
  · refine ⟨"1.root".toList, .none, "root".toList, .number 1, by decide, by decide, by decide, ?_⟩
    have : MetadataPath.components "1.root".toList .none =
        MetadataPath.components "root".toList (.number 1) := by decide
    unfold metadataFile
    rw [this]
  · refine ⟨"a//b".toList, "a/b".toList, by decide, by decide, by decide, ?_⟩
    obtain ⟨n1, _, _, e1, r1⟩ := C42_target_inside "a//b".toList "a//b".toList (by decide) cwd base
    obtain ⟨n2, _, _, e2, r2⟩ := C42_target_inside "a/b".toList "a/b".toList (by decide) cwd base
    rw [r1, r2, e1, e2]
    congr 1

/-- Same file for two target paths means the same path, as long as no component is empty. -/
theorem C44_targets_partial (p p' : TargetPath) (h : TargetPath.new p = .ok p)
    (h' : TargetPath.new p' = .ok p') (hn : [] ∉ pieces p) (hn' : [] ∉ pieces p')
    (cwd : List Str) (base : Str)
    (e : resolve cwd (targetFile base p) = resolve cwd (targetFile base p')) : p = p' := by
  obtain ⟨n1, _, _, e1, r1⟩ := C42_target_inside p p h cwd base
  obtain ⟨n2, _, _, e2, r2⟩ := C42_target_inside p' p' h' cwd base
  rw [r1, r2, e1, e2] at e
  have e := List.append_cancel_left e
  have f : ∀ l : List Str, [] ∉ l → l.filter (· ≠ []) = l := by
    intro l hl
    rw [List.filter_eq_self]
    intro a ha
    simp only [decide_eq_true_eq]
    rintro rfl; exact hl ha
  rw [f _ hn, f _ hn', pieces_eq, pieces_eq] at e
  exact splitOn_injective '/' e

/-- **C44**, for all accepted target paths: they share a file exactly if they differ in empty components
only. -/
theorem C44_shared_target_file_iff (p p' : TargetPath) (h : TargetPath.new p = .ok p)
    (h' : TargetPath.new p' = .ok p') (cwd : List Str) (base : Str) :
    resolve cwd (targetFile base p) = resolve cwd (targetFile base p') ↔
      (pieces p).filter (· ≠ []) = (pieces p').filter (· ≠ []) := by
  obtain ⟨n1, _, _, e1, r1⟩ := C42_target_inside p p h cwd base
  obtain ⟨n2, _, _, e2, r2⟩ := C42_target_inside p' p' h' cwd base
  rw [r1, r2, e1, e2]
  exact ⟨List.append_cancel_left, fun e => by rw [e]⟩

/-- **C44**, for all accepted metadata paths and versions: they share a file exactly if their directory
parts differ in empty components only and their last components with the version number before them are
the same. -/
theorem C44_shared_metadata_file_iff (p p' : MetadataPath) (v v' : MetadataVersion)
    (h : MetadataPath.new p = .ok p) (h' : MetadataPath.new p' = .ok p') (cwd : List Str) (base : Str)
    (dirs dirs' : List Str) (last last' : Str) (hp : pieces p = dirs ++ [last])
    (hp' : pieces p' = dirs' ++ [last']) :
    resolve cwd (metadataFile base p v) = resolve cwd (metadataFile base p' v') ↔
      dirs.filter (· ≠ []) = dirs'.filter (· ≠ []) ∧
      (match v with | .none => [] | .number n => numberText n ++ ['.']) ++ last =
        (match v' with | .none => [] | .number n => numberText n ++ ['.']) ++ last' := by
  obtain ⟨d1, l1, f1, e1, g1, _, r1⟩ := C42_metadata_inside p p h v cwd base
  obtain ⟨d2, l2, f2, e2, g2, _, r2⟩ := C42_metadata_inside p' p' h' v' cwd base
  rw [hp] at e1
  rw [hp'] at e2
  obtain ⟨rfl, k1⟩ := List.append_inj' e1 rfl
  obtain ⟨rfl, k2⟩ := List.append_inj' e2 rfl
  cases k1
  cases k2
  rw [r1, r2, g1, g2]
  constructor
  · intro e
    obtain ⟨e3, e4⟩ := List.append_inj' e rfl
    exact ⟨List.append_cancel_left e3, List.append_cancel_right (List.cons.inj e4).1⟩
  · rintro ⟨e3, e4⟩
    rw [e3, e4]

-- "a//1.b" without version and "a/b" at version 1 share a file, "a/b" at version 11 has another.
example : MetadataPath.new "a//1.b".toList = .ok "a//1.b".toList ∧
    MetadataPath.new "a/b".toList = .ok "a/b".toList ∧
    resolve [] (metadataFile "r".toList "a//1.b".toList .none) =
      resolve [] (metadataFile "r".toList "a/b".toList (.number 1)) ∧
    resolve [] (metadataFile "r".toList "a//1.b".toList .none) ≠
      resolve [] (metadataFile "r".toList "a/b".toList (.number 11)) := by decide +kernel

theorem app_json_inj {a b : Str} (h : a ++ ".json".toList = b ++ ".json".toList) : a = b :=
  List.append_cancel_right h

theorem metadata_shared (p p' : MetadataPath) (v v' : MetadataVersion)
    (h : MetadataPath.new p = .ok p) (h' : MetadataPath.new p' = .ok p')
    (hn : [] ∉ (pieces p).dropLast) (hn' : [] ∉ (pieces p').dropLast)
    (cwd : List Str) (base : Str)
    (e : resolve cwd (metadataFile base p v) = resolve cwd (metadataFile base p' v')) :
    (p = p' ∧ v = v') ∨
    (∃ n dirs last, v = .none ∧ v' = .number n ∧ pieces p' = dirs ++ [last] ∧
      pieces p = dirs ++ [decimal n ++ '.' :: last]) ∨
    (∃ n dirs last, v = .number n ∧ v' = .none ∧ pieces p = dirs ++ [last] ∧
      pieces p' = dirs ++ [decimal n ++ '.' :: last]) := by
  obtain ⟨d1, l1, f1, s1, t1, _, r1⟩ := metadata_inside p p h v cwd base
  obtain ⟨d2, l2, f2, s2, t2, _, r2⟩ := metadata_inside p' p' h' v' cwd base
  rw [s1, List.dropLast_concat] at hn
  rw [s2, List.dropLast_concat] at hn'
  rw [r1, r2, List.append_assoc, List.append_assoc] at e
  have e := List.append_cancel_left e
  have f : ∀ l : List Str, [] ∉ l → l.filter (· ≠ []) = l := by
    intro l hl
    rw [List.filter_eq_self]
    intro a ha
    simp only [decide_eq_true_eq]
    rintro rfl; exact hl ha
  rw [f _ hn, f _ hn'] at e
  obtain ⟨ed, ef⟩ := List.append_inj' e rfl
  injection ef with ef
  subst ed
  rw [t1, t2] at ef
  have ef := List.append_cancel_right ef
  have back : ∀ {q q' : Str}, pieces q = pieces q' → q = q' := by
    intro q q' hq
    rw [pieces_eq, pieces_eq] at hq
    exact splitOn_injective '/' hq
  cases v with
  | none =>
    cases v' with
    | none =>
      left
      simp only [List.nil_append] at ef
      exact ⟨back (by rw [s1, s2, ef]), rfl⟩
    | number n =>
      right; left
      simp only [List.nil_append] at ef
      exact ⟨n, d1, l2, rfl, rfl, s2, by rw [s1, ef]; simp⟩
  | number m =>
    cases v' with
    | none =>
      right; right
      simp only [List.nil_append] at ef
      exact ⟨m, d1, l1, rfl, rfl, s1, by rw [s2, ← ef]; simp⟩
    | number n =>
      left
      simp only [List.append_assoc, List.singleton_append] at ef
      obtain ⟨em, el⟩ := append_sep_inj (decimal_no m '.' (by decide)) (decimal_no n '.' (by decide)) ef
      exact ⟨back (by rw [s1, s2, el]), by rw [decimal_injective em]⟩

/-- Two metadata paths without empty directory components share a file only if path and version are
the same, or one is unversioned with a file name that begins with the version number of the other.
Missing for the full claim: this exception, and paths with empty components. -/
theorem C44_metadata_partial (p p' : MetadataPath) (v v' : MetadataVersion)
    (h : MetadataPath.new p = .ok p) (h' : MetadataPath.new p' = .ok p')
    (hn : [] ∉ (pieces p).dropLast) (hn' : [] ∉ (pieces p').dropLast)
    (cwd : List Str) (base : Str)
    (e : resolve cwd (metadataFile base p v) = resolve cwd (metadataFile base p' v')) :
    (p = p' ∧ v = v') ∨
    (∃ n dirs last, v = .none ∧ v' = .number n ∧ pieces p' = dirs ++ [last] ∧
      pieces p = dirs ++ [numberText n ++ '.' :: last]) ∨
    (∃ n dirs last, v = .number n ∧ v' = .none ∧ pieces p = dirs ++ [last] ∧
      pieces p' = dirs ++ [numberText n ++ '.' :: last]) := by
  simp only [← decimal_eq]
  exact metadata_shared p p' v v' h h' hn hn' cwd base e

/-- No accepted path and version other than the role itself reaches the unversioned file of a
top-level role. -/
theorem C44_toplevel_unversioned_partial (r : Role) (p : MetadataPath) (v : MetadataVersion)
    (h : MetadataPath.new p = .ok p) (cwd : List Str) (base : Str)
    (e : resolve cwd (metadataFile base p v) = resolve cwd (metadataFile base r.name .none)) :
    p = r.name ∧ v = .none := by
  have hr : MetadataPath.new r.name = .ok r.name := by cases r <;> decide
  obtain ⟨d1, l1, f1, s1, t1, _, r1⟩ := metadata_inside p p h v cwd base
  have s2 : pieces r.name = [] ++ [r.name] := by cases r <;> decide
  obtain ⟨d2, l2, f2, s2', t2, _, r2⟩ := metadata_inside r.name r.name hr .none cwd base
  rw [s2] at s2'
  obtain ⟨e1, e2⟩ := List.append_inj' s2' rfl
  injection e2 with e2
  subst e1 e2
  rw [r1, r2, List.append_assoc, List.append_assoc] at e
  have e := List.append_cancel_left e
  simp only [List.filter_nil] at e
  obtain ⟨ed, ef⟩ := List.append_inj' e rfl
  injection ef with ef
  rw [t1, t2] at ef
  have ef := List.append_cancel_right ef
  have hs := (accepted_iff_meta.1 h).2
  have hd : d1 = [] := by
    cases d1 with
    | nil => rfl
    | cons x xs =>
      obtain ⟨y, ys, ey, hy⟩ := accepted_head hs
      rw [pieces_eq, ey] at s1
      injection s1 with ex _
      subst ex
      simp [hy] at ed
  subst hd
  have hp : p = l1 := by
    have := joinWith_splitOn '/' p
    rw [pieces_eq] at s1
    rw [s1] at this
    exact this.symm
  cases v with
  | none => simp only [List.nil_append] at ef; exact ⟨hp.trans ef, rfl⟩
  | number n =>
    exfalso
    simp only [List.nil_append, List.append_assoc] at ef
    cases hdn : decimal n with
    | nil => exact decimal_ne_nil n hdn
    | cons c cs =>
      have hc := decimal_chars n c (by rw [hdn]; simp)
      rw [hdn] at ef
      have : r.name.head? = some c := by rw [← ef]; rfl
      have key : ∀ r : Role, (r.name.head?.map (fun c => decide (57 < c.toNat))) = some true := by
        intro r; cases r <;> decide
      have hk := key r
      rw [this] at hk
      have : 57 < c.toNat := by simpa using hk
      omega

/-- Non-trivial instances: different nested paths at different versions. -/
example : MetadataPath.new "a/b".toList = .ok "a/b".toList ∧ [] ∉ (pieces "a/b".toList).dropLast ∧
    resolve [] (metadataFile "m".toList "a/b".toList (.number 3)) ≠
      resolve [] (metadataFile "m".toList "a/b".toList (.number 30)) ∧
    resolve [] (metadataFile "m".toList "a/3.b".toList .none) =
      resolve [] (metadataFile "m".toList "a/b".toList (.number 3)) :=
  ⟨by decide, by decide, by decide +kernel, by decide +kernel⟩

/-! ## C46 Hash-prefixed target names -/

theorem splitOn_hashed (p : TargetPath) (hv : HashValue) :
    splitOn '/' (joinWith '/' ((splitOn '/' p).dropLast ++
      [hexLower hv ++ '.' :: (splitOn '/' p).getLastD []])) =
      (splitOn '/' p).dropLast ++ [hexLower hv ++ '.' :: (splitOn '/' p).getLastD []] := by
  apply splitOn_joinWith
  · simp
  · intro c hc
    rw [List.mem_append, List.mem_singleton] at hc
    rcases hc with hc | rfl
    · exact mem_splitOn_no_sep '/' p c ((List.dropLast_sublist _).subset hc)
    · intro hm
      rw [List.mem_append, List.mem_cons] at hm
      rcases hm with hm | hm | hm
      · have := hexLower_chars hv '/' hm
        revert this; decide
      · exact absurd hm (by decide)
      · exact mem_splitOn_no_sep '/' p _ (getLastD_mem (splitOn_ne_nil '/' p)) hm

theorem mem_joinWith (sep : Char) (l : List Str) (x : Char) (h : x ∈ joinWith sep l) :
    x = sep ∨ ∃ c ∈ l, x ∈ c := by
  induction l with
  | nil => cases h
  | cons c cs ih =>
    cases cs with
    | nil => exact .inr ⟨c, by simp, h⟩
    | cons d ds =>
      have e : joinWith sep (c :: d :: ds) = c ++ sep :: joinWith sep (d :: ds) := rfl
      rw [e, List.mem_append, List.mem_cons] at h
      rcases h with h | h | h
      · exact .inr ⟨c, by simp, h⟩
      · exact .inl h
      · rcases ih h with h | ⟨y, hy, hx⟩
        · exact .inl h
        · exact .inr ⟨y, by simp only [List.mem_cons] at hy ⊢; exact .inr hy, hx⟩

/-- For every accepted target path and every non-empty digest the hash-prefixed name is accepted; it
has the same directory part, and its file name is the hex digest, a dot and the old file name. -/
theorem C46_hash_prefix_accepted (s : Str) (p : TargetPath) (h : TargetPath.new s = .ok p)
    (hv : HashValue) (hne : hv ≠ []) :
    ∃ q dirs file, p.withHashPrefix hv = .ok q ∧ TargetPath.new q = .ok q ∧
      pieces p = dirs ++ [file] ∧ pieces q = dirs ++ [hexText hv ++ '.' :: file] := by
  rw [← hexLower_eq]
  obtain ⟨rfl, hs⟩ := accepted_iff_target.1 h
  have hsplit := splitOn_hashed p hv
  have hdl := dropLast_append_getLastD _ (splitOn_ne_nil '/' p)
  obtain ⟨h1, h2, h3, h4⟩ := (safePath_ok_iff p).1 hs
  have hhex : ∃ c cs, hexLower hv = c :: cs := by
    cases hv with
    | nil => exact absurd rfl hne
    | cons b bs => exact ⟨_, _, rfl⟩
  obtain ⟨hx, hxs, ehex⟩ := hhex
  have hhx := hexLower_chars hv hx (by rw [ehex]; simp)
  have hlast := getLastD_mem (splitOn_ne_nil '/' p)
  generalize hq : joinWith '/' ((splitOn '/' p).dropLast ++
      [hexLower hv ++ '.' :: (splitOn '/' p).getLastD []]) = q at hsplit
  have hok : safePath q = .ok () := by
    rw [safePath_ok_iff]
    refine ⟨?_, ?_, ?_, ?_⟩
    · rintro rfl
      rw [ehex] at hsplit
      have : ((splitOn '/' p).dropLast ++
        [hx :: hxs ++ '.' :: (splitOn '/' p).getLastD []]).getLastD [] = [] := by
        rw [← hsplit]; rfl
      simp at this
    · intro hh
      cases q with
      | nil => cases hh
      | cons c cs =>
        simp at hh
        subst hh
        rw [splitOn_cons_sep] at hsplit
        obtain ⟨x, xs, e, hx0⟩ := accepted_head hs
        rw [e] at hsplit
        cases xs with
        | nil =>
          simp only [List.dropLast_singleton, List.nil_append, List.cons.injEq, ehex] at hsplit
          exact absurd hsplit.1 (by simp)
        | cons y ys =>
          simp only [List.dropLast_cons_cons, List.cons_append, List.cons.injEq] at hsplit
          exact hx0 hsplit.1.symm
    · intro c hc
      rw [← hq] at hc
      rcases mem_joinWith '/' _ c hc with rfl | ⟨y, hy, hcy⟩
      · decide
      · rw [List.mem_append, List.mem_singleton] at hy
        rcases hy with hy | rfl
        · exact h3 c (mem_splitOn_subset '/' p y ((List.dropLast_sublist _).subset hy) c hcy)
        · rw [List.mem_append, List.mem_cons] at hcy
          rcases hcy with hcy | rfl | hcy
          · have := hexLower_chars hv c hcy
            rw [illegalChars_iff]
            simp only [not_or]
            refine ⟨?_, by omega, by omega⟩
            simp only [List.mem_cons, List.not_mem_nil, or_false, not_or]
            refine ⟨this.2.2.2.2.2.1, this.2.2.2.2.2.2, this.2.2.1, this.2.2.2.1, ?_, ?_,
              this.2.2.2.2.1, ?_⟩ <;> (rintro rfl; revert this; decide)
          · decide
          · exact h3 c (mem_splitOn_subset '/' p _ hlast c hcy)
    · intro comp hcomp
      rw [hsplit, List.mem_append, List.mem_singleton] at hcomp
      rcases hcomp with hcomp | rfl
      · exact h4 _ ((List.dropLast_sublist _).subset hcomp)
      · refine ⟨?_, ?_, lowercase_not_device _⟩
        · rw [ehex]; simp
        · rw [ehex]
          intro e
          simp only [List.cons_append, List.cons.injEq] at e
          rw [e.1] at hhx
          exact absurd hhx.1 (by decide)
  refine ⟨q, (splitOn '/' p).dropLast, (splitOn '/' p).getLastD [], ?_,
    accepted_iff_target.2 ⟨rfl, hok⟩, ?_, ?_⟩
  · unfold TargetPath.withHashPrefix TargetPath.components
    simp only
    rw [hq]
    exact accepted_iff_target.2 ⟨rfl, hok⟩
  · rw [pieces_eq]; exact hdl.symm
  · rw [pieces_eq]; exact hsplit

/-- Different (path, digest) pairs get different names, even for digests of different lengths. -/
theorem C46_hash_prefix_injective (p p' q : TargetPath) (hv hv' : HashValue)
    (h : p.withHashPrefix hv = .ok q) (h' : p'.withHashPrefix hv' = .ok q) : p = p' ∧ hv = hv' := by
  unfold TargetPath.withHashPrefix TargetPath.components at h h'
  have e := (accepted_iff_target.1 h).1.symm.trans (accepted_iff_target.1 h').1
  have e := congrArg (splitOn '/') e
  rw [splitOn_hashed, splitOn_hashed] at e
  obtain ⟨ed, ef⟩ := List.append_inj' e rfl
  injection ef with ef
  have nodot : ∀ b : HashValue, '.' ∉ hexLower b := by
    intro b hm
    have := hexLower_chars b '.' hm
    revert this; decide
  obtain ⟨eh, el⟩ := append_sep_inj (nodot hv) (nodot hv') ef
  refine ⟨splitOn_injective '/' ?_, hexLower_injective eh⟩
  rw [← dropLast_append_getLastD _ (splitOn_ne_nil '/' p),
    ← dropLast_append_getLastD _ (splitOn_ne_nil '/' p'), ed, el]

/-- With an empty digest (which no hash function produces, but metadata could list) the name of a
path ending in '/' is refused; this is an error result, not a panic. -/
theorem C46_empty_digest : TargetPath.withHashPrefix "a/".toList [] = .error .illegalArgument := by
  decide

example : TargetPath.withHashPrefix "a/b.txt".toList [0xde, 0x0f] = .ok "a/de0f.b.txt".toList := by
  decide

end RustTuf

namespace RustTuf
open Spec

/-! ## C62 Targets and metadata live in different directories -/

theorem fixed_dir (cwd : List Str) (lp d : Str) (hs : '/' ∉ d) (h1 : d ≠ ['.'])
    (h2 : d ≠ ['.', '.']) (h0 : d ≠ []) : resolve cwd (pathPush lp d) = resolve cwd lp ++ [d] := by
  rw [resolve_push cwd lp d hs h1 h2]; simp [h0]

/-- In a repository made by `FileSystemRepository::new`, no target is ever stored in a file that
holds metadata. -/
theorem C62_targets_apart_from_metadata (lp : Str) (m : MetadataPath) (v : MetadataVersion)
    (t : TargetPath) (hm : MetadataPath.new m = .ok m) (ht : TargetPath.new t = .ok t)
    (cwd : List Str) :
    resolve cwd (metadataFile (defaultDirs lp).1 m v) ≠ resolve cwd (targetFile (defaultDirs lp).2 t) := by
  obtain ⟨d1, l1, f1, _, _, _, r1⟩ := metadata_inside m m hm v cwd (defaultDirs lp).1
  obtain ⟨n2, _, _, _, r2⟩ := C42_target_inside t t ht cwd (defaultDirs lp).2
  have e1 : resolve cwd (defaultDirs lp).1 = resolve cwd lp ++ ["metadata".toList] :=
    fixed_dir cwd lp "metadata".toList (by decide) (by decide) (by decide) (by decide)
  have e2 : resolve cwd (defaultDirs lp).2 = resolve cwd lp ++ ["targets".toList] :=
    fixed_dir cwd lp "targets".toList (by decide) (by decide) (by decide) (by decide)
  rw [r1, r2, e1, e2]
  intro e
  simp only [List.append_assoc] at e
  have e := List.append_cancel_left e
  injection e with e _
  exact absurd e (by decide)

/-- With the bare builder (no prefixes) the two kinds do share files: a target named "root.json" is
the root metadata file. -/
theorem C62_builder_default_collides (lp : Str) :
    TargetPath.new "root.json".toList = .ok "root.json".toList ∧
    metadataFile (buildDirs lp none none).1 Role.root.name .none =
      targetFile (buildDirs lp none none).2 "root.json".toList := by
  refine ⟨by decide, ?_⟩
  have : MetadataPath.components Role.root.name .none = TargetPath.components "root.json".toList := by
    decide
  unfold metadataFile targetFile buildDirs
  rw [this]

example : resolve [] (metadataFile (defaultDirs "/r".toList).1 "root".toList .none) =
      ["r".toList, "metadata".toList, "root.json".toList] ∧
    resolve [] (targetFile (defaultDirs "/r".toList).2 "root.json".toList) =
      ["r".toList, "targets".toList, "root.json".toList] := by decide

end RustTuf
