import Verif.Props.MirrorClient
import Verif.Props.EndToEndExample
import Verif.Props.FileSystemExample

/-!
# Example for C87
The release of the example for C84 and C85, uploaded into a directory that a web server hands out.
-/

namespace RustTuf.Props
open Spec RustTuf Formats Keys Json Client

namespace MirrorExample
open EndToEndExample
open SigningExample (ring law digest digest_length verify lib root)
open ReleaseExample (D content source)

/-- The name of the target, and the name under which it is stored. -/
def names (p : TargetPath) : Prop := p = "x/0506.y".toList ∨ p = "x/y".toList

theorem names_plain : PlainTargets names where
  accepted := by rintro p (rfl | rfl) <;> exact ⟨by decide +kernel, by decide +kernel⟩
  flat := by
    rintro p q (rfl | rfl) (rfl | rfl) h
    · rfl
    · exact absurd h (by decide +kernel)
    · exact absurd h (by decide +kernel)
    · rfl

/-- Storing files, the last one first. -/
def storeAll : List ((MetadataPath × MetadataVersion) × Bytes) → List StorageCall
  | [] => []
  | (k, b) :: l => storeAll l ++ [.store none (.metadata k.1 k.2) (cursorEvents b)]

theorem calls_append (S : Storage L) (a b : List StorageCall) : ∀ l,
    (S.calls l (a ++ b)).2 = (S.calls (S.calls l a).2 b).2 := by
  induction a with
  | nil => intro l; rfl
  | cons c a ih =>
    intro l
    simp only [List.cons_append, Storage.calls]
    exact ih _

theorem storeAll_get (l : List ((MetadataPath × MetadataVersion) × Bytes)) (m : Contents)
    (hm : ∀ p v, m (.metadata p v) = none) (p : MetadataPath) (v : MetadataVersion) :
    (mapStorage.calls m (storeAll l)).2 (.metadata p v) = Map.get? l (p, v) := by
  induction l with
  | nil => exact hm p v
  | cons x l ih =>
    obtain ⟨⟨q, w⟩, b⟩ := x
    unfold storeAll
    rw [calls_append]
    show ((mapStorage.calls m (storeAll l)).2.store none (.metadata q w) (cursorEvents b)).2 _ = _
    unfold Contents.store
    rw [delivered_cursor]
    dsimp only [Contents.put]
    rw [Map.get?]
    by_cases e : (q, w) = (p, v)
    · cases e
      rw [if_pos rfl, if_pos rfl]
    · rw [if_neg e, if_neg (fun h => e (by cases h; rfl)), ih]

theorem storeAll_target (l : List ((MetadataPath × MetadataVersion) × Bytes)) (m : Contents)
    (p : TargetPath) : (mapStorage.calls m (storeAll l)).2 (.target p) = m (.target p) := by
  induction l with
  | nil => rfl
  | cons x l ih =>
    obtain ⟨⟨q, w⟩, b⟩ := x
    unfold storeAll
    rw [calls_append]
    show ((mapStorage.calls m (storeAll l)).2.store none (.metadata q w) (cursorEvents b)).2 _ = _
    unfold Contents.store
    rw [delivered_cursor]
    dsimp only [Contents.put]
    rw [if_neg (fun h => nomatch h), ih]

/-- The author's calls: a broken transfer of the target, the target, the metadata. -/
def uploads : List StorageCall :=
  [.store none (.target "x/0506.y".toList) [.data [1], .err .other],
    .store none (.target "x/0506.y".toList) (cursorEvents content),
    .fetch (.metadata "timestamp".toList .none)] ++ storeAll files

def stored : Contents := (mapStorage.calls (fun _ => none) uploads).2

theorem stored_files : (fun p v => stored (.metadata p v)) = file := by
  funext p v
  unfold stored uploads
  rw [calls_append]
  exact storeAll_get files _ (fun p v => rfl) p v

theorem uploads_plain : ∀ c ∈ uploads, PlainKey names c.key := by
  have top : ∀ p ∈ ["timestamp".toList, "snapshot".toList, "targets".toList, "root".toList],
      PlainName p := by decide +kernel
  intro c hc
  simp only [uploads, storeAll, files, List.nil_append, List.cons_append, List.mem_cons,
    List.not_mem_nil, or_false] at hc
  rcases hc with rfl | rfl | rfl | rfl | rfl | rfl | rfl | rfl
  · exact .inl rfl
  · exact .inl rfl
  all_goals exact top _ (by decide +kernel)

/-- The directory after the uploads. -/
def srv : Tree := (OnDisk.fs.storage.calls OnDisk.opened uploads).2

/-- The surroundings of the client: it asks the web server. -/
noncomputable def out : Outside Nat :=
  { OnDisk.outside [] [] 0 false with
    remote := Web.repo.provider (staticServer Nat ["srv".toList] srv) }

theorem disk_empty : ∀ n, resolve [] "/srv/tuf".toList <+: n → n ≠ resolve [] "/srv/tuf".toList →
    OnDisk.disk n = none := by
  intro n hp hne
  unfold OnDisk.disk
  rw [if_neg]
  rintro (rfl | rfl)
  · exact absurd hp (by decide +kernel)
  · exact absurd hp (by decide +kernel)

/-- All hypotheses of C87_from_upload_to_disk_partial, and with them of C87_from_disk_to_disk_partial. -/
theorem delivered_over_web (start : Start)
    (h : Installs ring floats digest (Config.default true) file root start) :
    ∃ t io' u s1,
      construct (jsonEnv lib verify id fun _ => .refl _) D (out.world OnDisk.fs.storage)
        (Config.default true) start ⟨(0, OnDisk.opened), []⟩ = (.ok t, io') ∧
      update (jsonEnv lib verify id fun _ => .refl _) D (out.world OnDisk.fs.storage)
        (Config.default true) ⟨t, io'⟩ = (.ok u, s1) ∧
      (Accepts (out.world OnDisk.fs.storage) → ∃ s2 l,
        exec (jsonEnv lib verify id fun _ => .refl _) D (out.world OnDisk.fs.storage)
          (Config.default true) (.fetchTargetToWriter "x/y".toList) s1 = (.ok .done, s2) ∧
        s2.io.log = s1.io.log ++ l ∧ written l = content) ∧
      ((∀ o, (out.targetFault o).1 = none) → ∃ s2,
        exec (jsonEnv lib verify id fun _ => .refl _) D (out.world OnDisk.fs.storage)
          (Config.default true) (.fetchTarget "x/y".toList) s1 = (.ok .done, s2) ∧
        s2.io.w.2 (OnDisk.fs.name (.target "x/y".toList)) = some (.file content)) := by
  refine C87_from_upload_to_disk_partial ring verify floats digest id (fun _ => .refl _) law digest_length
    D (Config.default true) [] "/srv/tuf".toList OnDisk.disk OnDisk.opened OnDisk.fs OnDisk.new_ok
    disk_empty names names_plain uploads uploads_plain stored rfl Web.repo _ ["srv".toList]
    (staticServer_serves Nat _ _ _ _ _) Web.points rfl [] "/srv/tuf".toList OnDisk.disk OnDisk.opened
    OnDisk.fs OnDisk.new_ok disk_empty out rfl (fun _ => rfl) root root4 root_built
    (by rw [stored_files]; exact rotations) targetsCalls ta sta sn ssn ts sts
    (by rw [stored_files]; exact release) ?_ "x/y".toList "x/0506.y".toList "x/y".toList source
    [.sha256, .sha512] content last_call (by decide +kernel) (by decide +kernel) (by decide +kernel)
    (by decide +kernel) target_name (.inl rfl) (by decide +kernel) ?_ start
    (by rw [stored_files]; exact h) 0 []
  · intro e he o place
    have : (0 : Time) < wholeSecond e := by
      simp only [List.mem_cons, List.not_mem_nil, or_false] at he
      rcases he with rfl | rfl | rfl | rfl <;> decide +kernel
    exact this
  · unfold stored uploads
    rw [calls_append, storeAll_target]
    decide +kernel

example := delivered_over_web _ with_root
example := delivered_over_web _ with_keys
example : Accepts (out.world OnDisk.fs.storage) ∧ ∀ o, (out.targetFault o).1 = none :=
  ⟨⟨fun _ _ => rfl, fun _ => rfl⟩, fun _ => rfl⟩

end MirrorExample

end RustTuf.Props
