import Verif.Lemmas.Dates
import Verif.Props.Formats
import Verif.Props.RoundTrip
import Verif.Props.PublishExample

/-!
# C80: dates
-/

namespace RustTuf.Props
open Spec RustTuf Formats Json

/-- **C80.** Days are counted as in the Gregorian calendar: one of them is 1 January 1970, and every
day is followed by the next. -/
theorem C80_calendar : dateOfDay 719162 = ⟨1970, 1, 1⟩ ∧
    ∀ n, dateOfDay (n + 1) = nextDay (dateOfDay n) :=
  ⟨by decide +kernel, dateOfDay_succ⟩

theorem text_eq {d : Date} {hour minute sec : Nat} (h1 : 0 ≤ d.year) (h2 : d.year ≤ 9999)
    (h3 : d.month < 100) (h4 : d.day < 100) (h5 : hour < 100) (h6 : minute < 100) (h7 : sec < 100) :
    dateText d hour minute sec = formatYear d.year ++ '-' :: padded 2 d.month ++ '-' :: padded 2 d.day ++
      'T' :: padded 2 hour ++ ':' :: padded 2 minute ++ ':' :: padded 2 sec ++ ['Z'] := by
  unfold formatYear dateText
  rw [if_neg (by omega), padded_four (by omega), padded_two _ h3, padded_two _ h4, padded_two _ h5,
    padded_two _ h6, padded_two _ h7, show d.year.natAbs = d.year.toNat by omega]
  simp only [List.append_assoc, List.cons_append, List.nil_append]

/-- **C80.** What is written for a time of the years 0 to 9999 is its date and its time of day. -/
theorem C80_text (t : Time) (h1 : 0 ≤ (dateOf t).year) (h2 : (dateOf t).year ≤ 9999) :
    ∃ hour minute sec : Nat, hour < 24 ∧ minute < 60 ∧ sec < 60 ∧
      t / second % 86400 = hour * 3600 + minute * 60 + sec ∧
      formatDate t = dateText (dateOf t) hour minute sec := by
  have hm := dateOfDay_month (t / second / 86400)
  have hx : ((t / second % 86400).toNat : Int) = t / second % 86400 := by omega
  generalize hn : (t / second % 86400).toNat = x at hx
  refine ⟨x / 3600, x / 60 % 60, x % 60, by omega, by omega, by omega, by omega, ?_⟩
  have e : formatDate t = formatYear (dateOf t).year ++ '-' :: padded 2 (dateOf t).month ++
      '-' :: padded 2 (dateOf t).day ++ 'T' :: padded 2 ((t / second % 86400).toNat / 3600) ++
      ':' :: padded 2 ((t / second % 86400).toNat / 60 % 60) ++
      ':' :: padded 2 ((t / second % 86400).toNat % 60) ++ ['Z'] := rfl
  have hm' : (dateOf t).month ≤ 12 ∧ (dateOf t).day ≤ 31 := ⟨hm.2.1, hm.2.2.2⟩
  rw [e, hn, ← text_eq h1 h2 (by omega) (by omega) (by omega) (by omega) (by omega)]

-- A time of the year 33.
example : 0 ≤ (dateOf (12000 * 86400 * second + 3661 * second)).year ∧
    formatDate (12000 * 86400 * second + 3661 * second) = "0033-11-09T01:01:01Z".toList := by decide +kernel

/-- **C80.** Of the texts made of a date and a time of day, exactly those of an existing day and time are
read, as that time. -/
theorem C80_reads (d : Date) (hour minute sec : Nat) (h1 : 0 ≤ d.year) (h2 : d.year ≤ 9999)
    (h3 : d.month < 100) (h4 : d.day < 100) (h5 : hour < 100) (h6 : minute < 100) (h7 : sec < 60) :
    (∀ t, parseDate (dateText d hour minute sec) = some t →
      dateOf t = d ∧ second ∣ t ∧ t / second % 86400 = hour * 3600 + minute * 60 + sec) ∧
    ((parseDate (dateText d hour minute sec)).isSome ↔
      1 ≤ d.month ∧ d.month ≤ 12 ∧ 1 ≤ d.day ∧ d.day ≤ monthLength d.year d.month ∧
      hour < 24 ∧ minute < 60) := by
  rw [text_eq h1 h2 h3 h4 h5 h6 (by omega), parseDate_text h2 h3 h4 h5 h6 (by omega)]
  have hi := dayOfDate_iff (d := d) (by omega) (by omega)
  obtain ⟨y, mo, da⟩ := d
  cases h : dayOfDate ⟨y, mo, da⟩ with
  | none =>
    rw [h] at hi
    refine ⟨nofun, ?_⟩
    simp only [Option.isSome_none, Bool.false_eq_true, false_iff] at hi ⊢
    exact fun hc => hi ⟨hc.1, hc.2.1, hc.2.2.1, hc.2.2.2.1⟩
  | some n =>
    rw [h] at hi
    simp only [Option.isSome_some, true_iff] at hi
    unfold timeOfDay
    by_cases ht : hour < 24 ∧ minute < 60
    · rw [if_pos ⟨ht.1, ht.2, h7⟩]
      simp only [Option.some.injEq, Option.isSome_some, true_iff]
      refine ⟨?_, hi.1, hi.2.1, hi.2.2.1, hi.2.2.2, ht⟩
      rintro t rfl
      have e : n * 86400 * second + ((hour * 3600 + minute * 60 + sec : Nat) : Int) * second =
          (n * 86400 + ((hour * 3600 + minute * 60 + sec : Nat) : Int)) * second := by
        rw [Int.add_mul]
      rw [e, Int.mul_ediv_cancel _ (by decide)]
      refine ⟨?_, ⟨_, Int.mul_comm ..⟩, by push_cast; omega⟩
      unfold dateOf
      rw [Int.mul_ediv_cancel _ (by decide), ← dateOfDay_dayOfDate h]
      congr 1
      push_cast
      omega
    · rw [if_neg (by omega), if_neg (by omega)]
      refine ⟨nofun, ?_⟩
      simp only [Option.isSome_none, Bool.false_eq_true, false_iff]
      exact fun hc => ht hc.2.2.2.2

-- The 29 February of a leap year, and of a full century.
example : (parseDate (dateText ⟨2024, 2, 29⟩ 23 59 59)).isSome ∧ parseDate (dateText ⟨1900, 2, 29⟩ 0 0 0) = none ∧
    dateText ⟨2024, 2, 29⟩ 23 59 59 = "2024-02-29T23:59:59Z".toList := by decide +kernel

/-- **C80.** A date up to the year 9999 that was written can be read, as the same second. -/
theorem C80_read_back (t : Time) (h1 : -262144 ≤ (dateOf t).year) (h2 : (dateOf t).year ≤ 9999) :
    ∃ t', parseDate (formatDate t) = some t' ∧ second ∣ t' ∧ t' ≤ t ∧ t < t' + second := by
  refine ⟨_, parseDate_format h1 h2, ⟨t / second, Int.mul_comm ..⟩, ?_, ?_⟩
  · exact Int.ediv_mul_le t (by decide)
  · have := Int.lt_ediv_add_one_mul_self t (show 0 < second by decide)
    rwa [Int.add_mul, Int.one_mul] at this

-- Midnight before 1 March 2020 plus 1.5 seconds.
example : parseDate (formatDate (737484 * 86400 * second + second + 500000000)) =
    some (737484 * 86400 * second + second) ∧
    formatDate (737484 * 86400 * second + second + 500000000) = "2020-03-01T00:00:01Z".toList := by
  decide +kernel

/-- **C80.** The library writes a later date without complaint, but nobody can read it. -/
theorem C80_late_dates (t : Time) (h : 9999 < (dateOf t).year) : parseDate (formatDate t) = none :=
  parseDate_late h

-- The first such date.
example : (dateOf (3652059 * 86400 * second)).year = 10000 ∧
    formatDate (3652059 * 86400 * second) = "10000-01-01T00:00:00Z".toList := by decide +kernel

/-- The years that chrono knows. -/
def Representable (t : Time) : Prop := -262144 ≤ (dateOf t).year

/-- **C80.** What is read is never later than what was written, and less than a second earlier. -/
theorem C80_never_later (t t' : Time) (hr : Representable t)
    (h : parseDate (formatDate t) = some t') : t' ≤ t ∧ t < t' + second := by
  by_cases h2 : (dateOf t).year ≤ 9999
  · obtain ⟨u, h3, -, h4⟩ := C80_read_back t hr h2
    rw [h] at h3
    cases h3
    exact h4
  · rw [C80_late_dates t (by omega)] at h
    cases h

variable (F : FloatLib) (H : Bytes → Bytes)

/-- **C80.** Exactly the whole seconds up to the year 9999 survive being written and read. -/
theorem C80_good_dates (t : Time) (hr : Representable t) :
    GoodDate (lib F H) t ↔ second ∣ t ∧ (dateOf t).year ≤ 9999 := by
  show parseDate (formatDate t) = some t ↔ _
  constructor
  · intro h
    by_cases h2 : (dateOf t).year ≤ 9999
    · obtain ⟨u, h3, h4, -⟩ := C80_read_back t hr h2
      rw [h] at h3
      cases h3
      exact ⟨h4, h2⟩
    · rw [C80_late_dates t (by omega)] at h
      cases h
  · rintro ⟨⟨k, rfl⟩, h⟩
    rw [parseDate_format hr h, Int.mul_ediv_cancel_left _ (by decide), Int.mul_comm]

/-! ### Expiry of metadata -/

theorem decodeHead_expires {X : ShimLib} {role : Role} {m : List (Str × Json)} {s : Str}
    {x : Nat × Time} (hn : (m.map Prod.fst).Nodup) (h4 : Map.get? m "expires".toList = some (.str s))
    (h : decodeHead X role (members m) = some x) : X.parseDate s = some x.2 := by
  unfold decodeHead at h
  rw [field_members hn h4] at h
  have e4 : asStr (Json.str s).normal = some s := rfl
  rw [e4] at h
  simp only [Option.bind_eq_bind, Option.bind_eq_some_iff] at h
  obtain ⟨_, _, _, _, v, hv, _, h5, t, h6, h⟩ := h
  cases h5
  split at h
  · cases h
    exact h6
  · cases h

theorem root_expires {X : ShimLib} {r r' : RootMetadata} {j : Json} (he : encodeRoot X r = some j)
    (hd : decodeRoot X j.normal = some r') : X.parseDate (X.formatDate r.expires) = some r'.expires := by
  unfold encodeRoot at he
  split at he
  · cases he
  · cases he
    unfold decodeRoot at hd
    rw [asStruct_normal] at hd
    simp only [Option.bind_eq_bind, Option.bind_some, Option.bind_eq_some_iff] at hd
    obtain ⟨_, _, _, _, ⟨_, _, _, _⟩, _, ⟨v, t⟩, hh, hd⟩ := hd
    have := decodeHead_expires (of_decide_eq_true rfl) rfl hh
    cases hd
    exact this

theorem timestamp_expires {X : ShimLib} {r r' : TimestampMetadata} {j : Json}
    (he : encodeTimestamp X r = some j) (hd : decodeTimestamp X j.normal = some r') :
    X.parseDate (X.formatDate r.expires) = some r'.expires := by
  unfold encodeTimestamp at he
  rw [Option.map_eq_some_iff] at he
  obtain ⟨_, _, rfl⟩ := he
  unfold decodeTimestamp at hd
  rw [asStruct_normal] at hd
  simp only [Option.bind_eq_bind, Option.bind_some, Option.bind_eq_some_iff] at hd
  obtain ⟨_, _, ⟨v, t⟩, hh, hd⟩ := hd
  have := decodeHead_expires (of_decide_eq_true rfl) rfl hh
  cases hd
  exact this

theorem snapshot_expires {X : ShimLib} {r r' : SnapshotMetadata} {j : Json}
    (he : encodeSnapshot X r = some j) (hd : decodeSnapshot X j.normal = some r') :
    X.parseDate (X.formatDate r.expires) = some r'.expires := by
  unfold encodeSnapshot at he
  rw [Option.map_eq_some_iff] at he
  obtain ⟨_, _, rfl⟩ := he
  unfold decodeSnapshot at hd
  rw [asStruct_normal] at hd
  simp only [Option.bind_eq_bind, Option.bind_some, Option.bind_eq_some_iff] at hd
  obtain ⟨_, _, ⟨v, t⟩, hh, _, _, hd⟩ := hd
  have := decodeHead_expires (of_decide_eq_true rfl) rfl hh
  cases hd
  exact this

theorem targets_expires {X : ShimLib} {r r' : TargetsMetadata} {j : Json}
    (he : encodeTargets X r = some j) (hd : decodeTargets X j.normal = some r') :
    X.parseDate (X.formatDate r.expires) = some r'.expires := by
  unfold encodeTargets at he
  split at he
  · cases he
  · split at he
    · cases he
      unfold decodeTargets at hd
      rw [asStruct_normal] at hd
      simp only [Option.bind_eq_bind, Option.bind_some, Option.bind_eq_some_iff] at hd
      obtain ⟨_, _, _, _, ⟨v, t⟩, hh, hd⟩ := hd
      have := decodeHead_expires (of_decide_eq_true rfl) rfl hh
      cases hd
      exact this
    · rw [Option.map_eq_some_iff] at he
      obtain ⟨_, _, rfl⟩ := he
      unfold decodeTargets at hd
      rw [asStruct_normal] at hd
      simp only [Option.bind_eq_bind, Option.bind_some, Option.bind_eq_some_iff] at hd
      obtain ⟨_, _, _, _, ⟨v, t⟩, hh, hd⟩ := hd
      have := decodeHead_expires (of_decide_eq_true rfl) rfl hh
      cases hd
      exact this

/-- **C80.** Whatever metadata of the four roles a client reads, it expires for the client when it
does for its author or less than a second earlier. -/
theorem C80_expiry :
    (∀ r r' j, encodeRoot (lib F H) r = some j → decodeRoot (lib F H) j.normal = some r' →
      Representable r.expires → r'.expires ≤ r.expires ∧ r.expires < r'.expires + second) ∧
    (∀ r r' j, encodeTimestamp (lib F H) r = some j → decodeTimestamp (lib F H) j.normal = some r' →
      Representable r.expires → r'.expires ≤ r.expires ∧ r.expires < r'.expires + second) ∧
    (∀ r r' j, encodeSnapshot (lib F H) r = some j → decodeSnapshot (lib F H) j.normal = some r' →
      Representable r.expires → r'.expires ≤ r.expires ∧ r.expires < r'.expires + second) ∧
    (∀ r r' j, encodeTargets (lib F H) r = some j → decodeTargets (lib F H) j.normal = some r' →
      Representable r.expires → r'.expires ≤ r.expires ∧ r.expires < r'.expires + second) :=
  ⟨fun _ _ _ he hd hr => C80_never_later _ _ hr (root_expires he hd),
    fun _ _ _ he hd hr => C80_never_later _ _ hr (timestamp_expires he hd),
    fun _ _ _ he hd hr => C80_never_later _ _ hr (snapshot_expires he hd),
    fun _ _ _ he hd hr => C80_never_later _ _ hr (targets_expires he hd)⟩

/-- **C80.** Metadata that expire after the year 9999 can be built, signed and published, but no
client can read them. -/
theorem C80_late_expiry :
    (∀ r j, encodeRoot (lib F H) r = some j → 9999 < (dateOf r.expires).year →
      decodeRoot (lib F H) j.normal = none) ∧
    (∀ r j, encodeTimestamp (lib F H) r = some j → 9999 < (dateOf r.expires).year →
      decodeTimestamp (lib F H) j.normal = none) ∧
    (∀ r j, encodeSnapshot (lib F H) r = some j → 9999 < (dateOf r.expires).year →
      decodeSnapshot (lib F H) j.normal = none) ∧
    (∀ r j, encodeTargets (lib F H) r = some j → 9999 < (dateOf r.expires).year →
      decodeTargets (lib F H) j.normal = none) := by
  refine ⟨fun r j he hr => ?_, fun r j he hr => ?_, fun r j he hr => ?_, fun r j he hr => ?_⟩
  all_goals
    rw [Option.eq_none_iff_forall_ne_some]
    intro r' hd
  · exact absurd (root_expires he hd) (by
      show parseDate (formatDate r.expires) ≠ _
      rw [parseDate_late hr]
      exact nofun)
  · exact absurd (timestamp_expires he hd) (by
      show parseDate (formatDate r.expires) ≠ _
      rw [parseDate_late hr]
      exact nofun)
  · exact absurd (snapshot_expires he hd) (by
      show parseDate (formatDate r.expires) ≠ _
      rw [parseDate_late hr]
      exact nofun)
  · exact absurd (targets_expires he hd) (by
      show parseDate (formatDate r.expires) ≠ _
      rw [parseDate_late hr]
      exact nofun)

/-- The start of the second. -/
def wholeSecond (t : Time) : Time := t / second * second

theorem formatDate_wholeSecond (t : Time) : formatDate (wholeSecond t) = formatDate t := by
  unfold formatDate wholeSecond
  rw [Int.mul_ediv_cancel _ (by decide)]

theorem goodDate_wholeSecond {t : Time} (h1 : Representable t) (h2 : (dateOf t).year ≤ 9999) :
    GoodDate (lib F H) (wholeSecond t) := by
  show parseDate (formatDate (wholeSecond t)) = some _
  rw [formatDate_wholeSecond, parseDate_format h1 h2]
  rfl

/-- **C80.** Root metadata with an arbitrary expiry up to the year 9999 and keys as in
`C79_good_keys` survive being published, except that the expiry is cut to the second. -/
theorem C80_root (r : RootMetadata) (h1 : Representable r.expires) (h2 : (dateOf r.expires).year ≤ 9999)
    (hg : GoodRoot r) (hk : ∀ p ∈ r.keys, IsKeyId p.1 ∧ GoodKey (lib F H) p.2)
    (hs : r.root.threshold < 2 ^ 32 ∧ r.snapshot.threshold < 2 ^ 32 ∧
      r.targets.threshold < 2 ^ 32 ∧ r.timestamp.threshold < 2 ^ 32) :
    ∃ j r', encodeRoot (lib F H) r = some j ∧ decodeRoot (lib F H) j.normal = some r' ∧
      SameRoot { r with expires := wholeSecond r.expires } r' := by
  obtain ⟨j, r', h3, h4, h5⟩ := C70_root (lib F H) (C79_laws F H)
    { r with expires := wholeSecond r.expires }
    ⟨⟨hg.version, hg.root, hg.snapshot, hg.targets, hg.timestamp, hg.keys, hg.own⟩, hk,
      goodDate_wholeSecond F H h1 h2, hs⟩
  refine ⟨j, r', ?_, h4, h5⟩
  rw [← h3]
  unfold encodeRoot
  simp only [show (lib F H).formatDate = formatDate from rfl, formatDate_wholeSecond]

namespace DateExample
open PublishExample

/-- A digest that is always the same. -/
def digest (_ : Bytes) : Bytes := List.replicate 32 0

/-- 1 March 2020, 1.5 seconds after midnight. -/
def fraction : Time := 737484 * 86400 * second + second + 500000000

/-- 1 January 10000. -/
def late : Time := 3652059 * 86400 * second

theorem goodKey : GoodKey (lib ⟨fun _ => none⟩ digest) key :=
  (C79_good_keys _ _ key).2 ⟨by decide +kernel, .inl ⟨rfl, rfl, rfl⟩⟩

-- Hypotheses of `C80_root`, with an expiry that is not a whole second.
example : ∃ j r', encodeRoot (lib ⟨fun _ => none⟩ digest) { root with expires := fraction } = some j ∧
    decodeRoot (lib ⟨fun _ => none⟩ digest) j.normal = some r' ∧ r'.expires = fraction - 500000000 := by
  obtain ⟨j, r', h1, h2, h3⟩ := C80_root ⟨fun _ => none⟩ digest { root with expires := fraction }
    (by show -262144 ≤ (dateOf fraction).year; decide +kernel) (by decide +kernel)
    ⟨publishable.good.version, publishable.good.root, publishable.good.snapshot,
      publishable.good.targets, publishable.good.timestamp, publishable.good.keys,
      publishable.good.own⟩
    (by
      intro p hp
      rw [List.mem_singleton.1 hp]
      exact ⟨isKeyId, goodKey⟩)
    publishable.small
  refine ⟨j, r', h1, h2, ?_⟩
  rw [← h3.expires]
  decide +kernel

-- Hypotheses of `C80_late_expiry`.
example : ∃ j, encodeRoot (lib ⟨fun _ => none⟩ digest) { root with expires := late } = some j ∧
    decodeRoot (lib ⟨fun _ => none⟩ digest) j.normal = none := by
  cases h : encodeRoot (lib ⟨fun _ => none⟩ digest) { root with expires := late } with
  | none => exact absurd h (by decide +kernel)
  | some j => exact ⟨j, rfl, (C80_late_expiry _ _).1 _ j h (by decide +kernel)⟩

end DateExample

end RustTuf.Props
