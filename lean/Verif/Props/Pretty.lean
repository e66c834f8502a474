import Verif.Lemmas.Pretty
import Verif.Model.Repository
import Verif.Props.Publish
import Verif.Props.BuildersContent

/-!
# C82, C83: the `JsonPretty` interchange
-/

namespace RustTuf.Props
open Spec RustTuf Json

theorem encodeSigned_normal (m : SignedMetadata JsonValue) :
    ∃ p l, (encodeSigned m).normal = .obj (p :: l) := by
  have e : (encodeSigned m).normal = .obj (btreeCollect (normalM [
      ("signatures".toList, .arr (m.signatures.map encodeSignature)), ("signed".toList, m.metadata.1)])) := by
    rw [encodeSigned, normal]
  have hp := perm_btreeCollect (normalM [("signatures".toList,
    Json.arr (m.signatures.map encodeSignature)), ("signed".toList, m.metadata.1)])
    (by simp only [normalM]; exact of_decide_eq_true rfl)
  have hl := hp.length_eq
  rw [e]
  cases h : btreeCollect (normalM [("signatures".toList,
    Json.arr (m.signatures.map encodeSignature)), ("signed".toList, m.metadata.1)]) with
  | nil => rw [h] at hl; simp [normalM] at hl
  | cons p l => exact ⟨p, l, rfl⟩

theorem toRaw_ok {m : SignedMetadata JsonValue} {raw : Bytes} (h : m.toRaw = .ok raw) :
    Canon (encodeSigned m).normal ∧ raw = utf8 (write (encodeSigned m).normal) := by
  have h' : Json.canonicalize (encodeSigned m).normal = .ok raw := h
  obtain ⟨h1, h2⟩ := canonicalize_ok h'
  have hc := canon_normal _ h1
  rw [normal_isValue _ (isValue_normal _)] at hc h2
  exact ⟨hc, h2⟩

theorem toWriterPretty_eq (fl : Nat → Str) (m : SignedMetadata JsonValue) :
    m.toWriterPretty fl = .ok (utf8 (pretty fl 0 (encodeSigned m).normal)) := rfl

/-- **C82.** What `to_writer` writes is the text that `to_raw` gives plus white space between tokens;
and it is never the same, it is always longer. -/
theorem C82_canonical_plus_layout (fl : Nat → Str) (m : SignedMetadata JsonValue) (raw written : Bytes)
    (h : m.toRaw = .ok raw) (hw : m.toWriterPretty fl = .ok written) :
    (∃ text, written = utf8 text ∧ raw = utf8 (squeeze false text)) ∧ raw.length < written.length := by
  obtain ⟨hc, hr⟩ := toRaw_ok h
  rw [toWriterPretty_eq] at hw
  cases hw
  constructor
  · refine ⟨_, rfl, ?_⟩
    have e := squeeze_pretty fl _ 0 [] hc
    rw [List.append_nil, squeeze, List.append_nil] at e
    rw [hr, e]
  · obtain ⟨p, l, e⟩ := encodeSigned_normal m
    rw [e] at hc hr ⊢
    rw [hr]
    exact pretty_longer fl 0 p l hc

theorem pretty_parses (L : FloatLib) (fl : Nat → Str) (m : SignedMetadata JsonValue) (raw written : Bytes)
    (hn : nesting m.metadata.1 < 127) (h : m.toRaw = .ok raw) (hw : m.toWriterPretty fl = .ok written) :
    parseJson L written = .ok (encodeSigned m).normal ∧ parseJson L raw = .ok (encodeSigned m).normal := by
  obtain ⟨hc, hr⟩ := toRaw_ok h
  rw [toWriterPretty_eq] at hw
  cases hw
  have hd : depth (encodeSigned m).normal < 128 := by
    have h1 := nesting_encodeSigned m
    have h2 := nesting_normal (encodeSigned m)
    rw [depth_eq]; omega
  constructor
  · unfold parseJson
    rw [fromUtf8_utf8]
    exact parseText_pretty L fl _ hc hd
  · unfold parseJson
    rw [hr, fromUtf8_utf8]
    exact parseText_write L _ hc hd

/-- **C82.** Pretty-printed and canonical bytes of signed metadata are the same document to every reader
and every decoder. -/
theorem C82_same_document {α : Type} (L : FloatLib) (decode : Json → Option α) (fl : Nat → Str)
    (m : SignedMetadata JsonValue) (raw written : Bytes) (hn : nesting m.metadata.1 < 127)
    (h : m.toRaw = .ok raw) (hw : m.toWriterPretty fl = .ok written) :
    RustTuf.fromSlice L decode written = RustTuf.fromSlice L decode raw := by
  obtain ⟨h1, h2⟩ := pretty_parses L fl m raw written hn h hw
  unfold RustTuf.fromSlice
  rw [h1, h2]

variable (X : ShimLib) (ring : Scheme → Bytes → Bytes → Bytes → Bool)
  (order : Map KeyId Signature → List (KeyId × Signature)) (perm : ∀ m, (order m).Perm m)

/-- **C82.** Signature verification gives the same result for the pretty-printed and the canonical bytes
of signed metadata, for all keys and thresholds. -/
theorem C82_same_verdict {α : Type} (decode : Bytes → Except Err α) (fl : Nat → Str)
    (m : SignedMetadata JsonValue) (raw written : Bytes) (hn : nesting m.metadata.1 < 127)
    (h : m.toRaw = .ok raw) (hw : m.toWriterPretty fl = .ok written) (n : Nat) (keys : List PublicKey) :
    verifySignatures (jsonEnv X ring order perm) decode written n keys =
      verifySignatures (jsonEnv X ring order perm) decode raw n keys := by
  have e : (jsonEnv X ring order perm).parseSigned written = (jsonEnv X ring order perm).parseSigned raw :=
    C82_same_document X.float _ fl m raw written hn h hw
  unfold verifySignatures
  rw [e]

/-! ### Descriptions -/

theorem describePretty_ok {fl : Nat → Str} {D : Digest} {m : SignedMetadata JsonValue} {algs : List HashAlg}
    {d : MetadataDescription} (h : describePretty fl D m algs = .ok d) :
    ∃ written, m.toWriterPretty fl = .ok written ∧ HasVersion m.metadata.1 d.version ∧
      calculateHashes D (sliceReader written) algs = .ok (d.length, d.hashes) ∧ d.length ≤ u64Max := by
  unfold describePretty at h
  simp only [bind, Except.bind] at h
  split at h
  · cases h
  · rename_i written hw
    split at h
    · cases h
    · rename_i v hv
      unfold MetadataDescription.fromReader at h
      split at h
      · cases h
      · split at h
        · cases h
        · rename_i n hs hc
          split at h
          · cases h
          · rename_i hlen
            cases h
            exact ⟨written, hw, (parseVersion_ok hv).1, hc, Nat.le_of_not_lt hlen⟩

/-- **C83.** What the builders do guarantee under `JsonPretty`: the description has the version of the
metadata, and length and digests of what `to_writer` writes. Missing: it should describe what `to_raw`
gives, which is what gets published. That is false, see `C83_never_describes_the_published_bytes`. -/
theorem C83_describes_written_bytes_partial (fl : Nat → Str) (D : Digest) (m : SignedMetadata JsonValue)
    (algs : List HashAlg) (d : MetadataDescription) (h : describePretty fl D m algs = .ok d) :
    HasVersion m.metadata.1 d.version ∧ ∃ written, m.toWriterPretty fl = .ok written ∧
      d.length = written.length ∧ DigestsOf D algs d.hashes written := by
  obtain ⟨written, h1, h2, h3, _⟩ := describePretty_ok h
  obtain ⟨bs, e1, e2, e3, _⟩ := calculateHashes_ok h3
  rw [delivered_slice] at e1
  cases e1
  exact ⟨h2, written, h1, e2, e3⟩

/-- **C83, negation.** No description that a builder computes under `JsonPretty` describes the bytes that
`to_raw` publishes, whatever the metadata. -/
theorem C83_never_describes_the_published_bytes (fl : Nat → Str) (D : Digest) (m : SignedMetadata JsonValue)
    (algs : List HashAlg) (d : MetadataDescription) (h : describePretty fl D m algs = .ok d) :
    ¬ DescribesMetadata D m algs d := by
  obtain ⟨_, written, h1, h2, _⟩ := C83_describes_written_bytes_partial fl D m algs d h
  rintro ⟨_, raw, hr, hl, _⟩
  have := (C82_canonical_plus_layout fl m raw written hr h1).2
  omega

/-- **C83, negation.** A client that fetches the published bytes with such a description gets an error,
unless the digest of two different byte strings is the same. -/
theorem C83_published_bytes_are_refused (fl : Nat → Str) (D : Digest) (m : SignedMetadata JsonValue)
    (algs : List HashAlg) (d : MetadataDescription) (h : describePretty fl D m algs = .ok d)
    (raw : Bytes) (hr : m.toRaw = .ok raw) :
    ∃ a v, hashPreference d.hashes = .ok (a, v) ∧
      ∀ evs out, (delivered evs).1 = raw → readChecked D d.length (some (a, v)) evs = .ok out →
        ∃ written, m.toWriterPretty fl = .ok written ∧ raw ≠ written ∧ D a raw = D a written := by
  obtain ⟨written, h1, _, h3, h4⟩ := describePretty_ok h
  obtain ⟨a, v, s, e1, e2, e3⟩ := C64_description_round_trip D (sliceReader written) algs written
    (delivered_slice written) d.length d.hashes h3 h4
  refine ⟨a, v, e1, ?_⟩
  intro evs out hevs hread
  unfold readChecked at hread
  rw [e2] at hread
  simp only at hread
  split at hread
  · cases hread
  · rename_i bs hbs
    cases hread
    obtain ⟨f1, _, f3⟩ := (e3 evs out).1 hbs
    rw [f1] at hevs
    cases hevs
    refine ⟨written, h1, ?_, f3⟩
    rintro rfl
    exact absurd (C82_canonical_plus_layout fl m out out hr h1).2 (Nat.lt_irrefl _)

/-- **C83, negation.** The same for builders: a timestamp made from a snapshot, and a snapshot into which
metadata was inserted, carry such a description. -/
theorem C83_timestamp_and_snapshot (fl : Nat → Str) (D : Digest) (m : SignedMetadata JsonValue)
    (algs : List HashAlg) :
    (∀ expires b, TimestampBuilder.fromSnapshotPretty fl D expires m algs = .ok b →
      ∀ cs ts, (b.calls cs).build = .ok ts → ¬ DescribesMetadata D m algs ts.snapshot) ∧
    (∀ b b' path, SnapshotBuilder.insertWithPathPretty fl D b path m algs = .ok b' →
      ∀ sn, b'.build = .ok sn → ∃ d, sn.metas.get? path = some d ∧ ¬ DescribesMetadata D m algs d) := by
  constructor
  · intro expires b hb cs ts hts
    unfold TimestampBuilder.fromSnapshotPretty at hb
    simp only [bind, Except.bind] at hb
    split at hb
    · cases hb
    · rename_i d hd
      cases hb
      have key : ∀ (cs : List TimestampCall) (b : TimestampBuilder), (b.calls cs).snapshot = b.snapshot := by
        intro cs
        induction cs with
        | nil => intro b; rfl
        | cons c cs ih =>
          intro b
          have : (b.calls (c :: cs)) = (b.call c).calls cs := rfl
          rw [this, ih]
          cases c <;> rfl
      have : ts.snapshot = d := by
        unfold TimestampBuilder.build at hts
        split at hts
        · cases hts
        · cases hts
          exact key cs _
      rw [this]
      exact C83_never_describes_the_published_bytes fl D m algs d hd
  · intro b b' path hb sn hsn
    unfold SnapshotBuilder.insertWithPathPretty at hb
    simp only [bind, Except.bind] at hb
    split at hb
    · cases hb
    · rename_i d hd
      split at hb
      · cases hb
      · rename_i p hp
        cases hb
        have hpp : p = path := by
          unfold MetadataPath.new at hp
          repeat' split at hp
          all_goals cases hp
          rfl
        unfold SnapshotBuilder.build at hsn
        split at hsn
        · cases hsn
        · cases hsn
          refine ⟨d, ?_, C83_never_describes_the_published_bytes fl D m algs d hd⟩
          show (b.metas.insert p d).get? path = some d
          rw [Map.get?_insert, if_pos hpp.symm]

end RustTuf.Props
