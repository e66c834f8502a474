import Verif.Spec.TufRules

/-!
# Assumptions about decoders
`Env` leaves the decoders abstract. These are the facts about decoded metadata that some properties
need: version numbers are in `1..u32::MAX` (the checks in `RootMetadata::new` etc., src/metadata.rs
682-688, 1049-1055, 1121-1133, 1312-1318, 1694-1700, which every decoder goes through), and decoding
the signed part directly gives the same root as decoding its canonical form. They are proved for the
JSON format in `Props/Json*`.
-/

namespace RustTuf.Spec

structure Decoders (E : Env) : Prop where
  root : ∀ b m, E.rootFromSlice b = .ok m → 1 ≤ m.version ∧ m.version ≤ 4294967295
  timestamp : ∀ b m, E.timestampFromSlice b = .ok m →
    1 ≤ m.version ∧ m.version ≤ 4294967295 ∧ 1 ≤ m.snapshot.version ∧
    m.snapshot.version ≤ 4294967295
  snapshot : ∀ b m, E.snapshotFromSlice b = .ok m →
    1 ≤ m.version ∧ m.version ≤ 4294967295 ∧
    ∀ p ∈ m.metas, 1 ≤ p.2.version ∧ p.2.version ≤ 4294967295
  targets : ∀ b m, E.targetsFromSlice b = .ok m → 1 ≤ m.version ∧ m.version ≤ 4294967295
  coherent : ∀ signed msg r r', E.canonicalize signed = .ok msg → E.rootFromSlice msg = .ok r →
    E.rootOfRaw signed = .ok r' → r = r'

end RustTuf.Spec
