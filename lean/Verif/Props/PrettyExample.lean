import Verif.Props.Pretty
import Verif.Props.ReleaseExample

/-!
# Examples for C82 and C83
-/

namespace RustTuf.Props
open Spec RustTuf Json

namespace PrettyExample
open PublishExample ReleaseExample

/-- How floating-point numbers are written; there are none here. -/
def fl : Nat → Str := fun _ => "1.5".toList

/-- The example in the documentation of `to_writer`. -/
example : pretty fl 0 (.obj [("o".toList, .obj [("0".toList, .null),
      ("a".toList, .arr [.int 1, .int (-2)]), ("e".toList, .arr []), ("s".toList, .str "a \n".toList)])]) =
    "{\n  \"o\": {\n    \"0\": null,\n    \"a\": [\n      1,\n      -2\n    ],\n    \"e\": [],\n    \"s\": \"a \\n\"\n  }\n}".toList := by
  decide +kernel

/-- The bytes of the signed targets metadata of `ReleaseExample`. -/
def written : Bytes := bytesOf (sta.toWriterPretty fl)

-- Hypotheses of `C82_canonical_plus_layout`, `C82_same_document` and `C82_same_verdict`.
example : sta.toRaw = .ok (bytesOf sta.toRaw) ∧ sta.toWriterPretty fl = .ok written ∧
    nesting sta.metadata.1 < 127 := by decide +kernel

/-- With a digest that looks at the second byte, which is a line break. -/
def description : MetadataDescription := ⟨7, written.length, [(.sha256, written.take 2)]⟩

-- Hypotheses of the theorems about descriptions: there is one, and clients compute another digest.
example : describePretty fl D sta [.sha256] = .ok description := by decide +kernel
example : D .sha256 (bytesOf sta.toRaw) ≠ D .sha256 written ∧
    readChecked D description.length (some (.sha256, written.take 2)) [.data (bytesOf sta.toRaw)] =
      .error .opaqueErr := by decide +kernel

example : (match TimestampBuilder.fromSnapshotPretty fl D 0 sta [.sha256] with
    | .ok b => match (b.calls [.version 3]).build with
      | .ok ts => decide (ts.snapshot = description)
      | .error _ => false
    | .error _ => false) = true := by decide +kernel

example : (match SnapshotBuilder.insertWithPathPretty fl D ⟨1, 0, []⟩ "targets".toList sta [.sha256] with
    | .ok b => decide (b.build = .ok ⟨1, 0, [("targets".toList, description)]⟩)
    | .error _ => false) = true := by decide +kernel

end PrettyExample
end RustTuf.Props
