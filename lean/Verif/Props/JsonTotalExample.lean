import Verif.Props.JsonTotal
import Verif.Props.ShimsExample
import Verif.Props.ReleaseExample

/-! Examples for C94. -/

namespace RustTuf.Props
open Spec Tuf Client

/-- JSON with a signature check that accepts nothing. -/
abbrev noEnv : Env := jsonEnv ShimExample.lib (fun _ _ _ _ => false) id (fun _ => .rfl)

/-- An unfinished object. -/
example : noEnv.timestampFromSlice (utf8 "{\"signed\": [".toList) = .error .encoding := by decide +kernel
/-- Bytes that are not UTF-8. -/
example : noEnv.rootFromSlice [0xFF, 0xFE] = .error .encoding := by decide +kernel
/-- Arrays in arrays, deeper than the reader goes. -/
example : noEnv.targetsFromSlice (utf8 (List.replicate 200 '[')) = .error .encoding := by decide +kernel

theorem toy_quietCaller (files targets now) : QuietCaller (Toy.repos files targets now) Toy.config :=
  have h := toy_quiet Toy.world files targets now
  ⟨h.fetch, h.store, h.fetchTarget, h.storeTarget, h.translate⟩

open ReleaseExample in
/-- A client that is served an unfinished document. -/
example : Reachable (jsonEnv PublishExample.lib PublishExample.ring id fun _ => .refl _) client.tuf ∧
    QuietCaller (Toy.repos [(("timestamp".toList, .none), utf8 "{\"signatures\": [[[".toList)] [] 0) Toy.config ∧
    (exec (jsonEnv PublishExample.lib PublishExample.ring id fun _ => .refl _) D
      (Toy.repos [(("timestamp".toList, .none), utf8 "{\"signatures\": [[[".toList)] [] 0) Toy.config .update
      client).1 = .error .encoding ∧
    client.tuf.root.version < 4294967295 :=
  ⟨client_reachable, toy_quietCaller _ _ _, by decide +kernel, by decide +kernel⟩

end RustTuf.Props
