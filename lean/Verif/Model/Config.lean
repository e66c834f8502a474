import Verif.Model.Client

/-!
# Building a configuration
-/

namespace RustTuf

/-- src/client.rs:1133-1142 `ConfigBuilder`. The path translator is represented by its function
`real_to_virtual`, the only one that the client calls. -/
structure ConfigBuilder where
  maxRootLength : Option Nat
  maxTimestampLength : Option Nat
  maxDelegationDepth : Nat
  pathTranslator : TargetPath → Except Err VirtualTargetPath

namespace ConfigBuilder

/-- src/client.rs:1190-1200 `ConfigBuilder::default`, which is what `Config::build` returns (1090-1093).
The builder does not depend on how the crate is compiled. -/
def default : ConfigBuilder :=
  let cfg := Config.default false
  ⟨cfg.maxRootLength, cfg.maxTimestampLength, cfg.maxDelegationDepth, cfg.realToVirtual⟩

/-- src/client.rs:1148-1156 `finish`. `overflowChecks` says how the crate is compiled. -/
def finish (b : ConfigBuilder) (overflowChecks : Bool) : Except Err Config :=
  .ok ⟨b.maxRootLength, b.maxTimestampLength, b.maxDelegationDepth, b.pathTranslator, overflowChecks⟩

/-- src/client.rs:1158-1162 `max_root_length`. -/
def setMaxRootLength (b : ConfigBuilder) (max : Option Nat) : ConfigBuilder := { b with maxRootLength := max }

/-- src/client.rs:1164-1168 `max_timestamp_length`. -/
def setMaxTimestampLength (b : ConfigBuilder) (max : Option Nat) : ConfigBuilder :=
  { b with maxTimestampLength := max }

/-- src/client.rs:1170-1174 `max_delegation_depth`. -/
def setMaxDelegationDepth (b : ConfigBuilder) (max : Nat) : ConfigBuilder := { b with maxDelegationDepth := max }

/-- src/client.rs:1176-1187 `path_translator`. -/
def setPathTranslator (b : ConfigBuilder) (f : TargetPath → Except Err VirtualTargetPath) : ConfigBuilder :=
  ⟨b.maxRootLength, b.maxTimestampLength, b.maxDelegationDepth, f⟩

/-- A call of one of the setters. -/
inductive Setting where
  | maxRootLength (max : Option Nat)
  | maxTimestampLength (max : Option Nat)
  | maxDelegationDepth (max : Nat)
  | pathTranslator (f : TargetPath → Except Err VirtualTargetPath)

/-- Make the call. -/
def set (b : ConfigBuilder) : Setting → ConfigBuilder
  | .maxRootLength max => b.setMaxRootLength max
  | .maxTimestampLength max => b.setMaxTimestampLength max
  | .maxDelegationDepth max => b.setMaxDelegationDepth max
  | .pathTranslator f => b.setPathTranslator f

/-- `Config::build()`, setters, `finish()`. -/
def build (overflowChecks : Bool) (calls : List Setting) : Except Err Config :=
  (calls.foldl set default).finish overflowChecks

end ConfigBuilder

/-- src/client.rs:111-113 `DefaultTranslator::virtual_to_real`. -/
def defaultVirtualToReal (p : VirtualTargetPath) : Except Err TargetPath := TargetPath.new p

end RustTuf
