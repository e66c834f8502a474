import Verif.Model.Http
import Verif.Model.Bitrate
import Verif.Model.Repository

/-!
# The HTTP repository as a whole (src/repository/http.rs)
The network is a parameter.
-/

namespace RustTuf

/-- What a read of a response body gives (`Body` through `into_async_read`, http.rs:258-261, 281-284).
No bytes means the end. Large chunks may be read in pieces; the model takes the pieces. -/
inductive Chunk where
  | pending
  | bytes (bs : Bytes)
  | failed
deriving DecidableEq, Repr

/-- src/repository/http.rs:260, 283: errors of the body have the kind `Other`. -/
def Chunk.ev : Chunk → Ev
  | .pending => .pending
  | .bytes bs => .data bs
  | .failed => .err .other

/-- The reads of a body, each with the two instants at which the bitrate check reads the clock. -/
abbrev Body := List (Chunk × Nat × Nat)

/-- The polls of a body. -/
def Body.polls (b : Body) : List (Ev × Nat × Nat) := b.map fun x => (x.1.ev, x.2)

/-- The `hyper` client and the network, with state `O`. -/
structure Network (O : Type) where
  /-- whether the text is accepted as the value of a header -/
  headerValue : Str → Bool
  /-- a request with this URI and this `User-Agent`: a transport error or a status and a body -/
  request : Uri → Str → O → Option (Nat × Body) × O

/-- src/repository/http.rs:126-138 `HttpRepository`. -/
structure HttpRepository where
  uri : Uri
  userAgent : Str
  metadataPrefix : Option (List Str)
  targetsPrefix : Option (List Str)
  minBytesPerSecond : Nat
deriving DecidableEq, Repr

/-- src/repository/http.rs:25-37 `HttpRepositoryBuilder`. -/
structure HttpRepositoryBuilder where
  uri : Uri
  userAgent : Option Str
  metadataPrefix : Option (List Str)
  targetsPrefix : Option (List Str)
  minBytesPerSecond : Nat
deriving DecidableEq, Repr

namespace HttpRepositoryBuilder

/-- src/repository/http.rs:57-68 `new_with_uri`. -/
def newWithUri (uri : Uri) : HttpRepositoryBuilder := ⟨uri, none, none, none, 4096⟩

/-- src/repository/http.rs:45-55 `new`. The parser of `http::Uri` is a parameter; if it rejects the
text of the URL, the code panics. -/
def new (parse : Str → Option Uri) (url : Str) : Except Err HttpRepositoryBuilder :=
  match parse url with
  | some uri => .ok (newWithUri uri)
  | none => .error .panic

/-- The setters, src/repository/http.rs:70-103. -/
inductive Call where
  | userAgent (s : Str)
  | metadataPrefix (p : List Str)
  | targetsPrefix (p : List Str)
  | minBytesPerSecond (n : Nat)
deriving DecidableEq, Repr

/-- src/repository/http.rs:74-77, 84-87, 94-97, 100-103. -/
def call (b : HttpRepositoryBuilder) : Call → HttpRepositoryBuilder
  | .userAgent s => { b with userAgent := some s }
  | .metadataPrefix p => { b with metadataPrefix := some p }
  | .targetsPrefix p => { b with targetsPrefix := some p }
  | .minBytesPerSecond n => { b with minBytesPerSecond := n }

/-- src/repository/http.rs:106-121 `build`. -/
def build (b : HttpRepositoryBuilder) : HttpRepository :=
  ⟨b.uri, b.userAgent.getD "rust-tuf".toList, b.metadataPrefix, b.targetsPrefix, b.minBytesPerSecond⟩

end HttpRepositoryBuilder

namespace HttpRepository
variable {O : Type} (h : HttpRepository) (net : Network O)

/-- src/repository/http.rs:211-237 `get`. -/
def get (pre : Option (List Str)) (comps : List Str) (o : O) : Except Err Body × O :=
  -- 216-217
  match extendUri h.uri pre comps with
  | .error e => (.error e, o)
  | .ok uri =>
    -- 219-222
    if !net.headerValue h.userAgent then (.error .http, o)
    else
      -- 224
      match net.request uri h.userAgent o with
      | (none, o') => (.error .hyper, o')
      | (some (code, body), o') =>
        -- 225-236
        match statusResult code with
        | .error e => (.error e, o')
        | .ok () => (.ok body, o')

/-- src/repository/http.rs:258-264, 281-287: the reader that is made of a body. -/
def reader (body : Body) : List Ev := ((Bitrate.new h.minBytesPerSecond).run body.polls).1

/-- src/repository/http.rs:245-268 `fetch_metadata` and 270-290 `fetch_target`. The limit, the digest
and the description are ignored. -/
def provider : Provider O where
  fetchMetadata p v _ _ o :=
    match h.get net h.metadataPrefix (MetadataPath.components p v) o with
    | (.error e, o') => (.error e, o')
    | (.ok body, o') => (.ok (h.reader body), o')
  fetchTarget p _ o :=
    match h.get net h.targetsPrefix (TargetPath.components p) o with
    | (.error e, o') => (.error e, o')
    | (.ok body, o') => (.ok (h.reader body), o')

end HttpRepository

end RustTuf
