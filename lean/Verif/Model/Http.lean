import Verif.Model.Paths
import Verif.Model.Readers

/-!
# HTTP repository: request URLs and status handling
URLs are ASCII, so they are kept as character strings.
-/

namespace RustTuf

/-- UTF-8 encoding of a string. -/
def utf8 (s : Str) : Bytes := s.flatMap String.utf8EncodeChar

/-- src/repository/http.rs:141-149 `URLENCODE_PATH`: controls (`percent_encoding::CONTROLS`, i.e.
0x00-0x1F and 0x7F), space, `"`, `<`, `>`, backquote, `#`, `?`, `{`, `}`; and all non-ASCII bytes,
which `utf8_percent_encode` always encodes. -/
def shouldEncode (b : UInt8) : Bool :=
  decide (b.toNat < 0x20) || decide (b.toNat = 0x7f) || decide (0x80 ≤ b.toNat) ||
  [0x20, 0x22, 0x3c, 0x3e, 0x60, 0x23, 0x3f, 0x7b, 0x7d].contains b.toNat

/-- Upper-case hexadecimal digit, as `percent_encoding` writes them. -/
def hexUpperDigit (n : Nat) : Char := if n < 10 then Char.ofNat (48 + n) else Char.ofNat (55 + n)

/-- One byte of `utf8_percent_encode`. -/
def encodeByte (b : UInt8) : Str :=
  if shouldEncode b then ['%', hexUpperDigit (b.toNat / 16), hexUpperDigit (b.toNat % 16)]
  else [Char.ofNat b.toNat]

/-- `utf8_percent_encode(segment, URLENCODE_PATH)`. -/
def encodeSegment (s : Str) : Str := (utf8 s).flatMap encodeByte

/-- `http::Uri` by parts. `pathAndQuery` holds the path and the query. -/
structure Uri where
  scheme : Option Str
  authority : Option Str
  pathAndQuery : Option (Str × Option Str)
deriving DecidableEq, Repr

/-- Characters `http::uri::PathAndQuery` accepts in a path. -/
def validPathChar (c : Char) : Bool :=
  let n := c.toNat
  decide (n = 0x21) || decide (0x24 ≤ n ∧ n ≤ 0x3b) || decide (n = 0x3d) ||
  decide (0x40 ≤ n ∧ n ≤ 0x5f) || decide (0x61 ≤ n ∧ n ≤ 0x7a) || decide (n = 0x7c) ||
  decide (n = 0x7e)

/-- Characters `http::uri::PathAndQuery` accepts in a query. -/
def validQueryChar (c : Char) : Bool :=
  let n := c.toNat
  decide (n = 0x21) || decide (0x24 ≤ n ∧ n ≤ 0x3b) || decide (n = 0x3d) ||
  decide (0x3f ≤ n ∧ n ≤ 0x7e)

/-- `PathAndQuery::from_str`: the path goes up to the first '?' or '#', the query up to the first
'#'; a fragment is dropped. The 64 KiB length limit of the crate is not modelled. -/
def parsePathAndQuery (s : Str) : Except Err (Str × Option Str) :=
  let path := s.takeWhile (fun c => decide (c ≠ '?' ∧ c ≠ '#'))
  let rest := s.dropWhile (fun c => decide (c ≠ '?' ∧ c ≠ '#'))
  if path.all validPathChar then
    match rest with
    | '?' :: r =>
      let query := r.takeWhile (fun c => decide (c ≠ '#'))
      if query.all validQueryChar then .ok (path, some query) else .error .illegalArgument
    | _ => .ok (path, none)
  else .error .illegalArgument

/-- `PathAndQuery::path`: an empty path reads as "/". -/
def pathOf (p : Str) : Str := if p = [] then ['/'] else p

/-- `Uri::from_parts` for parts with a path: a scheme needs an authority and vice versa. -/
def uriFromParts (u : Uri) : Except Err Uri :=
  match u.scheme, u.authority with
  | some _, none => .error .illegalArgument
  | none, some _ => .error .illegalArgument
  | _, _ => .ok u

/-- src/repository/http.rs:154-157: the path of the base URI. -/
def uriPath (uri : Uri) : Str :=
  match uri.pathAndQuery with
  | some (p, _) => pathOf p
  | none => []

/-- src/repository/http.rs:154-157: the query of the base URI. -/
def uriQuery (uri : Uri) : Option Str :=
  match uri.pathAndQuery with
  | some (_, q) => q
  | none => none

/-- src/repository/http.rs:184-196: the text handed to the parser. -/
def withQuery (path : Str) (query : Option Str) : Str :=
  match query with
  | some q => path ++ '?' :: q
  | none => path

/-- src/repository/http.rs:151-204 `extend_uri`. -/
def extendUri (uri : Uri) (pre : Option (List Str)) (comps : List Str) : Except Err Uri :=
  -- 154-157
  let path := uriPath uri
  let query := uriQuery uri
  -- 159-162
  let modified := if path.getLast? = some '/' then path.dropLast else path
  -- 164-182
  let segs := splitOn '/' modified ++ ((pre.getD []) ++ comps).map encodeSegment
  let constructed := joinWith '/' segs
  -- 184-196
  match parsePathAndQuery (withQuery constructed query) with
  | .error e => .error e
  | .ok pq => uriFromParts { uri with pathAndQuery := some pq }

/-- src/repository/http.rs:227-236: what becomes of a response, by status code. -/
def statusResult (code : Nat) : Except Err Unit :=
  if code = 200 then .ok ()
  else if code = 404 then .error .notFound
  else .error (.badHttpStatus code)

/-- src/repository/http.rs:211-300 `get` and the two fetch functions: the request (a parameter,
returning a transport error or a status and a body) and the treatment of its answer. The body's
transport errors have kind `Other`. Bitrate enforcement is `Model/Bitrate.lean`. -/
def httpFetch (request : Uri → Except Err (Nat × List Ev)) (base : Uri) (pre : Option (List Str))
    (comps : List Str) : Except Err (List Ev) :=
  match extendUri base pre comps with
  | .error e => .error e
  | .ok uri =>
    match request uri with
    | .error e => .error e
    | .ok (code, body) =>
      match statusResult code with
      | .error e => .error e
      | .ok () => .ok body

end RustTuf
