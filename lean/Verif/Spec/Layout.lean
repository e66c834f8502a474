import Verif.Model.Basic

/-!
# JSON text without its layout
-/

namespace RustTuf.Spec

/-- Remove white space between the tokens of a JSON text. The flag says whether the text starts inside a
string, where white space belongs to the content. -/
def squeeze : Bool → Str → Str
  | _, [] => []
  | false, c :: s =>
    if c = ' ' ∨ c = '\n' ∨ c = '\t' ∨ c = '\r' then squeeze false s
    else if c = '"' then c :: squeeze true s
    else c :: squeeze false s
  | true, [c] => [c]
  | true, c :: d :: s =>
    if c = '\\' then c :: d :: squeeze true s
    else if c = '"' then c :: squeeze false (d :: s)
    else c :: squeeze true (d :: s)

end RustTuf.Spec
