import Verif.Model.Env
import Verif.Model.Res
/-!
# Identifiers: `syntax/common/ident.rs`
-/
namespace Bindgen

/-- `pub struct Ident(String)` — ident.rs:1-3; the string is the Rust spelling. -/
structure Ident where
  rs : Str
  deriving DecidableEq, Repr

/-- White space of the Rust lexer (proc-macro2 `is_whitespace`). External; behind the `parse_str` of ident.rs:33, 44, 51. -/
def lexWs (c : Char) : Bool := Str.isWs c || c.toNat == 0x200E || c.toNat == 0x200F

/-- Names that `syn`'s `accept_as_ident` rejects (syn 2.0.87). External; behind the `parse_str` of ident.rs:33, 44, 51. -/
def rustKeywords : List Str := [
  c!"_", c!"abstract", c!"as", c!"async", c!"await", c!"become", c!"box", c!"break",
  c!"const", c!"continue", c!"crate", c!"do", c!"dyn", c!"else", c!"enum", c!"extern",
  c!"false", c!"final", c!"fn", c!"for", c!"if", c!"impl", c!"in", c!"let", c!"loop",
  c!"macro", c!"match", c!"mod", c!"move", c!"mut", c!"override", c!"priv", c!"pub",
  c!"ref", c!"return", c!"Self", c!"self", c!"static", c!"struct", c!"super", c!"trait",
  c!"true", c!"try", c!"type", c!"typeof", c!"unsafe", c!"unsized", c!"use", c!"virtual",
  c!"where", c!"while", c!"yield"]

/-- Names that cannot be raw identifiers (proc-macro2 `ident_any`). External; behind the `parse_str` of ident.rs:33, 44, 51. -/
def rawReserved : List Str := [c!"_", c!"super", c!"self", c!"Self", c!"crate"]

/-- The text consists of exactly one unraw identifier (proc-macro2 `ident_not_raw`). External; behind the `parse_str` of ident.rs:33, 44, 51. -/
def isIdentText (E : Env) : Str → Bool
  | [] => false
  | c :: cs => (c == '_' || E.xidStart c) && cs.all E.xidContinue

/-- White space around the token is skipped. External; behind the `parse_str` of ident.rs:33, 44, 51. -/
def lexTrim (s : Str) : Str := ((s.dropWhile lexWs).reverse.dropWhile lexWs).reverse

/-- The text is exactly one identifier token that `syn::Ident` accepts. External; behind the `parse_str` of ident.rs:33, 44, 51. -/
def synIdentTok (E : Env) (t : Str) : Option Str :=
  match t with
  | 'r' :: '#' :: r => if isIdentText E r && !rawReserved.contains r then some t else none
  | _ => if isIdentText E t && !rustKeywords.contains t then some t else none

/-- `syn::parse_str::<syn::Ident>(s)`: the token text on success — ident.rs:33, 44, 51. External.
Simplification: comments around the identifier are not accepted here (the real lexer skips them). -/
def synIdent (E : Env) (s : Str) : Option Str := synIdentTok E (lexTrim s)

/-- `debug_assert!(b)` — ident.rs:12, path.rs:30. -/
def debugAssert (E : Env) (b : Bool) : Res Unit := if E.debug && !b then .error (.panic .assertion) else .ok ()

namespace Ident

/-- `Ident::from_rs` — ident.rs:6-9. The debug assertion on empty names (line 7) is left out: every call passes a literal or a
segment that is not empty. -/
def fromRs (s : Str) : Ident := ⟨s⟩

/-- `Ident::py_to_rs` — ident.rs:32-38. -/
def pyToRs (E : Env) (s : Str) : Str :=
  if (synIdent E s).isSome then s else c!"r#" ++ s

/-- `Ident::from_py` — ident.rs:11-14, without the debug assertion (`checkPy`). -/
def fromPy (E : Env) (s : Str) : Ident := ⟨pyToRs E s⟩

/-- The debug assertion of `Ident::from_py` on each of some names — ident.rs:12. The callers that can pass an empty name
evaluate it beside `fromPy`; the others pass a text with a fixed prefix, or a segment that is not empty. -/
def checkPy (E : Env) (l : List Str) : Res Unit := debugAssert E (l.all (fun s => !s.isEmpty))

/-- `Ident::rs_as_py` — ident.rs:28-30. -/
def rsAsPy (s : Str) : Str := (Str.stripPrefix c!"r#" s).getD s

/-- `Ident::as_py` — ident.rs:24-26; also `Display` — ident.rs:74-78. -/
def asPy (i : Ident) : Str := rsAsPy i.rs

/-- `TryFrom<Ident> for syn::Ident` — ident.rs:41-53. -/
def toSyn (E : Env) (i : Ident) : Option Str := synIdent E i.rs

/-- `(&ident).try_into()?` — the error is `PyBindgenError::SynError` — ident.rs:41-53,
function.rs:371-444, property.rs:218-314, module.rs:507, 639. -/
def trySyn (E : Env) (i : Ident) : Res Str := Res.orErr .synError (toSyn E i)

end Ident
end Bindgen
