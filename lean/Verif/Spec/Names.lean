import Verif.Model.Env
/-! # Specification: identifiers of Python and Rust -/
namespace Bindgen.Spec

/-- A Python (and unraw Rust) identifier: `XID_Start`/`_` followed by `XID_Continue`. -/
def IsIdent (E : Env) (s : Str) : Prop :=
  ∃ c cs, s = c :: cs ∧ (c = '_' ∨ E.xidStart c = true) ∧ ∀ x ∈ cs, E.xidContinue x = true

/-- Names that Rust reserves so strongly that not even a raw identifier can spell them, plus `_`. -/
def unspellable : List Str := [c!"_", c!"self", c!"Self", c!"super", c!"crate"]

/-- The strict and reserved keywords of Rust (all editions), and `_`, which is not an identifier. -/
def keywords : List Str := [
  c!"as", c!"break", c!"const", c!"continue", c!"crate", c!"else", c!"enum", c!"extern", c!"false",
  c!"fn", c!"for", c!"if", c!"impl", c!"in", c!"let", c!"loop", c!"match", c!"mod", c!"move",
  c!"mut", c!"pub", c!"ref", c!"return", c!"self", c!"Self", c!"static", c!"struct", c!"super",
  c!"trait", c!"true", c!"type", c!"unsafe", c!"use", c!"where", c!"while", c!"async", c!"await",
  c!"dyn", c!"abstract", c!"become", c!"box", c!"do", c!"final", c!"macro", c!"override", c!"priv",
  c!"typeof", c!"unsized", c!"virtual", c!"yield", c!"try", c!"_"]

/-- The text is one legal Rust identifier token: an identifier that is not a keyword, or `r#` followed by an identifier
that may be raw. -/
def RustIdent (E : Env) (t : Str) : Prop :=
  (IsIdent E t ∧ t ∉ keywords) ∨ ∃ r, t = c!"r#" ++ r ∧ IsIdent E r ∧ r ∉ unspellable

/-- The name behind a Rust identifier token: `r#x` and `x` are the same name. -/
def unraw : Str → Str
  | 'r' :: '#' :: s => s
  | s => s

end Bindgen.Spec
