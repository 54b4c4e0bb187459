import Verif.Model.Str
/-! # What a docstring is expected to look like (specification) -/
namespace Bindgen.Spec

/-- `l` is one of the lines of `text`: it lies between two line breaks (or the ends of the text). -/
def IsLine (text l : Str) : Prop :=
  ∃ a b, text = a ++ l ++ b ∧ '\n' ∉ l ∧ (a = [] ∨ a.getLast? = some '\n') ∧ (b = [] ∨ b.head? = some '\n')

/-- Neither end of `l` is white space. -/
def NoOuterSpace (l : Str) : Prop :=
  (∀ c, l.head? = some c → Str.isWs c = false) ∧ (∀ c, l.getLast? = some c → Str.isWs c = false)

/-- The characters of a text that are not white space. -/
def ink (s : Str) : Str := s.filter (fun c => !Str.isWs c)

/-- Runs of backticks count as one backtick. -/
def squeeze : Str → Str
  | [] => []
  | [c] => [c]
  | c :: d :: r => if c = '`' ∧ d = '`' then squeeze (d :: r) else c :: squeeze (d :: r)

end Bindgen.Spec
