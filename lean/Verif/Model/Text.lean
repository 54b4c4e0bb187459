import Verif.Model.Str
/-!
# Docstring formatting: `utils/text.rs`
-/
namespace Bindgen

/-- The closure state of `conditioned_dedup` — text.rs:41-52: `prev` is the last character if it
satisfied the predicate. -/
def condDedupGo (p : Char → Bool) : Option Char → Str → Str
  | _, [] => []
  | prev, c :: cs =>
    if p c then
      if some c ≠ prev then c :: condDedupGo p (some c) cs else condDedupGo p (some c) cs
    else c :: condDedupGo p none cs

/-- `conditioned_dedup` — text.rs:41-52. -/
def condDedup (p : Char → Bool) (s : Str) : Str := condDedupGo p none s

/-- `while docstring.ends_with('/') { pop; truncate(trim_end) }` — text.rs:10-14, on the reversed string.
The flag says that a slash has just been popped, so white space is trimmed too. -/
def stripSlashesRev (popped : Bool) : Str → Str
  | [] => []
  | c :: r =>
    if c = '/' then stripSlashesRev true r
    else if popped && Str.isWs c then stripSlashesRev true r
    else c :: r

/-- text.rs:10-14. -/
def stripSlashes (s : Str) : Str := (stripSlashesRev false s.reverse).reverse

/-- `while docstring.ends_with("\n\n") { pop }` — text.rs:30-32, on the reversed string. -/
def popNewlinesRev : Str → Str
  | '\n' :: '\n' :: r => popNewlinesRev ('\n' :: r)
  | r => r

/-- The multi-line branch — text.rs:22-36. -/
def fixNewlines (s : Str) : Str :=
  if s.contains '\n' then
    let s := s.dropWhile (· == '\n')
    if Str.endsWith s c!"\n" then (popNewlinesRev s.reverse).reverse else s ++ ['\n']
  else s

/-- `format_docstring` — text.rs:1-39. -/
def formatDocstring (doc : Str) : Str :=
  let s := Str.join ['\n'] ((Str.lines doc).map Str.trim)
  let s := stripSlashes s
  let s := condDedup (fun c => Str.isWs c && c != '\n') s
  let s := condDedup (· == '`') s
  let s := fixNewlines s
  ' ' :: s

end Bindgen
