import Verif.Model.Path
/-!
# Abstract syntax of the emitted Rust

The token streams built by `quote!` are modelled by the syntax trees below; each constructor names the
tokens it stands for.
-/
namespace Bindgen

/-- Rust types that the generator emits — into_rs.rs:99-368. -/
inductive RsTy
  | bool
  | f64
  | i64
  | u8
  /-- `::std::string::String` -/
  | string
  /-- `&str` -/
  | strRef
  /-- `::std::option::Option<t>` -/
  | option (t : RsTy)
  /-- `::std::collections::HashMap<k, v>` -/
  | hashMap (k v : RsTy)
  /-- `::std::collections::HashSet<t>` -/
  | hashSet (t : RsTy)
  /-- `Vec<t>` -/
  | vec (t : RsTy)
  /-- `&[t]` -/
  | slice (t : RsTy)
  /-- `&t` -/
  | ref (t : RsTy)
  /-- `(t₁, …, tₙ)` -/
  | tuple (ts : List RsTy)
  /-- `::std::net::<name>` -/
  | stdNet (name : Str)
  /-- `::std::path::PathBuf` -/
  | pathBuf
  /-- `::std::path::Path` (only behind `&`) -/
  | path
  /-- `::pyo3::Bound<'py, ::pyo3::types::<name>>` -/
  | bound (name : Str)
  /-- `::pyo3::Bound<'py, <relative path>>` -/
  | boundLocal (p : Path)
  /-- `::pyo3::Bound<'py, ::numpy::PyArray<::pyo3::Py<::pyo3::types::PyAny>, ::numpy::IxDyn>>` -/
  | boundNumpy
  /-- `impl ::pyo3::IntoPy<::pyo3::Py<::pyo3::types::<name>>>` -/
  | implIntoPy (name : Str)
  /-- `impl ::pyo3::types::IntoPyDict` -/
  | implIntoPyDict
  deriving Repr

mutual
/-- Decidable equality; the Rust code compares token streams only through `to_string` (into_rs.rs:34, 83). -/
def RsTy.decEq (a b : RsTy) : Decidable (a = b) :=
  match a with
  | .bool => by cases b <;> first | exact isTrue rfl | exact isFalse nofun
  | .f64 => by cases b <;> first | exact isTrue rfl | exact isFalse nofun
  | .i64 => by cases b <;> first | exact isTrue rfl | exact isFalse nofun
  | .u8 => by cases b <;> first | exact isTrue rfl | exact isFalse nofun
  | .string => by cases b <;> first | exact isTrue rfl | exact isFalse nofun
  | .strRef => by cases b <;> first | exact isTrue rfl | exact isFalse nofun
  | .pathBuf => by cases b <;> first | exact isTrue rfl | exact isFalse nofun
  | .path => by cases b <;> first | exact isTrue rfl | exact isFalse nofun
  | .boundNumpy => by cases b <;> first | exact isTrue rfl | exact isFalse nofun
  | .implIntoPyDict => by cases b <;> first | exact isTrue rfl | exact isFalse nofun
  | .stdNet s => by
    cases b
    case stdNet s' => exact (if h : s = s' then isTrue (by rw [h]) else isFalse (by intro e; cases e; exact h rfl))
    all_goals exact isFalse nofun
  | .bound s => by
    cases b
    case bound s' => exact (if h : s = s' then isTrue (by rw [h]) else isFalse (by intro e; cases e; exact h rfl))
    all_goals exact isFalse nofun
  | .boundLocal s => by
    cases b
    case boundLocal s' => exact (if h : s = s' then isTrue (by rw [h]) else isFalse (by intro e; cases e; exact h rfl))
    all_goals exact isFalse nofun
  | .implIntoPy s => by
    cases b
    case implIntoPy s' => exact (if h : s = s' then isTrue (by rw [h]) else isFalse (by intro e; cases e; exact h rfl))
    all_goals exact isFalse nofun
  | .option x0 => by
    cases b
    case option y0 => exact (match RsTy.decEq x0 y0 with | isTrue h0 => isTrue (by subst h0; rfl) | isFalse h => isFalse (by intro e; cases e; exact h rfl))
    all_goals exact isFalse nofun
  | .hashMap x0 x1 => by
    cases b
    case hashMap y0 y1 => exact (match RsTy.decEq x0 y0 with | isTrue h0 => (match RsTy.decEq x1 y1 with | isTrue h1 => isTrue (by subst h0 h1; rfl) | isFalse h => isFalse (by intro e; cases e; exact h rfl)) | isFalse h => isFalse (by intro e; cases e; exact h rfl))
    all_goals exact isFalse nofun
  | .hashSet x0 => by
    cases b
    case hashSet y0 => exact (match RsTy.decEq x0 y0 with | isTrue h0 => isTrue (by subst h0; rfl) | isFalse h => isFalse (by intro e; cases e; exact h rfl))
    all_goals exact isFalse nofun
  | .vec x0 => by
    cases b
    case vec y0 => exact (match RsTy.decEq x0 y0 with | isTrue h0 => isTrue (by subst h0; rfl) | isFalse h => isFalse (by intro e; cases e; exact h rfl))
    all_goals exact isFalse nofun
  | .slice x0 => by
    cases b
    case slice y0 => exact (match RsTy.decEq x0 y0 with | isTrue h0 => isTrue (by subst h0; rfl) | isFalse h => isFalse (by intro e; cases e; exact h rfl))
    all_goals exact isFalse nofun
  | .ref x0 => by
    cases b
    case ref y0 => exact (match RsTy.decEq x0 y0 with | isTrue h0 => isTrue (by subst h0; rfl) | isFalse h => isFalse (by intro e; cases e; exact h rfl))
    all_goals exact isFalse nofun
  | .tuple x0 => by
    cases b
    case tuple y0 => exact (match RsTy.decEqList x0 y0 with | isTrue h0 => isTrue (by subst h0; rfl) | isFalse h => isFalse (by intro e; cases e; exact h rfl))
    all_goals exact isFalse nofun
/-- The same on lists (into_rs.rs:34, 83). -/
def RsTy.decEqList (a b : List RsTy) : Decidable (a = b) :=
  match a with
  | [] => by cases b <;> first | exact isTrue rfl | exact isFalse nofun
  | x :: xs => by
    cases b
    case nil => exact isFalse nofun
    case cons y ys => exact (match RsTy.decEq x y with
      | isTrue h => (match RsTy.decEqList xs ys with
        | isTrue h' => isTrue (by subst h h'; rfl)
        | isFalse h' => isFalse (by intro e; cases e; exact h' rfl))
      | isFalse h => isFalse (by intro e; cases e; exact h rfl))
end

instance : DecidableEq RsTy := RsTy.decEq

mutual
/-- `tokens.to_string().contains("PyAny")` — into_rs.rs:34, 83, 140: some identifier token contains it
(the text has no blanks, so it cannot span tokens). -/
def RsTy.mentionsPyAny : RsTy → Bool
  | .bool | .f64 | .i64 | .u8 | .string | .strRef | .pathBuf | .path | .implIntoPyDict => false
  | .option t | .hashSet t | .vec t | .slice t | .ref t => t.mentionsPyAny
  | .hashMap k v => k.mentionsPyAny || v.mentionsPyAny
  | .tuple ts => RsTy.anyMentionsPyAny ts
  | .stdNet n | .bound n | .implIntoPy n => Str.containsSub c!"PyAny" n
  | .boundLocal p => p.segs.any (fun s => Str.containsSub c!"PyAny" s.rs)
  | .boundNumpy => true

/-- The same on a list — into_rs.rs:34, 83, 140. -/
def RsTy.anyMentionsPyAny : List RsTy → Bool
  | [] => false
  | t :: ts => t.mentionsPyAny || RsTy.anyMentionsPyAny ts
end

end Bindgen
