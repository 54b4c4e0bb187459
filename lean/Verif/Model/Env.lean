import Verif.Model.Str
/-!
# External parameters

Everything the engine takes from outside Rust's semantics and outside Python: Unicode tables,
hash iteration order, cargo features and build profile.  Only the stated laws are assumed.
-/
namespace Bindgen

/-- ASCII letters; used to state the laws of the Unicode tables behind ident.rs:33, 44, 51. -/
def asciiLetter (c : Char) : Bool :=
  ('a'.toNat ≤ c.toNat && c.toNat ≤ 'z'.toNat) || ('A'.toNat ≤ c.toNat && c.toNat ≤ 'Z'.toNat)

/-- ASCII digits; used to state the laws of the Unicode tables behind ident.rs:33, 44, 51. -/
def asciiDigit (c : Char) : Bool := '0'.toNat ≤ c.toNat && c.toNat ≤ '9'.toNat

/-- External parameters of the engine: Unicode tables (ident.rs:33, 44, 51), `HashSet` order (codegen.rs:302-352), build profile
(from_py.rs:489-499, ident.rs:12, path.rs:30) and cargo feature (into_rs.rs:336-368). -/
structure Env where
  /-- `unicode_ident::is_xid_start` -/
  xidStart : Char → Bool
  /-- `unicode_ident::is_xid_continue` -/
  xidContinue : Char → Bool
  /-- `char::is_alphanumeric` -/
  alnum : Char → Bool
  /-- collect into a hash set, then iterate (`FxHashSet`; order unspecified) -/
  setOrder : ∀ {α : Type} [DecidableEq α], List α → List α
  /-- overflow checks and debug assertions (debug profile) -/
  debug : Bool
  /-- cargo feature `numpy` -/
  numpy : Bool
  /-- XID_Start ⊆ XID_Continue -/
  start_continue : ∀ c, xidStart c = true → xidContinue c = true
  xidStart_ascii : ∀ c : Char, c.toNat < 128 → xidStart c = asciiLetter c
  xidContinue_ascii : ∀ c : Char, c.toNat < 128 →
    xidContinue c = (asciiLetter c || asciiDigit c || c == '_')
  alnum_ascii : ∀ c : Char, c.toNat < 128 → alnum c = (asciiLetter c || asciiDigit c)
  /-- white space is never part of an identifier -/
  ws_not_continue : ∀ c, Str.isWs c = true → xidContinue c = false
  /-- LRM and RLM (white space for the Rust lexer) are never part of an identifier -/
  lrm_not_continue : ∀ c : Char, c.toNat = 0x200E ∨ c.toNat = 0x200F → xidContinue c = false
  set_nodup : ∀ {α : Type} [DecidableEq α] (l : List α), (setOrder l).Nodup
  set_mem : ∀ {α : Type} [DecidableEq α] (l : List α) (a : α), a ∈ setOrder l ↔ a ∈ l

end Bindgen

namespace Bindgen

/-- One possible order of a hash set (codegen.rs:302-352): last occurrences. -/
def nubGo {α : Type} [DecidableEq α] : List α → List α
  | [] => []
  | a :: l => if a ∈ nubGo l then nubGo l else a :: nubGo l

/-- A concrete environment (ASCII identifiers only): the assumptions of `Env` are satisfiable.
Models no lines of /repo. -/
def Env.ascii (debug numpy : Bool) : Env where
  xidStart := asciiLetter
  xidContinue c := asciiLetter c || asciiDigit c || c == '_'
  alnum c := asciiLetter c || asciiDigit c
  setOrder := nubGo
  debug := debug
  numpy := numpy
  start_continue c h := by simp [h]
  xidStart_ascii _ _ := rfl
  xidContinue_ascii _ _ := rfl
  alnum_ascii _ _ := rfl
  ws_not_continue c h := by
    have e : (c == '_') = (c.toNat == 95) := by
      by_cases hc : c = '_'
      · subst hc; rfl
      · have : c.toNat ≠ 95 := fun h' => hc (Char.toNat_inj.mp h')
        rw [beq_eq_false_iff_ne.mpr hc, beq_eq_false_iff_ne.mpr this]
    change (asciiLetter c || asciiDigit c || c == '_') = false
    rw [e]; unfold asciiLetter asciiDigit
    simp only [Str.isWs, Bool.or_eq_true, Bool.and_eq_true, decide_eq_true_eq, beq_iff_eq] at h
    have e1 : 'a'.toNat = 97 := rfl
    have e2 : 'z'.toNat = 122 := rfl
    have e3 : 'A'.toNat = 65 := rfl
    have e4 : 'Z'.toNat = 90 := rfl
    have e5 : '0'.toNat = 48 := rfl
    have e6 : '9'.toNat = 57 := rfl
    rw [e1, e2, e3, e4, e5, e6]
    simp only [Bool.or_eq_false_iff, Bool.and_eq_false_iff, decide_eq_false_iff_not, beq_eq_false_iff_ne]
    omega
  lrm_not_continue c h := by
    have e : (c == '_') = (c.toNat == 95) := by
      by_cases hc : c = '_'
      · subst hc; rfl
      · have : c.toNat ≠ 95 := fun h' => hc (Char.toNat_inj.mp h')
        rw [beq_eq_false_iff_ne.mpr hc, beq_eq_false_iff_ne.mpr this]
    change (asciiLetter c || asciiDigit c || c == '_') = false
    rw [e]; unfold asciiLetter asciiDigit
    have e1 : 'a'.toNat = 97 := rfl
    have e2 : 'z'.toNat = 122 := rfl
    have e3 : 'A'.toNat = 65 := rfl
    have e4 : 'Z'.toNat = 90 := rfl
    have e5 : '0'.toNat = 48 := rfl
    have e6 : '9'.toNat = 57 := rfl
    rw [e1, e2, e3, e4, e5, e6]
    simp only [Bool.or_eq_false_iff, Bool.and_eq_false_iff, decide_eq_false_iff_not, beq_eq_false_iff_ne]
    omega
  set_nodup l := by
    induction l with
    | nil => exact List.nodup_nil
    | cons a l ih =>
      simp only [nubGo]
      split
      · exact ih
      · exact List.nodup_cons.mpr ⟨by assumption, ih⟩
  set_mem l a := by
    induction l with
    | nil => simp [nubGo]
    | cons b l ih =>
      simp only [nubGo]
      split
      · rename_i h
        rw [ih, List.mem_cons]
        constructor
        · exact Or.inr
        · rintro (rfl | h')
          · exact ih.mp h
          · exact h'
      · simp [ih]

end Bindgen
