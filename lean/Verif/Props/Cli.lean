import Verif.Spec.Cli
import Verif.Props.Engine
/-!
# C70: the command line
-/
namespace Bindgen
open Spec

theorem splitEq_spec (s : Str) :
    match (splitEq s).2 with
    | none => s = (splitEq s).1 ∧ '=' ∉ s
    | some v => s = (splitEq s).1 ++ c!"=" ++ v ∧ '=' ∉ (splitEq s).1 := by
  induction s with
  | nil => simp [splitEq]
  | cons c cs ih =>
    by_cases h : c = '='
    · have he : splitEq (c :: cs) = ([], some cs) := by rw [splitEq, if_pos h]
      rw [he, h]
      simp
    · have he : splitEq (c :: cs) = (c :: (splitEq cs).1, (splitEq cs).2) := by rw [splitEq, if_neg h]
      rw [he]
      cases hs : (splitEq cs).2 with
      | none =>
        rw [hs] at ih
        refine ⟨congrArg (c :: ·) ih.1, ?_⟩
        simp only [List.mem_cons, not_or]
        exact ⟨fun e => h e.symm, ih.2⟩
      | some v =>
        rw [hs] at ih
        refine ⟨congrArg (c :: ·) ih.1, ?_⟩
        simp only [List.mem_cons, not_or]
        exact ⟨fun e => h e.symm, ih.2⟩

theorem splitEq_append {f : Str} (h : '=' ∉ f) (v : Str) : splitEq (f ++ '=' :: v) = (f, some v) := by
  induction f with
  | nil => simp [splitEq]
  | cons c cs ih =>
    simp only [List.mem_cons, not_or] at h
    rw [List.cons_append, splitEq, if_neg (fun e => h.1 e.symm), ih h.2]

theorem splitEq_plain {f : Str} (h : '=' ∉ f) : splitEq f = (f, none) := by
  induction f with
  | nil => simp [splitEq]
  | cons c cs ih =>
    simp only [List.mem_cons, not_or] at h
    rw [splitEq, if_neg (fun e => h.1 e.symm), ih h.2]

theorem long_word (rest : Str) (h : rest ≠ []) : cliWord ('-' :: '-' :: rest) =
    if (splitEq rest).1 = c!"module-name" then .module (splitEq rest).2
    else if (splitEq rest).1 = c!"output" then .output (splitEq rest).2 else .stop := by
  cases rest with
  | nil => exact absurd rfl h
  | cons c cs => simp [cliWord, Str.stripPrefix]

theorem short_word (c : Char) (rest : Str) (h : c ≠ '-') : cliWord ('-' :: c :: rest) =
    if c = 'm' then .module (shortValue rest) else if c = 'o' then .output (shortValue rest) else .stop := by
  have h1 : Str.stripPrefix c!"--" ('-' :: c :: rest) = none := by simp [Str.stripPrefix, Ne.symm h]
  unfold cliWord
  rw [h1]
  by_cases hm : c = 'm'
  · subst hm; rfl
  · by_cases ho : c = 'o'
    · subst ho; rfl
    · simp only [hm, ho, if_false]

theorem plain_word {a : Str} (h : PlainWord a) : cliWord a = .value := by
  rcases h with h | rfl
  · cases a with
    | nil => rfl
    | cons c cs =>
      have hc : c ≠ '-' := by simpa using h
      have h1 : Str.stripPrefix c!"--" (c :: cs) = none := by simp [Str.stripPrefix, Ne.symm hc]
      unfold cliWord
      rw [h1]
      simp only
      split <;> first | rfl | (rename_i heq; cases heq; exact absurd rfl hc)
  · rfl

/-- Every argument is of one of these forms. -/
theorem word_cases (a : Str) : PlainWord a ∨ a = c!"--" ∨ (∃ rest, rest ≠ [] ∧ a = '-' :: '-' :: rest) ∨ ∃ c rest, c ≠ '-' ∧ a = '-' :: c :: rest := by
  match a with
  | [] => exact Or.inl (Or.inl (by simp))
  | ['-'] => exact Or.inl (Or.inr rfl)
  | '-' :: '-' :: [] => exact Or.inr (Or.inl rfl)
  | '-' :: '-' :: c :: cs => exact Or.inr (Or.inr (Or.inl ⟨c :: cs, by simp, rfl⟩))
  | c :: d :: cs =>
    by_cases hc : c = '-'
    · by_cases hd : d = '-'
      · subst hc hd
        cases cs with
        | nil => exact Or.inr (Or.inl rfl)
        | cons e es => exact Or.inr (Or.inr (Or.inl ⟨e :: es, by simp, rfl⟩))
      · subst hc
        exact Or.inr (Or.inr (Or.inr ⟨d, cs, hd, rfl⟩))
    · exact Or.inl (Or.inl (by simpa using hc))
  | [c] =>
    by_cases hc : c = '-'
    · subst hc; exact Or.inl (Or.inr rfl)
    · exact Or.inl (Or.inl (by simpa using hc))

theorem word_value {a : Str} : cliWord a = .value ↔ PlainWord a := by
  refine ⟨fun h => ?_, plain_word⟩
  rcases word_cases a with h1 | rfl | ⟨rest, h1, rfl⟩ | ⟨c, rest, h1, rfl⟩
  · exact h1
  · cases h
  · rw [long_word _ h1] at h; split_ifs at h
  · rw [short_word _ _ h1] at h; split_ifs at h

theorem word_escape {a : Str} : cliWord a = .escape ↔ a = c!"--" := by
  constructor
  · intro h
    rcases word_cases a with h1 | h1 | ⟨rest, h1, rfl⟩ | ⟨c, rest, h1, rfl⟩
    · rw [plain_word h1] at h; cases h
    · exact h1
    · rw [long_word _ h1] at h; split_ifs at h
    · rw [short_word _ _ h1] at h; split_ifs at h
  · rintro rfl; rfl

theorem shortValue_none {s : Str} : shortValue s = none ↔ s = [] := by
  unfold shortValue
  split
  · simp
  · split_ifs <;> simp

theorem shortValue_some {s v : Str} : shortValue s = some v ↔ s = '=' :: v ∨ (s = v ∧ v ≠ [] ∧ v.head? ≠ some '=') := by
  unfold shortValue
  split
  · constructor
    · intro h; cases h
    · rintro (h | ⟨rfl, h, -⟩)
      · cases h
      · exact absurd rfl h
  · rename_i c cs
    split_ifs with hc
    · subst hc
      constructor
      · intro h; cases h; exact Or.inl rfl
      · rintro (h | ⟨rfl, -, h⟩)
        · cases h; rfl
        · simp at h
    · constructor
      · intro h; cases h; exact Or.inr ⟨rfl, by simp, by simpa using hc⟩
      · rintro (h | ⟨rfl, -, h⟩)
        · cases h; exact absurd rfl hc
        · rfl

theorem word_module_none {a : Str} : cliWord a = .module none ↔ a = c!"-m" ∨ a = c!"--module-name" := by
  constructor
  · intro h
    rcases word_cases a with h1 | rfl | ⟨rest, h1, rfl⟩ | ⟨c, rest, h1, rfl⟩
    · rw [plain_word h1] at h; cases h
    · cases h
    · rw [long_word _ h1] at h
      have hs := splitEq_spec rest
      split_ifs at h with h2
      · injection h with h
        rw [h] at hs
        right
        rw [hs.1, h2]
    · rw [short_word _ _ h1] at h
      split_ifs at h with h2
      · injection h with h
        rw [shortValue_none.mp h, h2]
        exact Or.inl rfl
  · rintro (rfl | rfl) <;> rfl

theorem word_output_none {a : Str} : cliWord a = .output none ↔ a = c!"-o" ∨ a = c!"--output" := by
  constructor
  · intro h
    rcases word_cases a with h1 | rfl | ⟨rest, h1, rfl⟩ | ⟨c, rest, h1, rfl⟩
    · rw [plain_word h1] at h; cases h
    · cases h
    · rw [long_word _ h1] at h
      have hs := splitEq_spec rest
      split_ifs at h with h2 h3
      · injection h with h
        rw [h] at hs
        right
        rw [hs.1, h3]
    · rw [short_word _ _ h1] at h
      split_ifs at h with h2 h3
      · injection h with h
        rw [shortValue_none.mp h, h3]
        exact Or.inl rfl
  · rintro (rfl | rfl) <;> rfl

theorem word_module_some {a v : Str} : cliWord a = .module (some v) ↔ Attached c!"module-name" 'm' v a := by
  constructor
  · intro h
    rcases word_cases a with h1 | rfl | ⟨rest, h1, rfl⟩ | ⟨c, rest, h1, rfl⟩
    · rw [plain_word h1] at h; cases h
    · cases h
    · rw [long_word _ h1] at h
      have hs := splitEq_spec rest
      split_ifs at h with h2
      · injection h with h
        rw [h, h2] at hs
        rw [hs.1]
        exact Attached.long
    · rw [short_word _ _ h1] at h
      split_ifs at h with h2
      · injection h with h
        subst h2
        rcases shortValue_some.mp h with rfl | ⟨rfl, h3, h4⟩
        · exact Attached.equals
        · exact Attached.short h3 h4
  · intro h
    cases h with
    | long =>
      have : cliWord ('-' :: '-' :: (c!"module-name" ++ '=' :: v)) = .module (some v) := by
        rw [long_word _ (by simp), splitEq_append (by decide)]; rfl
      simpa using this
    | equals => exact (short_word 'm' ('=' :: v) (by decide)).trans rfl
    | short h1 h2 =>
      have : cliWord ('-' :: 'm' :: v) = .module (some v) := by
        rw [short_word _ _ (by decide), if_pos rfl, shortValue_some.mpr (Or.inr ⟨rfl, h1, h2⟩)]
      exact this

theorem word_output_some {a v : Str} : cliWord a = .output (some v) ↔ Attached c!"output" 'o' v a := by
  constructor
  · intro h
    rcases word_cases a with h1 | rfl | ⟨rest, h1, rfl⟩ | ⟨c, rest, h1, rfl⟩
    · rw [plain_word h1] at h; cases h
    · cases h
    · rw [long_word _ h1] at h
      have hs := splitEq_spec rest
      split_ifs at h with h2 h3
      · injection h with h
        rw [h, h3] at hs
        rw [hs.1]
        exact Attached.long
    · rw [short_word _ _ h1] at h
      split_ifs at h with h2 h3
      · injection h with h
        subst h3
        rcases shortValue_some.mp h with rfl | ⟨rfl, h3, h4⟩
        · exact Attached.equals
        · exact Attached.short h3 h4
  · intro h
    cases h with
    | long =>
      have : cliWord ('-' :: '-' :: (c!"output" ++ '=' :: v)) = .output (some v) := by
        rw [long_word _ (by simp), splitEq_append (by decide)]; rfl
      simpa using this
    | equals => exact (short_word 'o' ('=' :: v) (by decide)).trans rfl
    | short h1 h2 =>
      have : cliWord ('-' :: 'o' :: v) = .output (some v) := by
        rw [short_word _ _ (by decide), if_neg (by decide), if_pos rfl, shortValue_some.mpr (Or.inr ⟨rfl, h1, h2⟩)]
      exact this

/-- The rest of a command line, from inside of an option. -/
def RestOf : Wait → List Str → List Str → List Str → Prop
  | .done, as, ns, os => CommandLine as ns os
  | .firstModule, as, ns, os => ∃ vs rest ns', vs ≠ [] ∧ (∀ v ∈ vs, PlainWord v) ∧ as = vs ++ rest ∧ ns = vs ++ ns' ∧ CommandLine rest ns' os
  | .nextModule, as, ns, os => ∃ vs rest ns', (∀ v ∈ vs, PlainWord v) ∧ as = vs ++ rest ∧ ns = vs ++ ns' ∧ CommandLine rest ns' os
  | .output, as, ns, os => ∃ v rest os', PlainWord v ∧ v ≠ [] ∧ as = v :: rest ∧ os = v :: os' ∧ CommandLine rest ns os'

theorem line_nil {ns os : List Str} : CommandLine [] ns os ↔ ns = [] ∧ os = [] := by
  constructor
  · intro h; cases h; simp
  · rintro ⟨rfl, rfl⟩; exact .nil

theorem line_cons {a : Str} {as ns os : List Str} : CommandLine (a :: as) ns os ↔
    match cliWord a with
    | .escape => as = [] ∧ ns = [] ∧ os = []
    | .module none => RestOf .firstModule as ns os
    | .module (some v) => ∃ ns', ns = v :: ns' ∧ CommandLine as ns' os
    | .output none => RestOf .output as ns os
    | .output (some v) => v ≠ [] ∧ ∃ os', os = v :: os' ∧ CommandLine as ns os'
    | .stop | .value => False := by
  constructor
  · intro h
    cases h with
    | escape => exact ⟨rfl, rfl, rfl⟩
    | modules k vs rest ns os hk hv hp h =>
      rw [word_module_none.mpr hk]
      exact ⟨vs, rest, _, hv, hp, rfl, rfl, h⟩
    | attachedModule a v rest ns os ha h =>
      rw [word_module_some.mpr ha]
      exact ⟨_, rfl, h⟩
    | output k v rest ns os hk hp hv h =>
      rw [word_output_none.mpr hk]
      exact ⟨v, rest, _, hp, hv, rfl, rfl, h⟩
    | attachedOutput a v rest ns os ha hv h =>
      rw [word_output_some.mpr ha]
      exact ⟨hv, _, rfl, h⟩
  · intro h
    split at h
    · rename_i hw
      obtain ⟨rfl, rfl, rfl⟩ := h
      rw [word_escape.mp hw]
      exact .escape
    · rename_i hw
      obtain ⟨vs, rest, ns', h1, h2, rfl, rfl, h3⟩ := h
      exact .modules a vs rest ns' os (word_module_none.mp hw) h1 h2 h3
    · rename_i hw
      obtain ⟨ns', rfl, h3⟩ := h
      exact .attachedModule a _ as ns' os (word_module_some.mp hw) h3
    · rename_i hw
      obtain ⟨v, rest, os', h1, h2, rfl, rfl, h3⟩ := h
      exact .output a v rest ns os' (word_output_none.mp hw) h1 h2 h3
    · rename_i hw
      obtain ⟨hv, os', rfl, h3⟩ := h
      exact .attachedOutput a _ as ns os' (word_output_some.mp hw) hv h3
    · exact h.elim
    · exact h.elim

theorem rest_first {a : Str} {as ns os : List Str} :
    RestOf .firstModule (a :: as) ns os ↔ PlainWord a ∧ ∃ ns', ns = a :: ns' ∧ RestOf .nextModule as ns' os := by
  constructor
  · rintro ⟨vs, rest, ns', h1, h2, h3, rfl, h4⟩
    cases vs with
    | nil => exact absurd rfl h1
    | cons v vs =>
      cases h3
      exact ⟨h2 _ (by simp), _, rfl, vs, rest, ns', fun x hx => h2 x (by simp [hx]), rfl, rfl, h4⟩
  · rintro ⟨h1, ns', rfl, vs, rest, ns'', h2, rfl, rfl, h3⟩
    refine ⟨a :: vs, rest, ns'', by simp, ?_, rfl, rfl, h3⟩
    intro x hx
    rcases List.mem_cons.mp hx with rfl | hx
    · exact h1
    · exact h2 x hx

theorem rest_next {a : Str} {as ns os : List Str} :
    RestOf .nextModule (a :: as) ns os ↔ (PlainWord a ∧ ∃ ns', ns = a :: ns' ∧ RestOf .nextModule as ns' os) ∨ CommandLine (a :: as) ns os := by
  constructor
  · rintro ⟨vs, rest, ns', h2, h3, rfl, h4⟩
    cases vs with
    | nil => cases h3; exact Or.inr h4
    | cons v vs =>
      cases h3
      exact Or.inl ⟨h2 _ (by simp), _, rfl, vs, rest, ns', fun x hx => h2 x (by simp [hx]), rfl, rfl, h4⟩
  · rintro (⟨h1, ns', rfl, vs, rest, ns'', h2, rfl, rfl, h3⟩ | h)
    · refine ⟨a :: vs, rest, ns'', ?_, rfl, rfl, h3⟩
      intro x hx
      rcases List.mem_cons.mp hx with rfl | hx
      · exact h1
      · exact h2 x hx
    · exact ⟨[], _, ns, by simp, rfl, rfl, h⟩

theorem rest_output {a : Str} {as ns os : List Str} :
    RestOf .output (a :: as) ns os ↔ PlainWord a ∧ a ≠ [] ∧ ∃ os', os = a :: os' ∧ CommandLine as ns os' := by
  constructor
  · rintro ⟨v, rest, os', h1, h2, h3, rfl, h4⟩
    cases h3
    exact ⟨h1, h2, _, rfl, h4⟩
  · rintro ⟨h1, h2, os', rfl, h3⟩
    exact ⟨a, as, os', h1, h2, rfl, rfl, h3⟩

theorem setOutput_some {s s' : CliState} {v : Str} : s.setOutput v = some s' ↔ s.output = none ∧ v ≠ [] ∧ s' = ⟨s.names, some v, .done⟩ := by
  unfold CliState.setOutput
  cases s.output <;> cases v <;> simp [eq_comm]

theorem finish_some {s : CliState} {r : CliArgs} : s.finish = some r ↔
    (s.wait = .done ∨ s.wait = .nextModule) ∧ s.names ≠ [] ∧ r = ⟨s.names, s.output⟩ := by
  unfold CliState.finish
  cases s.wait <;> cases s.names <;> simp [eq_comm]

theorem rest_option {w : Wait} {a : Str} {as ns os : List Str} (h : cliWord a ≠ .value) :
    RestOf w (a :: as) ns os ↔ (w = .done ∨ w = .nextModule) ∧ CommandLine (a :: as) ns os := by
  have hp : ¬ PlainWord a := fun hx => h (word_value.mpr hx)
  cases w with
  | done => simp [RestOf]
  | firstModule => rw [rest_first]; simp [hp]
  | nextModule => rw [rest_next]; simp [hp]
  | output => rw [rest_output]; simp [hp]

theorem rest_nil {w : Wait} {ns os : List Str} : RestOf w [] ns os ↔ (w = .done ∨ w = .nextModule) ∧ ns = [] ∧ os = [] := by
  cases w with
  | done => simp [RestOf, line_nil]
  | firstModule =>
    simp only [RestOf, reduceCtorEq, or_self, false_and, iff_false]
    rintro ⟨vs, rest, ns', h1, -, h3, -⟩
    exact h1 (List.append_eq_nil_iff.mp h3.symm).1
  | nextModule =>
    simp only [RestOf, reduceCtorEq, or_true, true_and]
    constructor
    · rintro ⟨vs, rest, ns', -, h3, rfl, h4⟩
      obtain ⟨rfl, rfl⟩ := List.append_eq_nil_iff.mp h3.symm
      exact line_nil.mp h4
    · rintro ⟨rfl, rfl⟩
      exact ⟨[], [], [], by simp, rfl, rfl, .nil⟩
  | output =>
    simp only [RestOf, reduceCtorEq, or_self, false_and, and_false, exists_false]

theorem toList_some {o : Option Str} {v : Str} {os : List Str} {o' : Option Str} (h : o.toList ++ v :: os = o'.toList) :
    o = none ∧ os = [] ∧ o' = some v := by
  cases o <;> cases o' <;> simp_all

theorem cliGo_iff (as : List Str) (s : CliState) (r : CliArgs) :
    cliGo s as = some r ↔ ∃ ns os, RestOf s.wait as ns os ∧ r.moduleNames = s.names ++ ns ∧ r.moduleNames ≠ [] ∧
      s.output.toList ++ os = r.output.toList := by
  have hfin : ∀ s : CliState, s.finish = some r ↔ ∃ ns os, ((s.wait = .done ∨ s.wait = .nextModule) ∧ ns = [] ∧ os = []) ∧
      r.moduleNames = s.names ++ ns ∧ r.moduleNames ≠ [] ∧ s.output.toList ++ os = r.output.toList := by
    intro s
    rw [finish_some]
    constructor
    · rintro ⟨h1, h2, rfl⟩
      exact ⟨[], [], ⟨h1, rfl, rfl⟩, by simp, h2, by simp⟩
    · rintro ⟨ns, os, ⟨h1, rfl, rfl⟩, h2, h3, h4⟩
      rw [List.append_nil] at h2 h4
      refine ⟨h1, h2 ▸ h3, ?_⟩
      obtain ⟨m, o⟩ := r
      simp only at h2 h4
      rw [h2]
      congr 1
      cases o <;> cases hs : s.output <;> simp_all
  induction as generalizing s with
  | nil =>
    unfold cliGo
    rw [hfin]
    simp only [rest_nil]
  | cons a as ih =>
    have hready : ∀ w : Wait, (decide (w = .done) || decide (w = .nextModule)) = true ↔ (w = .done ∨ w = .nextModule) := by
      intro w; simp
    unfold cliGo
    by_cases hv : cliWord a = .value
    · have hp := word_value.mp hv
      have hst : s.step a = match s.wait with
          | .done => none
          | .firstModule | .nextModule => some { s with names := s.names ++ [a], wait := .nextModule }
          | .output => s.setOutput a := by
        unfold CliState.step
        rw [hv]
        rfl
      rw [hv]
      simp only
      cases hw : s.wait with
      | done =>
        rw [hst, hw]
        simp only [RestOf, line_cons, hv, false_and, exists_false, reduceCtorEq]
      | firstModule =>
        rw [hst, hw]
        simp only
        refine (ih _).trans ?_
        simp only [rest_first]
        constructor
        · rintro ⟨ns, os, h1, h2, h3, h4⟩
          exact ⟨a :: ns, os, ⟨hp, ns, rfl, h1⟩, by rw [h2]; simp, h3, h4⟩
        · rintro ⟨ns, os, ⟨-, ns', rfl, h1⟩, h2, h3, h4⟩
          exact ⟨ns', os, h1, by rw [h2]; simp, h3, h4⟩
      | nextModule =>
        rw [hst, hw]
        simp only
        refine (ih _).trans ?_
        simp only [rest_next, line_cons, hv, or_false]
        constructor
        · rintro ⟨ns, os, h1, h2, h3, h4⟩
          exact ⟨a :: ns, os, ⟨hp, ns, rfl, h1⟩, by rw [h2]; simp, h3, h4⟩
        · rintro ⟨ns, os, ⟨-, ns', rfl, h1⟩, h2, h3, h4⟩
          exact ⟨ns', os, h1, by rw [h2]; simp, h3, h4⟩
      | output =>
        rw [hst, hw]
        simp only [rest_output]
        cases hs : s.setOutput a with
        | none =>
          simp only [reduceCtorEq, false_iff]
          rintro ⟨ns, os, ⟨-, h1, os', rfl, h2⟩, h3, h4, h5⟩
          have := setOutput_some.mpr ⟨(toList_some h5).1, h1, rfl⟩
          rw [hs] at this
          cases this
        | some s' =>
          obtain ⟨e1, e2, rfl⟩ := setOutput_some.mp hs
          simp only
          refine (ih _).trans ?_
          simp only [RestOf, e1]
          constructor
          · rintro ⟨ns, os, h1, h2, h3, h4⟩
            exact ⟨ns, a :: os, ⟨hp, e2, os, rfl, h1⟩, h2, h3, by simpa using h4⟩
          · rintro ⟨ns, os, ⟨-, -, os', rfl, h1⟩, h2, h3, h4⟩
            exact ⟨ns, os', h1, h2, h3, by simpa using h4⟩
    · simp only [rest_option hv]
      by_cases hr : s.wait = .done ∨ s.wait = .nextModule
      · have hrd := (hready s.wait).mpr hr
        simp only [hr, true_and, line_cons]
        cases hc : cliWord a with
        | value => exact absurd hc hv
        | escape =>
          simp only
          cases as with
          | nil =>
            simp only [List.isEmpty_nil, if_true, true_and]
            rw [hfin]
            simp only [hr, true_and]
          | cons b bs => simp
        | stop => simp [CliState.step, hc]
        | module v =>
          cases v with
          | none =>
            have hst : s.step a = some { s with wait := .firstModule } := by
              unfold CliState.step; simp only [hc, hrd, if_true]
            simp only [hst]
            exact ih _
          | some v =>
            have hst : s.step a = some { s with names := s.names ++ [v], wait := .done } := by
              unfold CliState.step; simp only [hc, hrd, if_true]
            simp only [hst]
            refine (ih _).trans ?_
            simp only [RestOf]
            constructor
            · rintro ⟨ns, os, h1, h2, h3, h4⟩
              exact ⟨v :: ns, os, ⟨ns, rfl, h1⟩, by rw [h2]; simp, h3, h4⟩
            · rintro ⟨ns, os, ⟨ns', rfl, h1⟩, h2, h3, h4⟩
              exact ⟨ns', os, h1, by rw [h2]; simp, h3, h4⟩
        | output v =>
          cases v with
          | none =>
            have hst : s.step a = some { s with wait := .output } := by
              unfold CliState.step; simp only [hc, hrd, if_true]
            simp only [hst]
            exact ih _
          | some v =>
            have hst : s.step a = s.setOutput v := by
              unfold CliState.step; simp only [hc, hrd, if_true]
            simp only [hst]
            cases hs : s.setOutput v with
            | none =>
              simp only [reduceCtorEq, false_iff]
              rintro ⟨ns, os, ⟨h1, os', rfl, h2⟩, h3, h4, h5⟩
              have := setOutput_some.mpr ⟨(toList_some h5).1, h1, rfl⟩
              rw [hs] at this
              cases this
            | some s' =>
              obtain ⟨e1, e2, rfl⟩ := setOutput_some.mp hs
              simp only
              refine (ih _).trans ?_
              simp only [RestOf, e1]
              constructor
              · rintro ⟨ns, os, h1, h2, h3, h4⟩
                exact ⟨ns, v :: os, ⟨e2, os, rfl, h1⟩, h2, h3, by simpa using h4⟩
              · rintro ⟨ns, os, ⟨-, os', rfl, h1⟩, h2, h3, h4⟩
                exact ⟨ns, os', h1, h2, h3, by simpa using h4⟩
      · have hrd : (decide (s.wait = .done) || decide (s.wait = .nextModule)) = false := by
          rw [Bool.eq_false_iff]; exact fun hx => hr ((hready _).mp hx)
        simp only [hr, false_and, exists_false, iff_false]
        cases hc : cliWord a with
        | value => exact absurd hc hv
        | escape =>
          simp only
          split
          · rw [finish_some]; exact fun hx => hr hx.1
          · simp
        | stop => simp [CliState.step, hc]
        | module v => cases v <;> simp [CliState.step, hc, hrd]
        | output v => cases v <;> simp [CliState.step, hc, hrd]

/-- **C70**: the CLI goes on with module names and an output file exactly if the command line is one of the grammar, with at least one name and at
most one output file: the names are those of all `--module-name` options, in order. -/
theorem C70_args (argv names : List Str) (out : Option Str) :
    cliArgs argv = some ⟨names, out⟩ ↔ CommandLine argv names out.toList ∧ names ≠ [] := by
  unfold cliArgs
  rw [cliGo_iff]
  simp only [RestOf, List.nil_append, Option.toList_none]
  constructor
  · rintro ⟨ns, os, h1, rfl, h2, rfl⟩
    exact ⟨h1, h2⟩
  · rintro ⟨h1, h2⟩
    exact ⟨names, _, h1, rfl, h2, rfl⟩

theorem rest_unique (as : List Str) {w : Wait} {ns ns' os os' : List Str} (h : RestOf w as ns os) (h' : RestOf w as ns' os') :
    ns = ns' ∧ os = os' := by
  induction as generalizing w ns ns' os os' with
  | nil =>
    obtain ⟨-, rfl, rfl⟩ := rest_nil.mp h
    obtain ⟨-, rfl, rfl⟩ := rest_nil.mp h'
    exact ⟨rfl, rfl⟩
  | cons a as ih =>
    by_cases hv : cliWord a = .value
    · have hno : ∀ ns os, ¬ CommandLine (a :: as) ns os := by
        intro ns os hx
        rw [line_cons, hv] at hx
        exact hx
      cases w with
      | done => exact absurd h (hno _ _)
      | firstModule =>
        obtain ⟨-, n, rfl, h1⟩ := rest_first.mp h
        obtain ⟨-, n', rfl, h2⟩ := rest_first.mp h'
        obtain ⟨rfl, rfl⟩ := ih h1 h2
        exact ⟨rfl, rfl⟩
      | nextModule =>
        obtain ⟨-, n, rfl, h1⟩ := (rest_next.mp h).resolve_right (hno _ _)
        obtain ⟨-, n', rfl, h2⟩ := (rest_next.mp h').resolve_right (hno _ _)
        obtain ⟨rfl, rfl⟩ := ih h1 h2
        exact ⟨rfl, rfl⟩
      | output =>
        obtain ⟨-, -, n, rfl, h1⟩ := rest_output.mp h
        obtain ⟨-, -, n', rfl, h2⟩ := rest_output.mp h'
        obtain ⟨rfl, rfl⟩ := ih (w := .done) h1 h2
        exact ⟨rfl, rfl⟩
    · have h1 := line_cons.mp ((rest_option hv).mp h).2
      have h2 := line_cons.mp ((rest_option hv).mp h').2
      cases hc : cliWord a with
      | value => exact absurd hc hv
      | escape =>
        rw [hc] at h1 h2
        obtain ⟨-, rfl, rfl⟩ := h1
        obtain ⟨-, rfl, rfl⟩ := h2
        exact ⟨rfl, rfl⟩
      | stop => rw [hc] at h1; exact h1.elim
      | module v =>
        rw [hc] at h1 h2
        cases v with
        | none => exact ih h1 h2
        | some v =>
          obtain ⟨n, rfl, h1⟩ := h1
          obtain ⟨n', rfl, h2⟩ := h2
          obtain ⟨rfl, rfl⟩ := ih (w := .done) h1 h2
          exact ⟨rfl, rfl⟩
      | output v =>
        rw [hc] at h1 h2
        cases v with
        | none => exact ih h1 h2
        | some v =>
          obtain ⟨-, n, rfl, h1⟩ := h1
          obtain ⟨-, n', rfl, h2⟩ := h2
          obtain ⟨rfl, rfl⟩ := ih (w := .done) h1 h2
          exact ⟨rfl, rfl⟩

/-- **C70**: a command line says one thing only. -/
theorem C70_unique {argv names names' : List Str} {outs outs' : List Str} (h : CommandLine argv names outs) (h' : CommandLine argv names' outs') :
    names = names' ∧ outs = outs' := rest_unique argv (w := .done) h h'

theorem exLine : CommandLine [c!"-m", c!"os", c!"sys", c!"--output", c!"out/bindings.rs", c!"--module-name=io"] [c!"os", c!"sys", c!"io"]
    [c!"out/bindings.rs"] :=
  .modules c!"-m" [c!"os", c!"sys"] _ _ _ (Or.inl rfl) (by simp) (by unfold PlainWord; decide)
    (.output c!"--output" c!"out/bindings.rs" _ _ _ (Or.inr rfl) (Or.inl (by decide)) (by decide)
      (.attachedModule c!"--module-name=io" c!"io" _ _ _ .long .nil))

example : cliArgs [c!"-m", c!"os", c!"sys", c!"--output", c!"out/bindings.rs", c!"--module-name=io"] =
    some ⟨[c!"os", c!"sys", c!"io"], some c!"out/bindings.rs"⟩ := (C70_args _ _ _).mpr ⟨exLine, by simp⟩

/-- The tests of main.rs:58-103. -/
example : cliArgs [c!"-m", c!"os", c!"--output", c!"bindings.rs"] = some ⟨[c!"os"], some c!"bindings.rs"⟩ ∧
    cliArgs [c!"-m", c!"os"] = some ⟨[c!"os"], none⟩ ∧ cliArgs [c!"-mos", c!"-o=b"] = some ⟨[c!"os"], some c!"b"⟩ ∧
    cliArgs [c!"-m", c!"os", c!"-m"] = none ∧ cliArgs [c!"os"] = none ∧ cliArgs [c!"-o", c!"b"] = none ∧
    cliArgs [c!"-m", c!"os", c!"-o", c!"b", c!"-o", c!"c"] = none ∧ cliArgs [c!"-m=os", c!"sys"] = none := by decide

/-- **C70**: without an output file the process prints the formatted bindings of the named modules, exactly if there are any, and touches no file. -/
theorem C70_stdout {argv names : List Str} (h : CommandLine argv names []) (hn : names ≠ []) (E : Env) (W : World) (fuel : Nat) (O : Outside)
    (fs : Files) (text : Str) : cliRun E W fuel O argv fs = (fs, some (.printed text)) ↔
      ∃ items, EngineOutput E W fuel names items ∧ O.pretty (Item.toksList items) = some text := by
  rw [← C55_cli_stdout E W fuel O names fs text]
  unfold cliRun
  rw [(C70_args argv names none).mpr ⟨h, hn⟩]
  simp only [Option.map_none, Option.some.injEq, Prod.ext_iff]

/-- **C70**: with an output file the process succeeds exactly if there are bindings of the named modules, the directory of the file can be made, and
the formatted bindings can be written to the file; that is all it does. -/
theorem C70_file {argv names : List Str} {path : Str} (h : CommandLine argv names [path]) (hn : names ≠ []) (E : Env) (W : World) (fuel : Nat)
    (O : Outside) (fs fs' : Files) : cliRun E W fuel O argv fs = (fs', some .wrote) ↔
      ∃ items text fs1, EngineOutput E W fuel names items ∧ O.pretty (Item.toksList items) = some text ∧
        (match pathParent path with | none => fs1 = fs | some d => O.createDirAll fs d = (fs1, true)) ∧ O.write fs1 path text = (fs', true) := by
  unfold cliRun
  rw [(C70_args argv names (some path)).mpr ⟨h, hn⟩]
  simp only [Option.map_some, Prod.mk.injEq, Option.some.injEq]
  have hb : (∃ items text fs1, EngineOutput E W fuel names items ∧ O.pretty (Item.toksList items) = some text ∧
        (match pathParent path with | none => fs1 = fs | some d => O.createDirAll fs d = (fs1, true)) ∧ O.write fs1 path text = (fs', true)) ↔
      ∃ text fs1, cliBindings E W fuel O names = some text ∧
        (match pathParent path with | none => fs1 = fs | some d => O.createDirAll fs d = (fs1, true)) ∧ O.write fs1 path text = (fs', true) := by
    constructor
    · rintro ⟨items, text, fs1, h1, h2, h3⟩
      exact ⟨text, fs1, (cliBindings_iff E W fuel O names text).mpr ⟨items, h1, h2⟩, h3⟩
    · rintro ⟨text, fs1, h1, h3⟩
      obtain ⟨items, h1, h2⟩ := (cliBindings_iff E W fuel O names text).mp h1
      exact ⟨items, text, fs1, h1, h2, h3⟩
  rw [hb]
  unfold cliMain
  cases cliBindings E W fuel O names with
  | none => simp
  | some text =>
    simp only [Option.some.injEq]
    cases pathParent path with
    | none =>
      simp only [if_true]
      rcases hw : O.write fs path text with ⟨f, b⟩
      cases b <;> simp [hw]
    | some d =>
      simp only
      rcases hd : O.createDirAll fs d with ⟨f1, b1⟩
      cases b1 with
      | false => simp
      | true =>
        simp only [if_true]
        rcases hw : O.write f1 path text with ⟨f, b⟩
        cases b <;> simp [hw]

/-- **C70**: a command line outside the grammar, without a module name or with two output files ends the process before it does anything. -/
theorem C70_refused (argv : List Str) (E : Env) (W : World) (fuel : Nat) (O : Outside) (fs : Files) :
    (cliRun E W fuel O argv fs).2 = none ↔ ¬ ∃ names out, CommandLine argv names (Option.toList out) ∧ names ≠ [] := by
  unfold cliRun
  cases hc : cliArgs argv with
  | none =>
    simp only [true_iff]
    rintro ⟨names, out, hx⟩
    rw [(C70_args _ _ _).mpr hx] at hc
    cases hc
  | some a =>
    simp only [reduceCtorEq, false_iff, not_not]
    exact ⟨a.moduleNames, a.output, (C70_args _ _ _).mp hc⟩

theorem C70_refused_files (argv : List Str) (E : Env) (W : World) (fuel : Nat) (O : Outside) (fs : Files)
    (h : ¬ ∃ names out, CommandLine argv names (Option.toList out) ∧ names ≠ []) : (cliRun E W fuel O argv fs).1 = fs := by
  have := (C70_refused argv E W fuel O fs).mpr h
  unfold cliRun at this ⊢
  cases hc : cliArgs argv with
  | none => rfl
  | some a => rw [hc] at this; cases this

example : ¬ ∃ names out, CommandLine [c!"-m", c!"os", c!"--out", c!"b"] names (Option.toList out) ∧ names ≠ [] :=
  (C70_refused _ exEnv exWorld 3 exOutside (fun _ => none)).mp (by decide)

example : (cliRun exEnv exWorld 3 exOutside [c!"-m", c!"pkg", c!"other"] (fun _ => none)).2 = some (.printed c!"pretty") := by decide +kernel

example : (cliRun exEnv exWorld 3 exOutside [c!"-m", c!"pkg", c!"-o", c!"out/b.rs"] (fun _ => none)).2 = some .wrote := by decide +kernel

/-! ## The directory of the output file -/

/-- A component of a path as one writes it: not empty, not `.`, without a slash. -/
def Spec.PathPart (c : Str) : Prop := c ≠ [] ∧ c ≠ c!"." ∧ '/' ∉ c

theorem components_join {cs : List Str} (h : ∀ c ∈ cs, Spec.PathPart c) : pathComponents (Str.join c!"/" cs) = cs := by
  cases cs with
  | nil => rfl
  | cons c cs =>
    unfold pathComponents
    rw [Str.splitChar_join (by simp) (fun s hs => (h s hs).2.2)]
    have hc := (h c (by simp)).1
    have hf : cs.filter (fun c => c ≠ [] ∧ c ≠ c!".") = cs := by
      apply List.filter_eq_self.mpr
      intro x hx
      have := h x (by simp [hx])
      simp [this.1, this.2.1]
    simp only [hf]
    cases c with
    | nil => exact absurd rfl hc
    | cons _ _ => rfl

theorem components_root {cs : List Str} (h : ∀ c ∈ cs, Spec.PathPart c) : pathComponents (c!"/" ++ Str.join c!"/" cs) = cs := by
  have hs : Str.splitChar '/' (c!"/" ++ Str.join c!"/" cs) = [] :: Str.splitChar '/' (Str.join c!"/" cs) := Str.splitChar_cons_sep _ _
  unfold pathComponents
  rw [hs]
  cases cs with
  | nil => rfl
  | cons c cs =>
    rw [Str.splitChar_join (by simp) (fun s hs => (h s hs).2.2)]
    simp only [List.isEmpty_nil, if_true, List.nil_append]
    apply List.filter_eq_self.mpr
    intro x hx
    have := h x hx
    simp [this.1, this.2.1]

/-- **C70**: the directory made for an output file is the one that contains it: the path without its last component; for a file without a directory
it is the empty path, the current directory. -/
theorem C70_parent {cs : List Str} {f : Str} (h : ∀ c ∈ cs ++ [f], Spec.PathPart c) :
    pathParent (Str.join c!"/" (cs ++ [f])) = some (Str.join c!"/" cs) ∧
      pathParent (c!"/" ++ Str.join c!"/" (cs ++ [f])) = some (c!"/" ++ Str.join c!"/" cs) := by
  have hne : (cs ++ [f]).isEmpty = false := by cases cs <;> rfl
  constructor
  · unfold pathParent
    have hr : Str.startsWith (Str.join c!"/" (cs ++ [f])) c!"/" = false := by
      cases hcs : cs ++ [f] with
      | nil => cases cs <;> cases hcs
      | cons c r =>
        have hc := h c (by rw [hcs]; simp)
        obtain ⟨hc1, -, hc2⟩ := hc
        cases c with
        | nil => exact absurd rfl hc1
        | cons x c =>
          have hx : x ≠ '/' := fun hx => hc2 (by simp [hx])
          cases r <;> simp [Str.join, Str.startsWith, List.isPrefixOf, Ne.symm hx]
    rw [components_join h, hr]
    simp [hne]
  · unfold pathParent
    have hr : Str.startsWith (c!"/" ++ Str.join c!"/" (cs ++ [f])) c!"/" = true := by simp [Str.startsWith, List.isPrefixOf]
    rw [components_root h, hr]
    simp [hne]

example : (∀ c ∈ [c!"out", c!"src"] ++ [c!"bindings.rs"], Spec.PathPart c) ∧ Str.join c!"/" ([c!"out", c!"src"] ++ [c!"bindings.rs"]) = c!"out/src/bindings.rs" := by
  unfold Spec.PathPart; decide

example : pathParent c!"out//./bindings.rs" = some c!"out" ∧ pathParent c!"bindings.rs" = some [] ∧ pathParent c!"/b" = some c!"/" ∧
    pathParent c!"./b" = some c!"." ∧ pathParent c!"/" = none := by decide

/-! ## The macro -/

/-- **C70**: the macro with these argument tokens gives code exactly if they are one string literal, the name of a module that has bindings; it gives
these bindings. -/
theorem C70_macro (E : Env) (W : World) (fuel : Nat) (input ts : List Tok) : macroRun E W fuel input = some ts ↔
    ∃ name items, input = [.str name] ∧ EngineOutput E W fuel [name] items ∧ ts = Item.toksList items := by
  have hm : ∀ s, macroArgs input = some s ↔ input = [.str s] := by
    intro s
    unfold macroArgs
    split
    · simp
    · rename_i hx
      simp only [reduceCtorEq, false_iff]
      exact hx s
  unfold macroRun
  cases ha : macroArgs input with
  | none =>
    simp only [reduceCtorEq, false_iff]
    rintro ⟨name, items, h1, -⟩
    rw [(hm name).mpr h1] at ha
    cases ha
  | some s =>
    have hi := (hm s).mp ha
    subst hi
    refine (C55_macro E W fuel s ts).trans ?_
    constructor
    · rintro ⟨items, h1, h2⟩
      exact ⟨s, items, rfl, h1, h2⟩
    · rintro ⟨name, items, h1, h2, h3⟩
      cases h1
      exact ⟨items, h2, h3⟩

example : (macroRun exEnv exWorld 3 [.str c!"pkg"]).map List.isEmpty = some false ∧ (macroRun exEnv exWorld 3 (t!"pkg")).isNone = true ∧
    (macroRun exEnv exWorld 3 [.str c!"pkg", .str c!"other"]).isNone = true := ⟨by decide, by decide, by decide⟩

end Bindgen
