import Verif.Model.Libpython
import Verif.Props.Success
/-! # C77: the macro works with the library of its interpreter -/
namespace Bindgen
open Spec

/-- The parts of a path between the separators. -/
def Spec.pathParts (p : Str) : List Str := (Str.splitChar '/' p).filter (· ≠ [])

/-- `sysconfig` says that the library of Python is called `name` and is in the directory `dir`. -/
def Spec.LibraryIn (H : Host) (dir name : Str) : Prop :=
  ∃ f, H.getConfigVar = some f ∧ f c!"LIBDIR" = some (.str dir) ∧ f c!"INSTSONAME" = some (.str name)

/-- The libraries that are loaded once the macro has asked for this one. -/
def Spec.Loaded (H : Host) (opened : Option Str) (libs : List Str) : Prop :=
  ∀ l, l ∈ libs ↔ opened = some l ∧ H.dlopen l = true

theorem splitChar_mid (sep : Char) (a b : Str) : Str.splitChar sep (a ++ sep :: b) = Str.splitChar sep a ++ Str.splitChar sep b := by
  induction a with
  | nil => simp [Str.splitChar]
  | cons c a ih =>
    rw [List.cons_append]
    by_cases h : c = sep
    · subst h
      rw [Str.splitChar_cons_sep, Str.splitChar_cons_sep, ih, List.cons_append]
    · rw [Str.splitChar_cons_ne h, Str.splitChar_cons_ne h, ih]
      cases hs : Str.splitChar sep a with
      | nil => exact absurd hs (Str.splitChar_ne_nil _ _)
      | cons p ps => rfl

theorem pathJoin_parts {dir name : Str} (hd : dir ≠ []) (hn : ¬ c!"/" <+: name) :
    pathParts (pathJoin dir name) = pathParts dir ++ pathParts name ∧ dir <+: pathJoin dir name ∧ name <:+ pathJoin dir name ∧
      (¬ c!"/" <:+ dir → pathJoin dir name = dir ++ c!"/" ++ name) := by
  have hs : Str.startsWith name c!"/" = false := by
    rw [Bool.eq_false_iff]
    exact fun h => hn (Str.startsWith_iff.mp h)
  unfold pathJoin
  rw [hs, if_neg Bool.false_ne_true]
  by_cases hl : dir.getLast? = some '/'
  · rw [if_pos (.inr hl)]
    obtain ⟨d, rfl⟩ := List.getLast?_eq_some_iff.mp hl
    refine ⟨?_, List.prefix_append _ _, List.suffix_append _ _, fun h => absurd (List.suffix_append _ _) h⟩
    unfold pathParts
    rw [List.append_assoc, List.singleton_append, splitChar_mid, splitChar_mid]
    simp [Str.splitChar]
  · rw [if_neg (by simp [hd, hl])]
    refine ⟨?_, List.prefix_append _ _, ?_, fun _ => by simp⟩
    · unfold pathParts
      rw [splitChar_mid, List.filter_append]
    · rw [← List.singleton_append, ← List.append_assoc]
      exact List.suffix_append _ _

theorem macroIn_literal (E : Env) (H : Host) (fuel : Nat) (name : Str) : macroIn E H true fuel [.str name] =
    match libpythonPath H with
    | none => ⟨macroTokens E (H.world []) fuel name, true, none⟩
    | some path => ⟨macroTokens E (H.world (dlopened H path)) fuel name, false, some path⟩ := rfl

theorem libpythonPath_of {H : Host} {dir name : Str} (h : LibraryIn H dir name) : libpythonPath H = cString (pathJoin dir name) := by
  obtain ⟨f, h1, h2, h3⟩ := h
  simp [libpythonPath, h1, h2, h3, ConfigVar.toString]

theorem cString_some {s : Str} (h : Char.ofNat 0 ∉ s) : cString s = some s := by
  unfold cString
  rw [if_neg (by simpa using h)]

theorem pathJoin_char {dir name : Str} {c : Char} (hc : c ≠ '/') :
    c ∈ pathJoin dir name ↔ c ∈ name ∨ (c ∈ dir ∧ ¬ c!"/" <+: name) := by
  unfold pathJoin
  by_cases h : Str.startsWith name c!"/" = true
  · rw [if_pos h]
    simp [Str.startsWith_iff.mp h]
  · rw [if_neg h]
    have h' : ¬ c!"/" <+: name := fun hp => h (Str.startsWith_iff.mpr hp)
    split
    · simp only [List.mem_append, h', not_false_eq_true, and_true]
      exact or_comm
    · simp only [List.mem_append, List.mem_cons, h', hc, false_or, not_false_eq_true, and_true]
      exact or_comm

/-- **C77** (partial): the macro asks for the library that `sysconfig` names, in the directory it names, and says nothing about it. Missing: it says
nothing either if the library cannot be loaded (`C77_silent_counterexample`), and a directory that `sysconfig` does not know is taken for one called
`None` (`C77_unknown_counterexample`). -/
theorem C77_path_partial (E : Env) (H : Host) (fuel : Nat) (m dir name : Str) (h : LibraryIn H dir name) (hd : dir ≠ [])
    (hn : ¬ c!"/" <+: name) (h0 : Char.ofNat 0 ∉ dir) (h1 : Char.ofNat 0 ∉ name) :
    (macroIn E H true fuel [.str m]).warned = false ∧ ∃ p, (macroIn E H true fuel [.str m]).opened = some p ∧
      pathParts p = pathParts dir ++ pathParts name ∧ dir <+: p ∧ name <:+ p ∧ (¬ c!"/" <:+ dir → p = dir ++ c!"/" ++ name) := by
  have hp : libpythonPath H = some (pathJoin dir name) := by
    rw [libpythonPath_of h, cString_some]
    rw [pathJoin_char (by decide)]
    rintro (h | h)
    · exact h1 h
    · exact h0 h.1
  rw [macroIn_literal, hp]
  exact ⟨rfl, _, rfl, pathJoin_parts hd hn⟩

/-- **C77**: the macro prints its warning exactly if, on Unix and with a proper argument, `sysconfig` does not answer or what it answers makes
no path for the operating system. -/
theorem C77_warned (E : Env) (H : Host) (unix : Bool) (fuel : Nat) (input : List Tok) : (macroIn E H unix fuel input).warned = true ↔
    unix = true ∧ (∃ m, input = [.str m]) ∧ ¬ ∃ f dir name, H.getConfigVar = some f ∧ f c!"LIBDIR" = some dir ∧ f c!"INSTSONAME" = some name ∧
      Char.ofNat 0 ∉ name.toString ∧ (Char.ofNat 0 ∉ dir.toString ∨ c!"/" <+: name.toString) := by
  have key : libpythonPath H = none ↔ ¬ ∃ f dir name, H.getConfigVar = some f ∧ f c!"LIBDIR" = some dir ∧ f c!"INSTSONAME" = some name ∧
      Char.ofNat 0 ∉ name.toString ∧ (Char.ofNat 0 ∉ dir.toString ∨ c!"/" <+: name.toString) := by
    unfold libpythonPath
    cases hf : H.getConfigVar with
    | none => simp
    | some f =>
      cases hd : f c!"LIBDIR" with
      | none => simp [hd]
      | some dir =>
        cases hn : f c!"INSTSONAME" with
        | none => simp [hd, hn]
        | some name =>
          have hj := pathJoin_char (dir := dir.toString) (name := name.toString) (c := Char.ofNat 0) (by decide)
          simp only [hd, hn, Option.bind_eq_bind, Option.bind_some, Option.some.injEq, cString]
          constructor
          · rintro h ⟨f', d', n', rfl, h1, h2, h3, h4⟩
            rw [hd] at h1; rw [hn] at h2
            cases h1; cases h2
            split at h
            · rename_i hc
              rcases hj.mp (by simpa using hc) with hx | hx
              · exact h3 hx
              · exact h4.elim (fun h => h hx.1) (fun h => hx.2 h)
            · cases h
          · intro h
            rw [if_pos]
            by_contra hc
            have hc : Char.ofNat 0 ∉ pathJoin dir.toString name.toString := by simpa using hc
            rw [hj] at hc
            refine h ⟨f, dir, name, rfl, hd, hn, fun hx => hc (.inl hx), ?_⟩
            by_contra hx
            exact hc (.inr ⟨not_not.mp fun h => hx (.inl h), fun h => hx (.inr h)⟩)
  rw [← key]
  unfold macroIn
  cases ha : macroArgs input with
  | none =>
    simp only [Bool.false_eq_true, false_iff]
    rintro ⟨-, ⟨m, rfl⟩, -⟩
    cases ha
  | some name =>
    have hi : ∃ m, input = [.str m] := by
      unfold macroArgs at ha
      split at ha
      · exact ⟨_, rfl⟩
      · cases ha
    cases unix with
    | false => simp
    | true => cases hp : libpythonPath H <;> simp [hi]

/-- **C77**: whether or not there is a warning, what the macro expands to is what the engine makes of the named module in the interpreter with the
library loaded. -/
theorem C77_tokens (E : Env) (H : Host) (unix : Bool) (fuel : Nat) (input : List Tok) :
    ∃ libs, libs.length ≤ 1 ∧ Loaded H (macroIn E H unix fuel input).opened libs ∧ ∀ ts, ((macroIn E H unix fuel input).tokens = some ts ↔
      ∃ m items, input = [.str m] ∧ EngineOutput E (H.world libs) fuel [m] items ∧ ts = Item.toksList items) := by
  have key : ∀ libs ts, (match macroArgs input with
      | none => none
      | some name => macroTokens E (H.world libs) fuel name) = some ts ↔
      ∃ m items, input = [.str m] ∧ EngineOutput E (H.world libs) fuel [m] items ∧ ts = Item.toksList items :=
    fun libs ts => C70_macro E (H.world libs) fuel input ts
  unfold macroIn
  cases ha : macroArgs input with
  | none =>
    refine ⟨[], by simp, by simp [Loaded], fun ts => ?_⟩
    rw [← key, ha]
  | some name =>
    cases unix with
    | false =>
      refine ⟨[], by simp, by simp [Loaded], fun ts => ?_⟩
      rw [← key, ha]
      rfl
    | true =>
      cases hp : libpythonPath H with
      | none =>
        refine ⟨[], by simp, by simp [Loaded], fun ts => ?_⟩
        rw [← key, ha]
        rfl
      | some p =>
        refine ⟨dlopened H p, ?_, ?_, fun ts => ?_⟩
        · unfold dlopened; split <;> simp
        · intro l
          simp only [if_true, Option.some.injEq, dlopened]
          split
          · rename_i hd
            simp only [List.mem_singleton]
            exact ⟨fun h => ⟨h.symm, h ▸ hd⟩, fun h => h.1.symm⟩
          · rename_i hd
            simp only [List.not_mem_nil, false_iff]
            rintro ⟨rfl, h⟩
            exact hd h
        · rw [← key, ha]
          rfl

/-- **C77**: if the interpreter needs no library loaded, the macro gives the bindings of the module whatever `sysconfig` and `dlopen` do. -/
theorem C77_independent (E : Env) (H : Host) (unix : Bool) (fuel : Nat) (input : List Tok) (W : World) (h : ∀ libs, H.world libs = W) :
    (macroIn E H unix fuel input).tokens = macroRun E W fuel input := by
  unfold macroIn macroRun
  cases macroArgs input with
  | none => rfl
  | some name =>
    cases unix with
    | false => simp [h]
    | true => cases libpythonPath H <;> simp [h]

/-- **C77** (partial): the macro expands to a Rust file that compiles as far as **C73** says if the library can be loaded from where `sysconfig` says it is, the
interpreter with the library is tidy, tame and quiet, and it can then import the module. Missing: as for `C77_path_partial` and **C75**. -/
theorem C77_expands_partial (E : Env) (H : Host) (fuel : Nat) (m dir name : Str) (W : World) (h : LibraryIn H dir name) (hd : dir ≠ [])
    (hs : ¬ c!"/" <:+ dir) (hn : ¬ c!"/" <+: name) (h0 : Char.ofNat 0 ∉ dir) (h1 : Char.ofNat 0 ∉ name)
    (hl : H.dlopen (dir ++ c!"/" ++ name) = true) (hw : H.world [dir ++ c!"/" ++ name] = W)
    (hW : TidyWorld E {} W) (hT : Tame E {} W fuel) (hQ : Quiet E W) (hm : W.importMod m ≠ none) :
    ∃ ts file, (macroIn E H true fuel [.str m]).tokens = some ts ∧ Parses ts file ∧ Compiles file := by
  obtain ⟨-, p, hp, -, -, -, e⟩ := C77_path_partial E H fuel m dir name h hd hn h0 h1
  obtain ⟨ts, file, t1, t2⟩ := (C75_frontends_partial E _ fuel hW hT hQ).1 m hm
  rw [← e hs] at hl hw
  refine ⟨ts, file, ?_, t2⟩
  rw [macroIn_literal] at hp ⊢
  cases hq : libpythonPath H with
  | none => rw [hq] at hp; cases hp
  | some q =>
    rw [hq] at hp
    cases hp
    rw [← t1]
    show macroTokens E (H.world (dlopened H p)) fuel m = _
    unfold dlopened
    rw [if_pos hl, hw]
    rfl

/-- An interpreter with the library `/usr/lib/libpython3.so`; the package can be imported only with this library. -/
def exHost (dir : ConfigVar) (lib : Str) : Host where
  getConfigVar := some fun s => if s = c!"LIBDIR" then some dir else if s = c!"INSTSONAME" then some (.str c!"libpython3.so") else some .none
  dlopen p := p = lib
  world libs := if libs = [c!"/usr/lib/libpython3.so"] then exCompileWorld else { exCompileWorld with importMod := fun _ => none }

/-- The hypotheses of `C77_path_partial`. -/
example : LibraryIn (exHost (.str c!"/usr/lib") c!"/usr/lib/libpython3.so") c!"/usr/lib" c!"libpython3.so" ∧
    ¬ c!"/" <+: c!"libpython3.so" ∧ Char.ofNat 0 ∉ c!"/usr/lib" ∧ Char.ofNat 0 ∉ c!"libpython3.so" ∧
    pathParts c!"/usr/lib/libpython3.so" = [c!"usr", c!"lib", c!"libpython3.so"] :=
  ⟨⟨_, rfl, rfl, rfl⟩, by decide, by decide, by decide, by decide⟩

/-- The hypotheses of `C77_expands_partial`: with the library the macro gives code. -/
example : ∃ ts file, (macroIn exEnv (exHost (.str c!"/usr/lib") c!"/usr/lib/libpython3.so") true 3 [.str c!"pkg"]).tokens = some ts ∧
    Parses ts file ∧ Compiles file :=
  C77_expands_partial exEnv _ 3 c!"pkg" c!"/usr/lib" c!"libpython3.so" exCompileWorld ⟨_, rfl, rfl, rfl⟩ (by simp) (by decide) (by decide) (by decide)
    (by decide) (by decide) (by simp [exHost]) exCompileWorld_tidy (tame_of_check (by decide +kernel)) (quiet_of_check (by decide +kernel)) (by decide)

/-- An interpreter that does not need the library: there are bindings without it. -/
example : (∀ libs, { exHost .none [] with world := fun _ => exCompileWorld }.world libs = exCompileWorld) ∧
    (macroRun exEnv exCompileWorld 3 [.str c!"pkg"]).isSome = true := ⟨fun _ => rfl, by decide +kernel⟩

/-- A warning: `sysconfig` cannot be imported. -/
example : (macroIn exEnv { exHost .none [] with getConfigVar := none } true 3 [.str c!"pkg"]).warned = true :=
  (C77_warned _ _ _ _ _).mpr ⟨rfl, ⟨_, rfl⟩, by rintro ⟨f, -, -, h, -⟩; cases h⟩

/-- **C77** fails if the library cannot be loaded: there is no warning, and the package cannot be imported. -/
theorem C77_silent_counterexample : ∃ H, LibraryIn H c!"/usr/lib" c!"libpython3.so" ∧ H.dlopen c!"/usr/lib/libpython3.so" = false ∧
    (macroIn exEnv H true 3 [.str c!"pkg"]).opened = some c!"/usr/lib/libpython3.so" ∧
    (macroIn exEnv H true 3 [.str c!"pkg"]).warned = false ∧ (macroIn exEnv H true 3 [.str c!"pkg"]).tokens.isNone = true ∧
    (macroRun exEnv (H.world [c!"/usr/lib/libpython3.so"]) 3 [.str c!"pkg"]).isSome = true :=
  ⟨exHost (.str c!"/usr/lib") [], ⟨_, rfl, rfl, rfl⟩, by decide, by decide +kernel, by decide +kernel, by decide +kernel, by decide +kernel⟩

/-- **C77** fails if `sysconfig` knows no directory: the macro asks for a library in a directory called `None`, and there is no warning. -/
theorem C77_unknown_counterexample : ∃ H f, H.getConfigVar = some f ∧ f c!"LIBDIR" = some .none ∧
    (macroIn exEnv H true 3 [.str c!"pkg"]).opened = some c!"None/libpython3.so" ∧
    (macroIn exEnv H true 3 [.str c!"pkg"]).warned = false ∧ (macroIn exEnv H true 3 [.str c!"pkg"]).tokens.isNone = true :=
  ⟨exHost .none [], _, rfl, rfl, by decide +kernel, by decide +kernel, by decide +kernel⟩

end Bindgen
