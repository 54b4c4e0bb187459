import Verif.Lemmas.Prepared
import Verif.Props.Output
import Verif.Props.Flags
/-!
# The accessors of the requested modules: C39
-/
namespace Bindgen
open Spec

/-- A function of that name in a module of that name in the interpreter. -/
def Spec.FunctionIn (E : Env) (cfg : Config) (W : World) (M : Path) (x : Str) : Prop :=
  ∃ m, Parsed E cfg W m ∧ m.name = M ∧ ∃ f ∈ m.functions, f.name.segs.getLast? = some (Ident.fromPy E x)

/-- What the content of a module must hold for the variables of the module: a function that reads the attribute, named like the
attribute or, if a function has that name, with `get_` in front; and a function that writes the attribute, named with `set_`
in front. `T` holds for the names of functions. -/
structure Spec.EmitsAccessors (E : Env) (T : Str → Prop) (m : Module) (content : List Item) : Prop where
  getter : ∀ p ∈ m.properties, ∀ n, IsIdent E n → n ∉ unspellable → n ∉ reservedFunctions →
    p.name.segs.getLast? = some (Ident.fromPy E n) → ¬ T n →
    ∃ (fn : Fn) (o : Obj), .prop fn ∈ content ∧ unraw fn.sig.name = n ∧ fn.body = .getattr o n
  fallback : ∀ p ∈ m.properties, ∀ n, IsIdent E n → n ≠ c!"type" →
    p.name.segs.getLast? = some (Ident.fromPy E n) → ¬ T (c!"get_" ++ n) →
    ∃ (fn : Fn) (o : Obj), .prop fn ∈ content ∧ (unraw fn.sig.name = n ∨ unraw fn.sig.name = c!"get_" ++ n) ∧
      fn.body = .getattr o n
  setter : ∀ p ∈ m.properties, p.isMutable = true → ∀ n, IsIdent E n →
    p.name.segs.getLast? = some (Ident.fromPy E n) → ¬ T (c!"set_" ++ n) →
    ∃ (fn : Fn) (o : Obj) (v : Str), .prop fn ∈ content ∧ unraw fn.sig.name = c!"set_" ++ n ∧ fn.body = .setattr o n v

theorem not_unspellable_get (n : Str) : c!"get_" ++ n ∉ unspellable := by simp [unspellable]

theorem not_unspellable_set (n : Str) : c!"set_" ++ n ∉ unspellable := by simp [unspellable]

theorem nameTaken_false {E : Env} {taken : List Ident} {n : Str} (hid : IsIdent E n) (h1 : Ident.fromPy E n ∉ taken)
    (h2 : n ∉ reservedFunctions) : nameTaken taken (Ident.fromPy E n) = false := by
  unfold nameTaken
  rw [asPy_ident hid]
  have : forbiddenFunctionNames.contains n = false := by simpa [forbiddenFunctionNames, reservedFunctions] using h2
  rw [this, Bool.or_false]
  simpa using h1

theorem content_accessors {E : Env} {cfg : Config} {imp : Str → Bool} {tops : List Module} {ts : List Path} {m : Module}
    {out : List Item} (h : m.content E cfg imp tops ts = .ok out) (hc : cfg.generateProperties = true) :
    EmitsAccessors E (fun x => ∃ f ∈ m.functions, f.name.segs.getLast? = some (Ident.fromPy E x)) m out := by
  obtain ⟨q⟩ := content_parts h
  have hq := q.propertiesOk
  rw [hc] at hq
  have hout : ∀ p ∈ m.properties, ∃ l, p.generate E cfg imp q.taken q.lt = .ok l ∧ ∀ fn, some fn ∈ l → .prop fn ∈ out := by
    intro p hp
    obtain ⟨l, hl, hg⟩ := traverse_mem' hq hp
    obtain ⟨l', hl', hg⟩ := Res.bind_ok hg
    refine ⟨l', hl', ?_⟩
    intro fn hfn
    unfold moduleProps at hg
    split at hg
    · cases hg
      rw [q.content]
      simp only [List.mem_append, List.mem_flatten]
      exact Or.inr ⟨_, hl, List.mem_map.mpr ⟨_, hfn, rfl⟩⟩
    · cases hg
  have htaken : ∀ x, Ident.fromPy E x ∈ q.taken → ∃ f ∈ m.functions, f.name.segs.getLast? = some (Ident.fromPy E x) := by
    intro x hx
    obtain ⟨f, hf, hn⟩ := traverse_mem q.takenOk hx
    refine ⟨f, hf, ?_⟩
    unfold Path.name Path.name? at hn
    cases hl : f.name.segs.getLast? with
    | none => rw [hl] at hn; cases hn
    | some i => rw [hl] at hn; cases hn; rfl
  have hget : ∀ p ∈ m.properties, ∀ n, IsIdent E n → p.name.segs.getLast? = some (Ident.fromPy E n) → ∀ x t,
      getterIdent E q.taken (Ident.fromPy E n) = .ok (some t) → unraw t = x →
      ∃ (fn : Fn) (o : Obj), .prop fn ∈ out ∧ unraw fn.sig.name = x ∧ fn.body = .getattr o n := by
    intro p hp n hid hl x t ht hx
    obtain ⟨l, hg, hmem⟩ := hout p hp
    obtain ⟨g, hg, hl'⟩ := accessors_of hg
    have hgl : g ∈ l := by rcases hl' with ⟨-, s, -, rfl⟩ | ⟨-, rfl⟩ <;> simp
    cases g with
    | none =>
      unfold Property.generateGetter at hg
      rw [name_ok hl, Res.ok_bind, ht, Res.ok_bind] at hg
      simp only at hg
      obtain ⟨_, -, hg⟩ := Res.bind_ok hg
      obtain ⟨_, -, hg⟩ := Res.bind_ok hg
      cases hg
    | some fn =>
      obtain ⟨name, ident, ty, obj, h1, h2, -, -, rfl⟩ := getter_fn hg
      rw [name_ok hl] at h1
      cases h1
      rw [ht] at h2
      cases h2
      exact ⟨_, obj, hmem _ hgl, hx, congrArg (Body.getattr obj) (asPy_ident hid)⟩
  have hfall : ∀ n, IsIdent E n → n ≠ c!"type" → (¬ ∃ f ∈ m.functions, f.name.segs.getLast? = some (Ident.fromPy E (c!"get_" ++ n))) →
      ∃ t, getterFallback E q.taken (Ident.fromPy E n) = .ok (some t) ∧ unraw t = c!"get_" ++ n := by
    intro n hid hty hT
    have hgi : IsIdent E (c!"get_" ++ n) := isIdent_prefix (getSet_isIdent E).1 hid
    obtain ⟨t, ht, hu⟩ := spelled hgi (not_unspellable_get n)
    refine ⟨t, ?_, hu⟩
    unfold getterFallback
    rw [asPy_ident hid]
    simp only
    rw [nameTaken_false hgi (fun hx => hT (htaken _ hx)) (by simpa [reservedFunctions] using hty), Ident.trySyn, ht]
    rfl
  constructor
  · intro p hp n hid hs hr hl hT
    obtain ⟨t, ht, hu⟩ := spelled hid hs
    refine hget p hp n hid hl n t ?_ hu
    unfold getterIdent
    rw [ht]
    simp only [nameTaken_false hid (fun hx => hT (htaken _ hx)) hr, Bool.false_eq_true, if_false]
  · intro p hp n hid hty hl hT
    obtain ⟨t, ht, hu⟩ := hfall n hid hty hT
    cases hi : (Ident.fromPy E n).toSyn E with
    | none =>
      obtain ⟨fn, o, h1, h2, h3⟩ := hget p hp n hid hl _ t (by unfold getterIdent; rw [hi]; exact ht) hu
      exact ⟨fn, o, h1, Or.inr h2, h3⟩
    | some i =>
      by_cases hk : nameTaken q.taken (Ident.fromPy E n) = true
      · obtain ⟨fn, o, h1, h2, h3⟩ := hget p hp n hid hl _ t (by
          unfold getterIdent; rw [hi]; simp only [hk, if_true]; exact ht) hu
        exact ⟨fn, o, h1, Or.inr h2, h3⟩
      · obtain ⟨fn, o, h1, h2, h3⟩ := hget p hp n hid hl _ i (by
          unfold getterIdent; rw [hi]; simp only [hk, Bool.false_eq_true, if_false]) rfl
        exact ⟨fn, o, h1, Or.inl (h2.trans (toSyn_unraw hid hi)), h3⟩
  · intro p hp hmut n hid hl hT
    have hsi : IsIdent E (c!"set_" ++ n) := isIdent_prefix (getSet_isIdent E).2 hid
    obtain ⟨t, ht, hu⟩ := spelled hsi (not_unspellable_set n)
    have hset : setterIdent E q.taken (Ident.fromPy E n) = .ok (some t) := by
      unfold setterIdent
      rw [asPy_ident hid]
      simp only
      rw [nameTaken_false hsi (fun hx => hT (htaken _ hx)) (by simp [reservedFunctions]), Ident.trySyn, ht]
      rfl
    obtain ⟨l, hg, hmem⟩ := hout p hp
    obtain ⟨g, -, hl'⟩ := accessors_of hg
    rcases hl' with ⟨-, s, hs, rfl⟩ | ⟨h, -⟩
    · cases s with
      | none =>
        unfold Property.generateSetter at hs
        rw [name_ok hl, Res.ok_bind, hset, Res.ok_bind] at hs
        simp only at hs
        obtain ⟨_, -, hs⟩ := Res.bind_ok hs
        obtain ⟨_, -, hs⟩ := Res.bind_ok hs
        obtain ⟨_, -, hs⟩ := Res.bind_ok hs
        cases hs
      | some fn =>
        obtain ⟨name, ident, pre, ty, obj, h1, h2, -, -, -, rfl⟩ := setter_fn hs
        rw [name_ok hl] at h1
        cases h1
        rw [hset] at h2
        cases h2
        exact ⟨_, obj, c!"p_value", hmem _ (List.mem_cons_of_mem _ (List.mem_singleton.mpr rfl)), hu, congrArg (Body.setattr obj · c!"p_value") (asPy_ident hid)⟩
    · rw [hmut] at h; cases h

/-- The nested modules hold what the items and the variables of the requested module give. Missing: the case that submodules are
not traversed and the name is dotted (`C39_no_traversal_counterexample`), and variables next to functions with the names of
their accessors (`C39_accessor_counterexample`). Re-exports are in `C06_present`, the prelude is in `C40_partial`. -/
theorem C39_accessors_partial (E : Env) (W : World) (fuel : Nat) (cfg : Config) (srcs : List (Str × Str)) (c : Codegen)
    (items : List Item) (hb : Built E W fuel cfg srcs c) (h : c.generate E W fuel = .ok items) (m : Module) (hm : m ∈ c.modules)
    (ht : cfg.traverseSubmodules = true ∨ m.name.segs.length = 1) :
    ∃ idents content, ModChain items idents content ∧
      List.Forall₂ (fun (s : Ident) i => s.toSyn E = some i) m.name.segs idents ∧ Emits E cfg m content ∧
      (cfg.generateProperties = true → EmitsAccessors E (FunctionIn E cfg W m.name) m content) := by
  have b := built_ok hb
  have hp : ∀ m ∈ c.modules, Parsed E c.cfg W m := b.config ▸ b.parsed
  obtain ⟨idents, content, h1, h2, out, M, ts, own, g1, g2, g3, g4, -, g5, g6⟩ :=
    C39_module_partial E W fuel c items h m hm (by rw [b.config]; exact ht)
  refine ⟨idents, content, h1, h2, b.config ▸ emits_mono (content_emits g5) g4 g6, fun hc => ?_⟩
  have a := content_accessors g5 (b.config ▸ hc)
  have hT : ∀ {x}, ¬ FunctionIn E cfg W m.name x → ¬ ∃ f ∈ M.functions, f.name.segs.getLast? = some (Ident.fromPy E x) := by
    rintro x hx ⟨f, hf, hl⟩
    obtain ⟨m', k1, k2, k3⟩ := prepared_has g1 hp g2 (x := .function f) hf
    exact hx ⟨m', b.config ▸ k1, k2.trans g3, f, k3, hl⟩
  constructor
  · intro p hp n hid hs hr hl hn
    obtain ⟨fn, o, k, k'⟩ := a.getter p (g4 (.property p) hp) n hid hs hr hl (hT hn)
    exact ⟨fn, o, g6 _ k, k'⟩
  · intro p hp n hid hs hl hn
    obtain ⟨fn, o, k, k'⟩ := a.fallback p (g4 (.property p) hp) n hid hs hl (hT hn)
    exact ⟨fn, o, g6 _ k, k'⟩
  · intro p hp hmut n hid hl hn
    obtain ⟨fn, o, v, k, k'⟩ := a.setter p (g4 (.property p) hp) hmut n hid hl (hT hn)
    exact ⟨fn, o, v, g6 _ k, k'⟩

/-- The accessors of the top-level modules: their names and whether they write. -/
def exAccessors (items : List Item) : List (Str × Bool) :=
  items.flatMap fun
    | .mod _ _ _ inner => inner.filterMap fun
      | .prop f => some (f.sig.name, match f.body with | .setattr .. => true | _ => false)
      | _ => none
    | _ => []

/-- Module `conf` with the variable `level` alone. -/
def exLevelWorld : World where
  mods := [{ name := some c!"conf", dir := [c!"level"], attrs := [(c!"level", { obj := exIntObj })] }]
  importMod s := if s = c!"conf" then some 0 else none

example : ((Codegen.new {}).moduleNames exEnv exLevelWorld 5 [c!"conf"] >>= fun c => c.generate exEnv exLevelWorld 5).map
    exAccessors = .ok [(c!"level", false), (c!"set_level", true)] := by decide +kernel

/-- A variable `level` next to a function `set_level` cannot be written. -/
theorem C39_accessor_counterexample :
    ((Codegen.new {}).moduleNames exEnv exSetterWorld 5 [c!"conf"] >>= fun c => c.generate exEnv exSetterWorld 5).map exAccessors =
      .ok [(c!"level", false)] := by decide +kernel

end Bindgen
