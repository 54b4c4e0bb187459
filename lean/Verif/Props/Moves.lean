import Verif.Lemmas.Moves
import Verif.Props.Check
/-!
# C74: no value is used after it has been moved
-/
namespace Bindgen
open Spec

theorem affineAll_append (a b : List RItem) : RItem.affineAll (a ++ b) = (RItem.affineAll a && RItem.affineAll b) := by
  induction a with
  | nil => simp [RItem.affineAll]
  | cons x a ih => rw [List.cons_append, RItem.affineAll, RItem.affineAll, ih, Bool.and_assoc]

theorem embed_affine (source name file : Str) : (embedTree source name file).affine = true := rfl

mutual
theorem affine_item : ∀ (i : Item), (∀ f, EmittedFn f [i] → f.tree.affine = true) → RItem.affineAll i.trees = true
  | .mod top doc n is, h => by
    have := affine_items is fun f hf => h f (emitted_mod.2 hf)
    simp only [Item.trees, RItem.affineAll, RItem.affine, Bool.and_true, this]
  | .class k, h => by
    have hk : ∀ f, f ∈ k.inherent ∨ f ∈ k.traitImpls → f.tree.affine = true := fun f hf =>
      h f ((emitted_single (i := .class k) (fun _ _ _ _ h => nomatch h)).2 (.inr (.inr ⟨k, rfl, hf⟩)))
    have h1 : (k.inherent.map Fn.tree).all RFn.affine = true := by
      rw [List.all_map, List.all_eq_true]; exact fun f hf => hk f (.inl hf)
    have h2 : (k.traitImpls.map Fn.tree).all RFn.affine = true := by
      rw [List.all_map, List.all_eq_true]; exact fun f hf => hk f (.inr hf)
    rw [show (Item.class k).trees = k.trees from rfl]
    simp only [ClassItem.trees, RItem.affineAll, RItem.affine, Bool.and_true, h1, h2]
  | .func g, h => by
    have := h g ((emitted_single (i := .func g) (fun _ _ _ _ h => nomatch h)).2 (.inl rfl))
    simp only [Item.trees, RItem.affineAll, RItem.affine, Bool.and_true, this]
  | .prop g, h => by
    have := h g ((emitted_single (i := .prop g) (fun _ _ _ _ h => nomatch h)).2 (.inr (.inl rfl)))
    simp only [Item.trees, RItem.affineAll, RItem.affine, Bool.and_true]
    exact this
  | .embed s n f, _ => by simp [Item.trees, RItem.affineAll, RItem.affine, embed_affine]
  | .use p a, _ => by simp [Item.trees, RItem.affineAll, RItem.affine]
  | .prelude n es, _ => by simp [Item.trees, RItem.affineAll, RItem.affine]
  | .typeAlias n, _ => by simp [Item.trees, RItem.affineAll, RItem.affine]
  | .strayPub, _ => by simp [Item.trees, RItem.affineAll]
theorem affine_items : ∀ (is : List Item), (∀ f, EmittedFn f is → f.tree.affine = true) → RItem.affineAll (Item.treesList is) = true
  | [], _ => by simp [Item.treesList, RItem.affineAll]
  | i :: is, h => by
    rw [Item.treesList, affineAll_append, affine_item i fun f hf => h f (emitted_cons.2 (.inl hf)),
      affine_items is fun f hf => h f (emitted_cons.2 (.inr hf))]
    rfl
end

/-- **C74** (functions): in every function that is generated, free or of a class, for an attribute or for a call, no variable is used after its value has been
moved — as long as its parameters have distinct names, without which it is no Rust function. -/
theorem C74_function (E : Env) (W : World) (fuel : Nat) (cfg : Config) (srcs : List (Str × Str)) (c : Codegen) (items : List Item)
    (hF : Faithful E W) (hb : Built E W fuel cfg srcs c) (h : c.generate E W fuel = .ok items) (f : Fn) (hf : EmittedFn f items)
    (hn : (f.sig.params.map Prod.fst).Nodup) : f.tree.affine = true :=
  affine_fn (emitted_typed hF hb h hf) hn

/-- **C74**: the generated tokens are a Rust file; if it type checks, then no function in it, including the one that embeds a source, uses a
variable after its value has been moved. -/
theorem C74_moves (E : Env) (W : World) (fuel : Nat) (cfg : Config) (srcs : List (Str × Str)) (c : Codegen) (items : List Item)
    (hF : Faithful E W) (hb : Built E W fuel cfg srcs c) (h : c.generate E W fuel = .ok items) (hs : ¬ Within .strayPub items) :
    ∃ file, Parses (Item.toksList items) file ∧ (RItem.checkAll file = true → RItem.affineAll file = true) := by
  refine ⟨_, C65_valid E W fuel cfg srcs c items hb h hs, fun hc => affine_items items fun f hf => ?_⟩
  have hg := (checks_items items fun _ hx => generated_typed hF hb h hx).1 hc f hf
  exact C74_function E W fuel cfg srcs c items hF hb h f hf hg.1

/-! ## Examples -/

-- a function with positional parameters, `*args`, keyword parameters and `**kwargs`
example : exForwardFn.tree.affine = true ∧ exForwardFn.tree.checks none = true ∧ (exForwardFn.sig.params.map Prod.fst).Nodup := by decide +kernel

-- the bindings of `pkg`: hypotheses and conclusion
example : Faithful exEnv exWorld ∧ ∃ c items, Built exEnv exWorld 5 {} [] c ∧ c.generate exEnv exWorld 5 = .ok items ∧ ¬ Within .strayPub items ∧
    (pFile 60 (Item.toksList items)).map (fun f => (RItem.checkAll f, RItem.affineAll f)) = some (true, true) := by
  obtain ⟨c, items, hb, h, hv⟩ := built_run (E := exEnv) (W := exWorld) (fuel := 5) (cfg := {}) (names := [c!"pkg"])
    (f := fun items => (pFile 60 (Item.toksList items)).map (fun f => (RItem.checkAll f, RItem.affineAll f))) (v := some (true, true)) (by decide +kernel)
  exact ⟨exWorld_faithful, c, items, hb, h,
    C52_names_partial exEnv exWorld exWorld_ordinary exWorld_unique exWorld_noAccessors 5 {} [] c items hb h, hv⟩

/-- A function with a parameter `p_k` that is not converted, and these keyword arguments. -/
def exKwFn (kw : Kw) : Fn :=
  ⟨none, ⟨true, c!"f", .py, [(c!"p_k", .vec .i64), (c!"p_kwargs", .option (.bound c!"PyDict"))], .ty (.bound c!"PyAny")⟩, false,
    [(c!"p_kwargs", .optDict)], .call (.import c!"m") (some c!"f") none (some kw)⟩

-- a keyword argument that is inserted twice is moved twice
example : (exKwFn (.freshSet [(c!"k", c!"p_k")])).tree.affine = true ∧ (exKwFn (.freshSet [(c!"k", c!"p_k"), (c!"l", c!"p_k")])).tree.affine = false := by
  decide +kernel
-- the dictionary is not available any more after it has been moved into `__internal__kwargs`
example : (exKwFn (.varSet c!"p_kwargs" [(c!"k", c!"p_k")])).tree.affine = true ∧
    (exKwFn (.varSet c!"p_kwargs" [(c!"k", c!"p_k"), (c!"l", c!"p_kwargs")])).tree.affine = false := by
  decide +kernel
-- `*args` is used twice, which its conversion into a reference makes possible
example : ({ exForwardFn with pre := [] }.tree).affine = false := by decide +kernel
-- moves in only one of two branches, in a closure, and after a block
example : moves [(c!"x", false, true), (c!"y", false, true)] (.block [.expr (.ifLet c!"Some" c!"z" (var c!"y") (var c!"x") .unit)] (var c!"x")) = none := by
  decide +kernel
example : moves [(c!"x", false, true)] (.closure c!"z" (var c!"x")) = none ∧ moves [(c!"x", true, true)] (.closure c!"z" (var c!"x")) ≠ none := by
  decide +kernel
example : moves [(c!"x", false, true)] (.array [.block [] (var c!"x"), .ref (var c!"x")]) = none ∧
    moves [(c!"x", false, true)] (.array [.ref (var c!"x"), .block [] (var c!"x")]) ≠ none := by
  decide +kernel

end Bindgen
