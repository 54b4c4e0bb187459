import Verif.Props.Arrival
import Verif.Lemmas.Sane
import Verif.Props.Syntax
import Verif.Props.Functions
/-!
# C66: the Rust code of the emitted functions, evaluated

`Spec/Eval.lean` says what Rust expressions with calls of pyo3 do. Here the syntax trees of the bindings, which C65 reads off the emitted
tokens, are evaluated.
-/
namespace Bindgen
open Spec

/-- A function with a body in the generated items. -/
inductive Spec.EmittedFn (f : Fn) (items : List Item) : Prop
  | func : Within (.func f) items → EmittedFn f items
  | accessor : Within (.prop f) items → EmittedFn f items
  | inherent (k : ClassItem) : Within (.class k) items → f ∈ k.inherent → EmittedFn f items
  | traitImpl (k : ClassItem) : Within (.class k) items → f ∈ k.traitImpls → EmittedFn f items

/-- A function with a body in a Rust file. -/
inductive Spec.InFile (g : RFn) : List RItem → Prop
  | fn {l : List RItem} : .fn g ∈ l → InFile g l
  | impl {l : List RItem} (as : List RAttr) (t : Option RType) (self : RType) (fns : List RFn) :
      .impl as t self fns ∈ l → g ∈ fns → InFile g l
  | mod {l inner : List RItem} (as : List RAttr) (pub : Bool) (n : Str) : .mod as pub n inner ∈ l → InFile g inner → InFile g l

/-- What a call of a Rust function with a receiver (or the token) and these arguments gives: the request `r`, and its converted result. -/
def Spec.Makes (g : RFn) (recv : Recv) (args : List PyVal) (r : Option Request) : Prop :=
  g.call (recv.val :: args.map .val) = r.map (fun r => .result (.done r))

theorem generated_sane {E : Env} {W : World} {fuel : Nat} {c : Codegen} {items : List Item} (h : c.generate E W fuel = .ok items) {f : Fn}
    (hf : EmittedFn f items) : f.Sane := by
  obtain ⟨out, -, hfrom⟩ := generate_from h
  cases hf with
  | func hw =>
    generalize hx : Item.func f = x at hw
    cases hfrom x hw with
    | mod M x hM hg => subst hx; obtain ⟨q⟩ := generate_parts hg; cases q.item
    | embed M x hM hm => subst hx; unfold embedItems at hm; split at hm <;> simp at hm
    | content M out p x hM hm hc =>
      subst hx
      cases hc with
      | function f' fns _ _ _ hg hfn => exact function_sane hg hfn
  | accessor hw =>
    generalize hx : Item.prop f = x at hw
    cases hfrom x hw with
    | mod M x hM hg => subst hx; obtain ⟨q⟩ := generate_parts hg; cases q.item
    | embed M x hM hm => subst hx; unfold embedItems at hm; split at hm <;> simp at hm
    | content M out p x hM hm hc =>
      subst hx
      cases hc with
      | property p l _ _ _ _ hg hfn => exact property_sane hg hfn
  | inherent k hw hk =>
    generalize hx : Item.class k = x at hw
    cases hfrom x hw with
    | mod M x hM hg => subst hx; obtain ⟨q⟩ := generate_parts hg; cases q.item
    | embed M x hM hm => subst hx; unfold embedItems at hm; split at hm <;> simp at hm
    | content M out p x hM hm hc =>
      subst hx
      cases hc with
      | class' c _ _ _ hg => exact class_sane hg (.inl hk)
  | traitImpl k hw hk =>
    generalize hx : Item.class k = x at hw
    cases hfrom x hw with
    | mod M x hM hg => subst hx; obtain ⟨q⟩ := generate_parts hg; cases q.item
    | embed M x hM hm => subst hx; unfold embedItems at hm; split at hm <;> simp at hm
    | content M out p x hM hm hc =>
      subst hx
      cases hc with
      | class' c _ _ _ hg => exact class_sane hg (.inr hk)

/-- **C66**: for every generated function and all arguments, evaluating its Rust code makes exactly the request of `Spec.run`, on which the
statements about calls rest (C24, C25, C28, C32); if the arguments do not have the types of the parameters, neither is defined. -/
theorem C66_function (E : Env) (W : World) (fuel : Nat) (c : Codegen) (items : List Item) (h : c.generate E W fuel = .ok items) (f : Fn)
    (hf : EmittedFn f items) (args : List PyVal) : Makes f.tree f.sig.recv args (run f args) :=
  eval_fn (generated_sane h hf) args

theorem inFile_append {g : RFn} {l l' : List RItem} : InFile g (l ++ l') ↔ InFile g l ∨ InFile g l' := by
  constructor
  · rintro (h | ⟨as, t, s, fns, h, hg⟩ | ⟨as, pub, n, h, hg⟩) <;> rcases List.mem_append.1 h with h | h
    · exact .inl (.fn h)
    · exact .inr (.fn h)
    · exact .inl (.impl as t s fns h hg)
    · exact .inr (.impl as t s fns h hg)
    · exact .inl (.mod as pub n h hg)
    · exact .inr (.mod as pub n h hg)
  · rintro ((h | ⟨as, t, s, fns, h, hg⟩ | ⟨as, pub, n, h, hg⟩) | (h | ⟨as, t, s, fns, h, hg⟩ | ⟨as, pub, n, h, hg⟩))
    · exact .fn (List.mem_append_left _ h)
    · exact .impl as t s fns (List.mem_append_left _ h) hg
    · exact .mod as pub n (List.mem_append_left _ h) hg
    · exact .fn (List.mem_append_right _ h)
    · exact .impl as t s fns (List.mem_append_right _ h) hg
    · exact .mod as pub n (List.mem_append_right _ h) hg

/-- Functions of one item. -/
theorem inFile_class {g : RFn} {k : ClassItem} :
    InFile g k.trees ↔ ∃ f, (f ∈ k.inherent ∨ f ∈ k.traitImpls) ∧ g = f.tree := by
  unfold ClassItem.trees
  constructor
  · rintro (h | ⟨as, t, s, fns, h, hg⟩ | ⟨as, pub, n, h, hg⟩)
    · simp at h
    · simp only [List.mem_cons, RItem.impl.injEq, List.not_mem_nil, or_false, reduceCtorEq, false_or] at h
      rcases h with ⟨-, -, -, rfl⟩ | ⟨-, -, -, rfl⟩
      · obtain ⟨f, hf, rfl⟩ := List.mem_map.1 hg; exact ⟨f, .inl hf, rfl⟩
      · obtain ⟨f, hf, rfl⟩ := List.mem_map.1 hg; exact ⟨f, .inr hf, rfl⟩
    · simp at h
  · rintro ⟨f, hf | hf, rfl⟩
    · exact .impl _ _ _ (k.inherent.map Fn.tree)
        (.tail _ (.tail _ (.tail _ (.head _)))) (List.mem_map_of_mem hf)
    · exact .impl _ _ _ (k.traitImpls.map Fn.tree)
        (.tail _ (.tail _ (.tail _ (.tail _ (.tail _ (.head _)))))) (List.mem_map_of_mem hf)

/-- The tree of a function as it is in the file; accessors of modules get their `pub` there. -/
def Spec.FileTree (g : RFn) (f : Fn) : Prop := g = f.tree ∨ g = { f.tree with sig := { f.sig.tree with pub := true } }

theorem makes_of_fileTree {g : RFn} {f : Fn} (h : FileTree g f) {recv : Recv} {args : List PyVal} {r : Option Request}
    (hm : Makes f.tree recv args r) : Makes g recv args r := by
  rcases h with rfl | rfl
  · exact hm
  · exact hm

mutual
theorem inFile_item {g : RFn} : ∀ {i : Item} {is : List Item}, i ∈ is → InFile g i.trees →
    (∃ s n f, g = embedTree s n f) ∨ ∃ f, EmittedFn f is ∧ FileTree g f
  | .use p a, is, hi, h => by
    rcases h with h | ⟨as, t, s, fns, h, hg⟩ | ⟨as, pub, n, h, hg⟩ <;> simp [Item.trees] at h
  | .prelude n es, is, hi, h => by
    rcases h with h | ⟨as, t, s, fns, h, hg⟩ | ⟨as, pub, n, h, hg⟩
    · simp [Item.trees] at h
    · simp [Item.trees] at h
    · simp only [Item.trees, List.mem_singleton, RItem.mod.injEq] at h
      obtain ⟨-, -, -, rfl⟩ := h
      rcases hg with h | ⟨as, t, s, fns, h, hg⟩ | ⟨as, pub, n, h, hg⟩ <;> simp at h
  | .typeAlias n, is, hi, h => by
    rcases h with h | ⟨as, t, s, fns, h, hg⟩ | ⟨as, pub, n, h, hg⟩ <;> simp [Item.trees] at h
  | .class k, is, hi, h => by
    obtain ⟨f, hf | hf, rfl⟩ := inFile_class.1 h
    · exact .inr ⟨f, .inherent k (.top hi) hf, .inl rfl⟩
    · exact .inr ⟨f, .traitImpl k (.top hi) hf, .inl rfl⟩
  | .func f, is, hi, h => by
    rcases h with h | ⟨as, t, s, fns, h, hg⟩ | ⟨as, pub, n, h, hg⟩ <;> simp [Item.trees] at h
    exact .inr ⟨f, .func (.top hi), .inl h⟩
  | .prop f, is, hi, h => by
    rcases h with h | ⟨as, t, s, fns, h, hg⟩ | ⟨as, pub, n, h, hg⟩ <;> simp [Item.trees] at h
    exact .inr ⟨f, .accessor (.top hi), .inr h⟩
  | .strayPub, is, hi, h => by
    rcases h with h | ⟨as, t, s, fns, h, hg⟩ | ⟨as, pub, n, h, hg⟩ <;> simp [Item.trees] at h
  | .embed s n f, is, hi, h => by
    rcases h with h | ⟨as, t, s, fns, h, hg⟩ | ⟨as, pub, n, h, hg⟩ <;> simp [Item.trees] at h
    exact .inl ⟨s, n, f, h⟩
  | .mod top doc n inner, is, hi, h => by
    rcases h with h | ⟨as, t, s, fns, h, hg⟩ | ⟨as, pub, n, h, hg⟩
    · simp [Item.trees] at h
    · simp [Item.trees] at h
    · simp only [Item.trees, List.mem_singleton, RItem.mod.injEq] at h
      obtain ⟨-, -, -, rfl⟩ := h
      rcases inFile_items hg with h | ⟨f, hf, ht⟩
      · exact .inl h
      · refine .inr ⟨f, ?_, ht⟩
        cases hf with
        | func hw => exact .func (.sub hi hw)
        | accessor hw => exact .accessor (.sub hi hw)
        | inherent k hw hk => exact .inherent k (.sub hi hw) hk
        | traitImpl k hw hk => exact .traitImpl k (.sub hi hw) hk
theorem inFile_items {g : RFn} : ∀ {is : List Item}, InFile g (Item.treesList is) →
    (∃ s n f, g = embedTree s n f) ∨ ∃ f, EmittedFn f is ∧ FileTree g f
  | [], h => by
    rcases h with h | ⟨as, t, s, fns, h, hg⟩ | ⟨as, pub, n, h, hg⟩ <;> simp [Item.treesList] at h
  | i :: is, h => by
    rcases inFile_append.1 (by simpa only [Item.treesList] using h) with h | h
    · exact inFile_item (by simp) h
    · rcases inFile_items h with h | ⟨f, hf, ht⟩
      · exact .inl h
      · refine .inr ⟨f, ?_, ht⟩
        have up : ∀ {x : Item}, Within x is → Within x (i :: is) := by
          rintro x (h | ⟨h, h'⟩)
          · exact .top (by simp [h])
          · exact .sub (List.mem_cons_of_mem _ h) h'
        cases hf with
        | func hw => exact .func (up hw)
        | accessor hw => exact .accessor (up hw)
        | inherent k hw hk => exact .inherent k (up hw) hk
        | traitImpl k hw hk => exact .traitImpl k (up hw) hk
end

theorem inFile_of_mem {g : RFn} {i : Item} {is : List Item} (hi : i ∈ is) (h : InFile g i.trees) : InFile g (Item.treesList is) := by
  induction is with
  | nil => cases hi
  | cons j is ih =>
    simp only [Item.treesList]
    rcases List.mem_cons.1 hi with rfl | hi
    · exact inFile_append.2 (.inl h)
    · exact inFile_append.2 (.inr (ih hi))

theorem inFile_of_within {g : RFn} {i : Item} {is : List Item} (hi : Within i is) (h : InFile g i.trees) : InFile g (Item.treesList is) := by
  induction hi with
  | top hi => exact inFile_of_mem hi h
  | sub hi _ ih => exact inFile_of_mem hi (.mod _ _ _ (.head _) ih)

/-- **C66** (files): the generated tokens are a Rust file in which, apart from functions that embed sources, every function makes the requests
of a generated function; and every generated function is there. (Without a stray `pub`, which is in the way of any file: C65.) -/
theorem C66_file (E : Env) (W : World) (fuel : Nat) (cfg : Config) (srcs : List (Str × Str)) (c : Codegen) (items : List Item)
    (hb : Built E W fuel cfg srcs c) (h : c.generate E W fuel = .ok items) (hs : ¬ Within .strayPub items) :
    ∃ file, Parses (Item.toksList items) file ∧
      (∀ g, InFile g file → (∃ s n p, g = embedTree s n p) ∨
        ∃ f, EmittedFn f items ∧ FileTree g f ∧ ∀ args, Makes g f.sig.recv args (run f args)) ∧
      ∀ f, EmittedFn f items → ∃ g, InFile g file ∧ FileTree g f := by
  refine ⟨_, C65_valid E W fuel cfg srcs c items hb h hs, fun g hg => ?_, fun f hf => ?_⟩
  · rcases inFile_items hg with hg | ⟨f, hf, ht⟩
    · exact .inl hg
    · exact .inr ⟨f, hf, ht, fun args => makes_of_fileTree ht (C66_function E W fuel c items h f hf args)⟩
  · cases hf with
    | func hw => exact ⟨_, inFile_of_within hw (.fn (.head _)), .inl rfl⟩
    | accessor hw => exact ⟨_, inFile_of_within hw (.fn (.head _)), .inr rfl⟩
    | inherent k hw hk => exact ⟨_, inFile_of_within hw (inFile_class.2 ⟨f, .inl hk, rfl⟩), .inl rfl⟩
    | traitImpl k hw hk => exact ⟨_, inFile_of_within hw (inFile_class.2 ⟨f, .inr hk, rfl⟩), .inl rfl⟩

/-- **C66** (embedded sources): the function makes a module from the source and puts it into `sys.modules` under its name. -/
theorem C66_embed (source name file : Str) :
    (embedTree source name file).call [.py] =
      some (.result (.stored (.getattr (.import c!"sys") c!"modules") name (.module source file name))) := by
  rfl

/-- **C25** (partial, with the Rust code): evaluating the Rust code of a function that is generated for a Python callable with signature `s` makes a
call that Python accepts, and every Python parameter is bound to what arrives for the value supplied for it. Conditions and missing cases as in
`C25_arrivals_partial`. -/
theorem C25_rust_partial {E : Env} {cfg : Config} {importable : Str → Bool} {taken : List Ident} {lt : LocalTypes}
    {pf : PyFn} {name : Path} {typ : FnType} {f : Function} {s : PySig} {r : FnImpl} {fn : Fn} {args : List PyVal}
    (recv : PyVal) (hs : pf.sig = some s) (hg : GoodSig E s.params)
    (hp : Function.parse E pf name typ = .ok f) (h : f.generate E cfg importable taken lt = .ok r) (hfn : fn ∈ fnsOf r)
    (hus : ∀ p ∈ s.params, p.name ≠ c!"_")
    (hself : c!"self" ∉ ((if hasReceiver f.typ then s.params.tail else s.params).map PyParam.name))
    (hrecv : hasReceiver f.typ = true → ∃ p ps, s.params = p :: ps ∧ (p.kind = .positionalOnly ∨ p.kind = .positionalOrKeyword))
    (hlen : args.length = fn.sig.params.length) (hadm : ∀ e ∈ fn.sig.params.zip args, Admits e.1.2 e.2)
    (hkeys : ∀ k ∈ (starStarVals (supplied f.params args)).map Prod.fst, k ∉ keywordNames s.params) :
    ∃ obj meth pos kw, Makes fn.tree fn.sig.recv args (some (.call obj meth pos kw)) ∧
      Spec.bind s.params ((if hasReceiver f.typ then [recv] else []) ++ pos) kw =
        some (List.zipWith (fun p v => (p.name, boundTo p.kind v)) s.params
          ((if hasReceiver f.typ then [recv] else []) ++ arrivals fn.sig.params args)) := by
  obtain ⟨obj, meth, pos, kw, hr, hb⟩ := C25_arrivals_partial recv hs hg hp h hfn hus hself hrecv hlen hadm hkeys
  refine ⟨obj, meth, pos, kw, ?_, hb⟩
  rw [← hr]
  exact eval_fn (function_sane h hfn) args

/-! ## Examples -/

/-- The functions of a module in a file, at the top level. -/
def exFileFns (file : List RItem) : List RFn :=
  file.flatMap (fun (i : RItem) => match i with
    | .mod _ _ _ inner => inner.filterMap (fun (j : RItem) => match j with | .fn g => some g | _ => none)
    | _ => [])

/-- What a call asks for: the object, the name and the positional arguments that are atoms. -/
inductive ExAsk
  | call (o : Obj) (m : Option Str) (args : List Nat)
  | get (o : Obj) (n : Str)
  | set (o : Obj) (n : Str)
  | nothing
  deriving DecidableEq

/-- The request of a call. -/
def exAsks : Option RVal → ExAsk
  | some (.result (.done (.call o m args _))) => .call o m (args.filterMap (fun (v : PyVal) => match v with | .atom n => some n | _ => none))
  | some (.result (.done (.get o n))) => .get o n
  | some (.result (.done (.set o n _))) => .set o n
  | _ => .nothing

/-- The functions of the parsed file, called with 7 and without arguments. -/
def exRustCalls (items : List Item) : Option (List (Str × ExAsk × ExAsk)) :=
  (pFile 60 (Item.toksList items)).map (fun l => (exFileFns l).map (fun g =>
    (g.sig.name, exAsks (g.call [.py, .val (.atom 7)]), exAsks (g.call [.py]))))

-- the bindings of `pkg`, parsed and called with 7: `f` calls `pkg.f(7)`, the accessors of `VALUE` get and set it
example : ∃ c items, Built exEnv exWorld 5 {} [] c ∧ c.generate exEnv exWorld 5 = .ok items ∧
    exRustCalls items = some [(c!"f", .call (.import c!"pkg") (some c!"f") [7], .nothing),
      (c!"VALUE", .nothing, .get (.import c!"pkg") c!"VALUE"), (c!"set_VALUE", .set (.import c!"pkg") c!"VALUE", .nothing)] :=
  built_run (names := [c!"pkg"]) (by decide +kernel)

-- `f(1, 2, 3, k=4, z=5)` for `def f(a, *args, k, **kwargs)`, and without `**kwargs`
example : exForwardFn.tree.call [.py, .val (.atom 1), .val (.tuple [.atom 2, .atom 3]), .val (.atom 4), .val (.dict [(c!"z", .atom 5)])] =
    some (.result (.done (.call (.import c!"m") (some c!"f") [.atom 1, .atom 2, .atom 3] [(c!"z", .atom 5), (c!"k", .atom 4)]))) := rfl
example : exForwardFn.tree.call [.py, .val (.atom 1), .val (.tuple []), .val (.atom 4), .val .none] =
    some (.result (.done (.call (.import c!"m") (some c!"f") [.atom 1] [(c!"k", .atom 4)]))) := rfl
-- a tuple is required for `*args`
example : exForwardFn.tree.call [.py, .val (.atom 1), .val (.atom 2), .val (.atom 4), .val .none] = none := rfl
example : exForwardFn.Sane := function_sane (E := Env.ascii true false) (cfg := {}) (imp := fun _ => true) (taken := []) (lt := [])
  (f := exForward) (r := .func [exForwardFn]) (by decide) (by simp [fnsOf])

-- the evaluator insists on `?`, on absolute paths and on bound names
example : eval [(c!"py", .py)] (.method (.try (.method (var c!"py") c!"import_bound" [internTree c!"m"])) c!"as_any" []) =
    some (.obj (.import c!"m")) := rfl
example : eval [(c!"py", .py)] (.method (.method (var c!"py") c!"import_bound" [internTree c!"m"]) c!"as_any" []) = none := rfl
example : eval [] (internTree c!"m") = none := rfl
example : eval [(c!"py", .py)] (.call (.path false (names [c!"types", c!"PyDict", c!"new_bound"])) [var c!"py"]) = none := rfl

end Bindgen
