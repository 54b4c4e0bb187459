import Verif.Lemmas.Typed
import Verif.Props.Eval
import Verif.Props.Termination
/-!
# The code of the bindings type checks (C71)

`Spec/Check.lean` is a type checker for the Rust code of the bindings. Here it is run on the syntax trees that C65 reads off the emitted
tokens.
-/
namespace Bindgen
open Spec

/-! ## Annotations -/

mutual
/-- Annotations for which Rust and pyo3 have a type: no IP addresses, no tuples with more than 12 elements, and no dictionary key or set
element that is itself a dictionary, set, frozen set or time delta. -/
def Spec.Expressible : PyTy → Prop
  | .ipV4 | .ipV6 => False
  | .dict k v => falseHashable k = false ∧ Expressible k ∧ Expressible v
  | .set t | .frozenSet t => falseHashable t = false ∧ Expressible t
  | .optional t | .list t => Expressible t
  | .tuple ts => ts.length ≤ 12 ∧ ExpressibleList ts
  | _ => True
/-- The same on lists. -/
def Spec.ExpressibleList : List PyTy → Prop
  | [] => True
  | t :: ts => Expressible t ∧ ExpressibleList ts
end

theorem expressibleList_iff {ts : List PyTy} : ExpressibleList ts ↔ ∀ t ∈ ts, Expressible t := by
  induction ts with
  | nil => simp [ExpressibleList]
  | cons t ts ih => simp [ExpressibleList, ih]

theorem supportedList_iff {ts : List RsTy} : SupportedList ts ↔ ∀ t ∈ ts, Supported t := by
  induction ts with
  | nil => simp [SupportedList]
  | cons t ts ih => simp [SupportedList, ih]

/-- **C71** (annotations): the types emitted for such an annotation exist, and pyo3 converts their values. -/
theorem C71_annotation (E : Env) (lt : LocalTypes) (t : PyTy) (o b : RsTy) (h : intoRs E lt t = .ok (o, b)) (ht : Expressible t) :
    Supported o ∧ Supported b := by
  induction t using PyTy.ind generalizing o b with
  | step t ih =>
    have own : ∀ {s : PyTy} {p : RsTy × RsTy}, s ∈ t.kids → Expressible s → intoRs E lt s = .ok p → Supported p.1 :=
      fun hs hf hp => (ih _ hs _ _ hp hf).1
    cases t
    case other n =>
      rw [intoRs] at h
      rcases mapType_ok h with ⟨_, h⟩ | ⟨_, rel, _, _, h⟩ | ⟨_, _, h⟩ <;> cases h <;> exact ⟨trivial, trivial⟩
    case optional t =>
      rw [intoRs] at h
      obtain ⟨p, hp, h⟩ := Res.bind_ok h
      cases h
      have := own (s := t) (by simp [PyTy.kids]) ht hp
      exact ⟨this, this⟩
    case list t =>
      rw [intoRs] at h
      obtain ⟨p, hp, h⟩ := Res.bind_ok h
      cases h
      have := own (s := t) (by simp [PyTy.kids]) ht hp
      exact ⟨this, this⟩
    case dict k v =>
      rw [intoRs] at h
      obtain ⟨p, hp, h⟩ := Res.bind_ok h
      split at h
      · rename_i hc
        simp only [Bool.and_eq_true] at hc
        obtain ⟨q, hq, h⟩ := Res.bind_ok h
        cases h
        have h1 := own (by simp [PyTy.kids]) ht.2.2 hp
        have h2 := own (by simp [PyTy.kids]) ht.2.1 hq
        have h3 := implHash_of_hashable hq hc.1 ht.1
        exact ⟨⟨h3, h2, h1⟩, h3, h2, h1⟩
      · cases h; exact ⟨trivial, trivial⟩
    case frozenSet t =>
      rw [intoRs] at h
      split at h
      · rename_i hc
        obtain ⟨p, hp, h⟩ := Res.bind_ok h
        cases h
        have h1 := own (by simp [PyTy.kids]) ht.2 hp
        have h3 := implHash_of_hashable hp hc ht.1
        exact ⟨⟨h3, h1⟩, h3, h1⟩
      · cases h; exact ⟨trivial, trivial⟩
    case set t =>
      rw [intoRs] at h
      split at h
      · rename_i hc
        obtain ⟨p, hp, h⟩ := Res.bind_ok h
        cases h
        have h1 := own (by simp [PyTy.kids]) ht.2 hp
        have h3 := implHash_of_hashable hp hc ht.1
        exact ⟨⟨h3, h1⟩, h3, h1⟩
      · cases h; exact ⟨trivial, trivial⟩
    case tuple ts =>
      have hl := expressibleList_iff.1 ht.2
      rcases tuple_cases ts with hs | ⟨t, rfl⟩ | ⟨h2, he⟩
      · rw [intoRs_tuple_short E lt hs] at h; cases h; exact ⟨trivial, trivial⟩
      · rw [intoRs_tuple_ellipsis, intoRs] at h
        obtain ⟨p, hp, h⟩ := Res.bind_ok h
        cases h
        have := own (by simp [PyTy.kids]) (hl t (by simp)) hp
        exact ⟨this, this⟩
      · rw [intoRs_tuple E lt h2 he] at h
        obtain ⟨rs, hrs, h⟩ := Res.bind_ok h
        cases h
        have h3 : SupportedList rs := by
          rw [supportedList_iff]
          intro r hr
          obtain ⟨s, hs, hsr⟩ := traverse_mem hrs hr
          obtain ⟨b, hb⟩ := intoRsOwned_ok hsr
          exact own (p := (r, b)) (by simpa [PyTy.kids] using hs) (hl s hs) hb
        have h4 : rs.length ≤ 12 := by rw [Res.traverse_length hrs]; exact ht.1
        exact ⟨⟨h4, h3⟩, h4, h3⟩
    case ipV4 => exact ht.elim
    case ipV6 => exact ht.elim
    all_goals (rw [intoRs] at h; cases h; exact ⟨trivial, trivial⟩)

/-! ## Functions -/

/-- The signature of a function is one that Rust accepts: distinct parameters, and types that exist and that pyo3 converts. -/
def Spec.GoodTypes (f : Fn) : Prop :=
  (f.sig.params.map Prod.fst).Nodup ∧ (∀ p ∈ f.sig.params, Supported p.2) ∧ SupportedRet f.sig.ret

theorem content_types {E : Env} {W : World} {fuel : Nat} {c : Codegen} {out : List Module} (hF : Faithful E W)
    (hp : ∀ m ∈ c.modules, Parsed E c.cfg W m) (h : c.prepare E W fuel = .ok out) {M : Module} (hM : InTree M out) {l : List Item}
    (p : ContentParts E c.cfg W.importable out (getAllTypes out) M l) : RelativeTypes p.lt ∧ Bracketless E p.lt :=
  ⟨localTypes_relative p.ltOk, localTypes_nobr p.ltOk (prepared_types_nobr hF hp h) (prepared_imports_nobr hF hp h hM)⟩

/-- The functions of an item have types, and only methods of traits take `self`. -/
def ItemTyped : Item → Prop
  | .func f | .prop f => f.Typed ∧ f.sig.recv ≠ .self
  | .class k => (∀ f ∈ k.inherent, f.Typed ∧ f.sig.recv ≠ .self) ∧ ∀ f ∈ k.traitImpls, f.Typed
  | _ => True

theorem generated_typed {E : Env} {W : World} {fuel : Nat} {cfg : Config} {srcs : List (Str × Str)} {c : Codegen} {items : List Item}
    (hF : Faithful E W) (hb : Built E W fuel cfg srcs c) (h : c.generate E W fuel = .ok items) {x : Item} (hx : Within x items) :
    ItemTyped x := by
  have b := built_ok hb
  have hp : ∀ m ∈ c.modules, Parsed E c.cfg W m := b.config ▸ b.parsed
  obtain ⟨out, h1, hfrom⟩ := generate_from h
  have hstar : ∀ {M : Module} {x : SItem}, InTree M out → Has M x → ItemStar x := by
    intro M x hM hx
    obtain ⟨m, h2, -, h3⟩ := prepared_has h1 hp hM hx
    exact parsed_star h2 h3
  cases hfrom x hx with
  | mod M x hM hg =>
    obtain ⟨q⟩ := generate_parts hg
    rw [q.item]
    trivial
  | embed M x hM hm =>
    unfold embedItems at hm
    split at hm <;> simp at hm
    subst hm
    trivial
  | content M out p x hM hm hc =>
    obtain ⟨hlt, hbr⟩ := content_types hF hp h1 hM p
    cases hc with
    | function f' fns f _ hf' hg hfn =>
      refine ⟨function_typed hlt hbr (hstar hM (x := .function f') hf') hg hfn, fun hr => ?_⟩
      obtain ⟨_, _, _, _, _, _, sig, _, _, _, -, -, -, -, -, -, -, -, -, -, rfl, he⟩ := generate_fn hg hfn
      have hr : sig.recv = .self := hr
      rw [if_pos hr] at he
      cases he
    | property p l f _ _ ho hg hfn =>
      refine ⟨property_typed hlt hbr hg hfn, fun hr => ?_⟩
      have := (accessor_sig hg hfn).2
      rw [ho, hr] at this
      cases this
    | class' c k _ hc hg =>
      obtain ⟨ho, hs⟩ := hstar hM (x := .class c) hc
      refine ⟨fun f hk => ⟨class_typed hlt hbr hs hg (.inl hk), fun hr => ?_⟩, fun f hk => class_typed hlt hbr hs hg (.inr hk)⟩
      have := ((C33_trait_impl hg ho).2.2 f hk).2
      rw [hr] at this
      cases this
    | _ => trivial

theorem emitted_typed {E : Env} {W : World} {fuel : Nat} {cfg : Config} {srcs : List (Str × Str)} {c : Codegen} {items : List Item}
    (hF : Faithful E W) (hb : Built E W fuel cfg srcs c) (h : c.generate E W fuel = .ok items) {f : Fn} (hf : EmittedFn f items) : f.Typed := by
  cases hf with
  | func hw => exact (generated_typed hF hb h hw).1
  | accessor hw => exact (generated_typed hF hb h hw).1
  | inherent k hw hk => exact ((generated_typed hF hb h hw).1 f hk).1
  | traitImpl k hw hk => exact (generated_typed hF hb h hw).2 f hk

/-! ## Files -/

theorem checkAll_append (a b : List RItem) : RItem.checkAll (a ++ b) = (RItem.checkAll a && RItem.checkAll b) := by
  induction a with
  | nil => rfl
  | cons x a ih => rw [List.cons_append, RItem.checkAll, RItem.checkAll, ih, Bool.and_assoc]

theorem within_cons {x i : Item} {is : List Item} : Within x (i :: is) ↔ Within x [i] ∨ Within x is := by
  constructor
  · rintro (h | ⟨h, h'⟩)
    · rcases List.mem_cons.1 h with rfl | h
      · exact .inl (.top (by simp))
      · exact .inr (.top h)
    · rcases List.mem_cons.1 h with rfl | h
      · exact .inl (.sub (List.mem_singleton.2 rfl) h')
      · exact .inr (.sub h h')
  · rintro ((h | ⟨h, h'⟩) | (h | ⟨h, h'⟩))
    · exact .top (List.mem_cons.2 (.inl (List.mem_singleton.1 h)))
    · exact .sub (List.mem_cons.2 (.inl (List.mem_singleton.1 h))) h'
    · exact .top (List.mem_cons_of_mem _ h)
    · exact .sub (List.mem_cons_of_mem _ h) h'

theorem emitted_cons {f : Fn} {i : Item} {is : List Item} : EmittedFn f (i :: is) ↔ EmittedFn f [i] ∨ EmittedFn f is := by
  constructor
  · rintro (h | h | ⟨k, h, hk⟩ | ⟨k, h, hk⟩) <;> rcases within_cons.1 h with h | h
    · exact .inl (.func h)
    · exact .inr (.func h)
    · exact .inl (.accessor h)
    · exact .inr (.accessor h)
    · exact .inl (.inherent k h hk)
    · exact .inr (.inherent k h hk)
    · exact .inl (.traitImpl k h hk)
    · exact .inr (.traitImpl k h hk)
  · rintro ((h | h | ⟨k, h, hk⟩ | ⟨k, h, hk⟩) | (h | h | ⟨k, h, hk⟩ | ⟨k, h, hk⟩))
    · exact .func (within_cons.2 (.inl h))
    · exact .accessor (within_cons.2 (.inl h))
    · exact .inherent k (within_cons.2 (.inl h)) hk
    · exact .traitImpl k (within_cons.2 (.inl h)) hk
    · exact .func (within_cons.2 (.inr h))
    · exact .accessor (within_cons.2 (.inr h))
    · exact .inherent k (within_cons.2 (.inr h)) hk
    · exact .traitImpl k (within_cons.2 (.inr h)) hk

theorem emitted_mod {f : Fn} {top : Bool} {doc : Option Str} {n : Str} {is : List Item} :
    EmittedFn f [.mod top doc n is] ↔ EmittedFn f is := by
  have key : ∀ {x : Item}, Within x [.mod top doc n is] → x = .mod top doc n is ∨ Within x is := by
    rintro x (h | ⟨h, h'⟩)
    · exact .inl (List.mem_singleton.1 h)
    · cases List.mem_singleton.1 h
      exact .inr h'
  have up : ∀ {x : Item}, Within x is → Within x [.mod top doc n is] := fun h => .sub (List.mem_singleton.2 rfl) h
  constructor
  · rintro (h | h | ⟨k, h, hk⟩ | ⟨k, h, hk⟩) <;> rcases key h with h | h
    · cases h
    · exact .func h
    · cases h
    · exact .accessor h
    · cases h
    · exact .inherent k h hk
    · cases h
    · exact .traitImpl k h hk
  · rintro (h | h | ⟨k, h, hk⟩ | ⟨k, h, hk⟩)
    · exact .func (up h)
    · exact .accessor (up h)
    · exact .inherent k (up h) hk
    · exact .traitImpl k (up h) hk

/-- What is emitted by an item that is not a module. -/
theorem emitted_single {f : Fn} {i : Item} (hm : ∀ top doc n is, i ≠ .mod top doc n is) : EmittedFn f [i] ↔
    i = .func f ∨ i = .prop f ∨ ∃ k, i = .class k ∧ (f ∈ k.inherent ∨ f ∈ k.traitImpls) := by
  have key : ∀ {x : Item}, Within x [i] → i = x := by
    rintro x (h | ⟨h, h'⟩)
    · exact (List.mem_singleton.1 h).symm
    · exact absurd (List.mem_singleton.1 h).symm (hm _ _ _ _)
  have self : Within i [i] := .top (by simp)
  constructor
  · rintro (h | h | ⟨k, h, hk⟩ | ⟨k, h, hk⟩)
    · exact .inl (key h)
    · exact .inr (.inl (key h))
    · exact .inr (.inr ⟨k, key h, .inl hk⟩)
    · exact .inr (.inr ⟨k, key h, .inr hk⟩)
  · rintro (rfl | rfl | ⟨k, rfl, hk | hk⟩)
    · exact .func self
    · exact .accessor self
    · exact .inherent k self hk
    · exact .traitImpl k self hk

theorem embed_checks (source name file : Str) : (embedTree source name file).checks none = true := rfl

theorem class_checks {k : ClassItem} (h : ItemTyped (.class k)) :
    RItem.checkAll k.trees = true ↔ ∀ f, f ∈ k.inherent ∨ f ∈ k.traitImpls → GoodTypes f := by
  have h1 : ∀ f ∈ k.inherent, f.tree.checks (some (.path false (names [k.name]))) = true ↔ GoodTypes f := fun f hf =>
    checks_fn (h.1 f hf).1 fun hr => absurd hr (h.1 f hf).2
  have h2 : ∀ f ∈ k.traitImpls, f.tree.checks (some (gen true [c!"pyo3"] c!"Bound" [.life c!"_", .path false (names [k.name])])) = true ↔
      GoodTypes f := fun f hf => checks_fn (h.2 f hf) fun _ => ⟨.here [k.name], rfl⟩
  have e : RItem.checkAll k.trees = ((k.inherent.map Fn.tree).all (fun f => f.checks (some (.path false (names [k.name])))) &&
      (k.traitImpls.map Fn.tree).all (fun f => f.checks (some (gen true [c!"pyo3"] c!"Bound" [.life c!"_", .path false (names [k.name])])))) := by
    simp only [ClassItem.trees, RItem.checkAll, RItem.checks, Bool.true_and, Bool.and_true]
  rw [e, Bool.and_eq_true, List.all_eq_true, List.all_eq_true]
  simp only [List.mem_map, forall_exists_index, and_imp, forall_apply_eq_imp_iff₂]
  constructor
  · rintro ⟨a, b⟩ f (hf | hf)
    · exact (h1 f hf).1 (a f hf)
    · exact (h2 f hf).1 (b f hf)
  · intro a
    exact ⟨fun f hf => (h1 f hf).2 (a f (.inl hf)), fun f hf => (h2 f hf).2 (a f (.inr hf))⟩

mutual
theorem checks_item : ∀ (i : Item), (∀ x, Within x [i] → ItemTyped x) →
    (RItem.checkAll i.trees = true ↔ ∀ f, EmittedFn f [i] → GoodTypes f)
  | .mod top doc n is, h => by
    simp only [emitted_mod]
    rw [← checks_items is fun x hx => h x (.sub (List.mem_singleton.2 rfl) hx)]
    simp only [Item.trees, RItem.checkAll, RItem.checks, Bool.and_true]
  | .class k, h => by
    simp only [emitted_single (i := .class k) (fun _ _ _ _ h => nomatch h)]
    rw [show (Item.class k).trees = k.trees from rfl, class_checks (h (.class k) (.top (by simp)))]
    simp
  | .func g, h => by
    obtain ⟨h1, h2⟩ := h (.func g) (.top (by simp))
    have := checks_fn h1 (self := none) fun hr => absurd hr h2
    simp only [emitted_single (i := .func g) (fun _ _ _ _ h => nomatch h)]
    simp only [Item.trees, RItem.checkAll, RItem.checks, Bool.and_true, this]
    simp [GoodTypes]
  | .prop g, h => by
    obtain ⟨h1, h2⟩ := h (.prop g) (.top (by simp))
    have := checks_fn h1 (self := none) fun hr => absurd hr h2
    simp only [emitted_single (i := .prop g) (fun _ _ _ _ h => nomatch h)]
    simp only [Item.trees, RItem.checkAll, RItem.checks, Bool.and_true]
    rw [show RFn.checks none { g.tree with sig := { g.sig.tree with pub := true } } = g.tree.checks none from rfl, this]
    simp [GoodTypes]
  | .embed s n f, _ => by
    simp only [emitted_single (i := .embed s n f) (fun _ _ _ _ h => nomatch h)]
    simp [Item.trees, RItem.checkAll, RItem.checks, embed_checks]
  | .use p a, _ => by
    simp only [emitted_single (i := .use p a) (fun _ _ _ _ h => nomatch h)]
    simp [Item.trees, RItem.checkAll, RItem.checks]
  | .prelude n es, _ => by
    simp only [emitted_single (i := .prelude n es) (fun _ _ _ _ h => nomatch h)]
    simp [Item.trees, RItem.checkAll, RItem.checks]
  | .typeAlias n, _ => by
    simp only [emitted_single (i := .typeAlias n) (fun _ _ _ _ h => nomatch h)]
    simp [Item.trees, RItem.checkAll, RItem.checks]
  | .strayPub, _ => by
    simp only [emitted_single (i := .strayPub) (fun _ _ _ _ h => nomatch h)]
    simp [Item.trees, RItem.checkAll]
theorem checks_items : ∀ (is : List Item), (∀ x, Within x is → ItemTyped x) →
    (RItem.checkAll (Item.treesList is) = true ↔ ∀ f, EmittedFn f is → GoodTypes f)
  | [], _ => by
    refine ⟨fun _ f hf => ?_, fun _ => rfl⟩
    rcases hf with h | h | ⟨k, h, hk⟩ | ⟨k, h, hk⟩ <;> rcases h with h | ⟨h, h'⟩ <;> cases h
  | i :: is, h => by
    rw [Item.treesList, checkAll_append, Bool.and_eq_true, checks_item i fun x hx => h x (within_cons.2 (.inl hx)),
      checks_items is fun x hx => h x (within_cons.2 (.inr hx))]
    constructor
    · rintro ⟨a, b⟩ f hf
      rcases emitted_cons.1 hf with hf | hf
      · exact a f hf
      · exact b f hf
    · exact fun a => ⟨fun f hf => a f (emitted_cons.2 (.inl hf)), fun f hf => a f (emitted_cons.2 (.inr hf))⟩
end

/-- **C71**: the generated tokens are a Rust file that type checks exactly if every generated function has distinct parameters, and types that
exist and that pyo3 converts. Nothing else in the bodies can go wrong. (Without a stray `pub`, which is in the way of any file: C65.) -/
theorem C71_exact (E : Env) (W : World) (fuel : Nat) (cfg : Config) (srcs : List (Str × Str)) (c : Codegen) (items : List Item)
    (hF : Faithful E W) (hb : Built E W fuel cfg srcs c) (h : c.generate E W fuel = .ok items) (hs : ¬ Within .strayPub items) :
    ∃ file, Parses (Item.toksList items) file ∧ (RItem.checkAll file = true ↔ ∀ f, EmittedFn f items → GoodTypes f) :=
  ⟨_, C65_valid E W fuel cfg srcs c items hb h hs, checks_items items fun _ hx => generated_typed hF hb h hx⟩

/-- **C71** (partial): the generated tokens are a Rust file that type checks. Missing for the full claim: equal parameter names (C26), and types
that do not exist or that pyo3 does not convert, which the generator emits all the same (see the counterexamples). -/
theorem C71_file_partial (E : Env) (W : World) (fuel : Nat) (cfg : Config) (srcs : List (Str × Str)) (c : Codegen) (items : List Item)
    (hF : Faithful E W) (hb : Built E W fuel cfg srcs c) (h : c.generate E W fuel = .ok items) (hs : ¬ Within .strayPub items)
    (hg : ∀ f, EmittedFn f items → GoodTypes f) : ∃ file, Parses (Item.toksList items) file ∧ RItem.checkAll file = true := by
  obtain ⟨file, h1, h2⟩ := C71_exact E W fuel cfg srcs c items hF hb h hs
  exact ⟨file, h1, h2.2 hg⟩

/-- **C71** (functions): a function or method that is generated for parameters with distinct names and for expressible annotations has a
signature that Rust accepts. -/
theorem C71_signature {E : Env} {cfg : Config} {importable : Str → Bool} {taken : List Ident} {lt : LocalTypes} {f : Function} {r : FnImpl}
    (hwf : WfParams E f.params) (hp : ∀ p ∈ f.params, Expressible p.ann) (hr : Expressible f.ret)
    (h : f.generate E cfg importable taken lt = .ok r) {fn : Fn} (hfn : fn ∈ fnsOf r) : GoodTypes fn := by
  refine ⟨(C26_distinct hwf h hfn).2, ?_, ?_⟩
  all_goals obtain ⟨name, ident, idents, pres, types, ret, sig, obj, pos, kw, -, -, h1, h2, h3, h4, h5, h6, -, -, rfl, -⟩ := generate_fn h hfn
  · intro p hpm
    rw [show _ = sig.params from rfl, (contract_dispatch h5 h6).1] at hpm
    obtain ⟨q, hq, ht⟩ := traverse_mem h3 (List.of_mem_zip hpm).2
    obtain ⟨o, ho⟩ := borrowed_pair ht
    exact (C71_annotation E lt _ o _ ho (hp q hq)).2
  · show SupportedRet sig.ret
    rcases contract_ret h5 with hret | hret
    · rw [hret]
      obtain ⟨b, hb⟩ := intoRsOwned_ok h4
      exact (C71_annotation E lt _ _ b hb hr).1
    · rw [hret]; trivial

/-- **C71** (accessors): the same for the accessors of a property. -/
theorem C71_accessor {E : Env} {cfg : Config} {importable : Str → Bool} {taken : List Ident} {lt : LocalTypes} {p : Property}
    {l : List (Option Fn)} (hp : Expressible p.ann) (h : p.generate E cfg importable taken lt = .ok l) {fn : Fn} (hfn : some fn ∈ l) :
    GoodTypes fn := by
  obtain ⟨g, hg, h⟩ := accessors_of h
  have hget : some fn = g → GoodTypes fn := by
    rintro rfl
    obtain ⟨_, _, ty, _, -, -, hty, -, rfl⟩ := getter_fn hg
    obtain ⟨b, hb⟩ := intoRsOwned_ok hty
    exact ⟨List.nodup_nil, (fun _ h => by cases h), (C71_annotation E lt _ _ b hb hp).1⟩
  rcases h with ⟨-, s, hs, rfl⟩ | ⟨-, rfl⟩
  · rcases List.mem_cons.mp hfn with hf | hf
    · exact hget hf
    · rw [List.mem_singleton] at hf
      rw [← hf] at hs
      obtain ⟨_, _, pre, ty, _, -, -, hpre, hty, -, rfl⟩ := setter_fn hs
      obtain ⟨o, ho⟩ := borrowed_pair hty
      refine ⟨List.nodup_singleton _, fun q hq => ?_, trivial⟩
      rw [List.mem_singleton] at hq
      subst hq
      exact (C71_annotation E lt _ o _ ho hp).2
  · exact hget (List.mem_singleton.mp hfn)

/-- A parsed function is one Rust can express. -/
def Spec.FunctionExpressible (E : Env) (f : Function) : Prop :=
  WfParams E f.params ∧ (∀ p ∈ f.params, Expressible p.ann) ∧ Expressible f.ret

/-- All that is parsed of an attribute can be expressed in Rust. -/
def Spec.ItemExpressible (E : Env) : SItem → Prop
  | .function f => FunctionExpressible E f
  | .property p => Expressible p.ann
  | .class c => (∀ f ∈ c.methods, FunctionExpressible E f) ∧ ∀ p ∈ c.properties, Expressible p.ann
  | _ => True

/-- **C71** (partial): if all annotations that are parsed can be expressed in Rust and no function has two parameters of one name, the
generated tokens are a Rust file that type checks. Missing for the full claim: see `C71_file_partial`. -/
theorem C71_expressible_partial (E : Env) (W : World) (fuel : Nat) (cfg : Config) (srcs : List (Str × Str)) (c : Codegen) (items : List Item)
    (hF : Faithful E W) (hb : Built E W fuel cfg srcs c) (h : c.generate E W fuel = .ok items) (hs : ¬ Within .strayPub items)
    (he : ∀ m, Parsed E cfg W m → ∀ x, Has m x → ItemExpressible E x) :
    ∃ file, Parses (Item.toksList items) file ∧ RItem.checkAll file = true := by
  refine C71_file_partial E W fuel cfg srcs c items hF hb h hs fun f hf => ?_
  have b := built_ok hb
  have hp : ∀ m ∈ c.modules, Parsed E c.cfg W m := b.config ▸ b.parsed
  obtain ⟨out, h1, hfrom⟩ := generate_from h
  have good : ∀ {M : Module} {x : SItem}, InTree M out → Has M x → ItemExpressible E x := by
    intro M x hM hx
    obtain ⟨m, h2, -, h3⟩ := prepared_has h1 hp hM hx
    exact he m (b.config ▸ h2) x h3
  have key : ∀ x, Within x items → match x with
      | .func f | .prop f => GoodTypes f
      | .class k => ∀ f, f ∈ k.inherent ∨ f ∈ k.traitImpls → GoodTypes f
      | _ => True := by
    intro x hx
    cases hfrom x hx with
    | mod M x hM hg =>
      obtain ⟨q⟩ := generate_parts hg
      rw [q.item]
      trivial
    | embed M x hM hm =>
      unfold embedItems at hm
      split at hm <;> simp at hm
      subst hm
      trivial
    | content M out p x hM hm hc =>
      cases hc with
      | function f' fns f _ hf' hg hfn =>
        obtain ⟨a, b, c⟩ := good hM (x := .function f') hf'
        exact C71_signature a b c hg hfn
      | property p l f _ hp ho hg hfn => exact C71_accessor (good hM (x := .property p) hp) hg hfn
      | class' c k _ hc hg =>
        intro f hf
        have hgc := good hM (x := .class c) hc
        obtain ⟨taken, -, ⟨m, hm, r, hr, hfr⟩ | ⟨p, hp, l, hl, hfl⟩⟩ := class_fns hg hf
        · obtain ⟨a, b, c⟩ := hgc.1 m hm
          exact C71_signature a b c hr hfr
        · exact C71_accessor (hgc.2 p hp) hl hfl
      | _ => trivial
  cases hf with
  | func hw => exact key _ hw
  | accessor hw => exact key _ hw
  | inherent k hw hk => exact key _ hw f (.inl hk)
  | traitImpl k hw hk => exact key _ hw f (.inr hk)

/-! ## Checking the hypotheses -/

mutual
/-- Checks `Expressible`. -/
def expressibleCheck : PyTy → Bool
  | .ipV4 | .ipV6 => false
  | .dict k v => !falseHashable k && expressibleCheck k && expressibleCheck v
  | .set t | .frozenSet t => !falseHashable t && expressibleCheck t
  | .optional t | .list t => expressibleCheck t
  | .tuple ts => decide (ts.length ≤ 12) && expressibleCheckList ts
  | _ => true
/-- The same on lists. -/
def expressibleCheckList : List PyTy → Bool
  | [] => true
  | t :: ts => expressibleCheck t && expressibleCheckList ts
end

mutual
theorem expressible_of_check : ∀ t, expressibleCheck t = true → Expressible t
  | .dict k v, h => by
    simp only [expressibleCheck, Bool.and_eq_true, Bool.not_eq_true'] at h
    exact ⟨h.1.1, expressible_of_check k h.1.2, expressible_of_check v h.2⟩
  | .set t, h | .frozenSet t, h => by
    simp only [expressibleCheck, Bool.and_eq_true, Bool.not_eq_true'] at h
    exact ⟨h.1, expressible_of_check t h.2⟩
  | .optional t, h | .list t, h => by
    simp only [expressibleCheck] at h
    exact expressible_of_check t h
  | .tuple ts, h => by
    simp only [expressibleCheck, Bool.and_eq_true, decide_eq_true_eq] at h
    exact ⟨h.1, expressibleList_of_check ts h.2⟩
  | .ipV4, h | .ipV6, h => by simp [expressibleCheck] at h
  | .any, _ | .other _, _ | .unknown, _ | .bool, _ | .byteArray, _ | .bytes, _ | .float, _ | .long, _ | .string, _ | .union _, _ | .none, _
  | .path, _ | .slice, _ | .complex, _ | .date, _ | .dateTime, _ | .delta, _ | .time, _ | .tzInfo, _ | .capsule, _ | .cFunction, _ | .code, _
  | .ellipsis, _ | .frame, _ | .function .., _ | .module, _ | .super, _ | .traceback, _ | .type, _ => trivial
theorem expressibleList_of_check : ∀ ts, expressibleCheckList ts = true → ExpressibleList ts
  | [], _ => trivial
  | t :: ts, h => by
    simp only [expressibleCheckList, Bool.and_eq_true] at h
    exact ⟨expressible_of_check t h.1, expressibleList_of_check ts h.2⟩
end

/-- Checks `FunctionExpressible`. -/
def functionCheck (E : Env) (f : Function) : Bool :=
  f.params.all (fun p => match p.name.asPy with
    | [] => false
    | c :: cs => (c == '_' || E.xidStart c) && cs.all E.xidContinue) &&
  decide (f.params.map (fun p => p.name.asPy)).Nodup &&
  decide ((f.params.filter (fun p => p.kind = .varPositional)).length ≤ 1) &&
  decide ((f.params.filter (fun p => p.kind = .varKeyword)).length ≤ 1) &&
  f.params.all (fun p => (p.kind != .varPositional || p.ann == .tuple [.unknown]) &&
    (p.kind != .varKeyword || p.ann == .optional (.dict .unknown .unknown)) && expressibleCheck p.ann) &&
  expressibleCheck f.ret

theorem functionExpressible_of_check {E : Env} {f : Function} (h : functionCheck E f = true) : FunctionExpressible E f := by
  simp only [functionCheck, Bool.and_eq_true, List.all_eq_true, decide_eq_true_eq, Bool.or_eq_true, bne_iff_ne, beq_iff_eq] at h
  obtain ⟨⟨⟨⟨⟨h1, h2⟩, h3⟩, h4⟩, h5⟩, h6⟩ := h
  refine ⟨⟨fun p hp => ?_, h2, h3, h4, fun p hp hk => ?_, fun p hp hk => ?_⟩, fun p hp => expressible_of_check _ (h5 p hp).2,
    expressible_of_check _ h6⟩
  · have := h1 p hp
    cases hn : p.name.asPy with
    | nil => rw [hn] at this; simp at this
    | cons c cs =>
      rw [hn] at this
      simp only [Bool.and_eq_true, Bool.or_eq_true, beq_iff_eq, List.all_eq_true] at this
      exact ⟨c, cs, rfl, this⟩
  · exact (h5 p hp).1.1.resolve_left (fun h => h hk)
  · exact (h5 p hp).1.2.resolve_left (fun h => h hk)

/-- Checks `ItemExpressible` for the items of a module. -/
def itemsCheck (E : Env) (m : Module) : Bool :=
  m.functions.all (functionCheck E) && m.properties.all (fun p => expressibleCheck p.ann) &&
  m.classes.all (fun c => c.methods.all (functionCheck E) && c.properties.all (fun p => expressibleCheck p.ann))

theorem itemExpressible_of_check {E : Env} {m : Module} (h : itemsCheck E m = true) {x : SItem} (hx : Has m x) : ItemExpressible E x := by
  simp only [itemsCheck, Bool.and_eq_true, List.all_eq_true] at h
  cases x with
  | function f => exact functionExpressible_of_check (h.1.1 f hx)
  | property p => exact expressible_of_check _ (h.1.2 p hx)
  | «class» c => exact ⟨fun f hf => functionExpressible_of_check ((h.2 c hx).1 f hf), fun p hp => expressible_of_check _ ((h.2 c hx).2 p hp)⟩
  | _ => trivial

/-- The hypothesis of `C71_expressible_partial` holds if a run of the parser on every module passes the checks. -/
theorem parsed_expressible {E : Env} {cfg : Config} {W : World} (fuel : Nat)
    (h : ∀ id < W.mods.length, (Module.parse E cfg W fuel id).map (itemsCheck E) = .ok true) {m : Module} (hm : Parsed E cfg W m) {x : SItem}
    (hx : Has m x) : ItemExpressible E x := by
  obtain ⟨f, id, hm⟩ := hm
  have hid : id < W.mods.length := by
    by_contra hge
    cases f with
    | zero => cases hm
    | succ f =>
      rw [Module.parse, show W.get? id = none from List.getElem?_eq_none (by omega)] at hm
      cases hm
  have he := h id hid
  cases hp : Module.parse E cfg W fuel id with
  | error e => rw [hp] at he; cases he
  | ok m' =>
    rw [hp] at he
    have h1 := C63_parse_stable E cfg W fuel (max fuel f) id (by omega) (by rw [hp]; exact fun h => nomatch h)
    have h2 := C63_parse_stable E cfg W f (max fuel f) id (by omega) (by rw [hm]; exact fun h => nomatch h)
    rw [h1, hp, hm] at h2
    cases h2
    exact itemExpressible_of_check (Except.ok.inj he) hx

/-! ## Examples and counterexamples -/

/-- `def f(a: t) -> r` in module `m`. -/
def exCheckFn (t r : PyTy) : Function := ⟨exName c!"m.f", .function, [⟨⟨c!"a"⟩, .positionalOrKeyword, t, false⟩], r, none⟩

/-- Whether the functions that are generated for it type check. -/
def exChecks (f : Function) : Res (List Bool) :=
  (f.generate (Env.ascii true false) {} (fun _ => true) [] []).map (fun r => (fnsOf r).map (fun fn => fn.tree.checks none))

/-- The Rust standard library has no `IpV4Addr` (but `Ipv4Addr`): a function with such an annotation does not compile. -/
theorem C71_address_counterexample : exChecks (exCheckFn .ipV4 .long) = .ok [false] ∧ exChecks (exCheckFn .long .ipV6) = .ok [false] := by
  decide +kernel

/-- pyo3 converts tuples with up to 12 elements only. -/
theorem C71_tuple_counterexample :
    exChecks (exCheckFn .long (.tuple (List.replicate 12 .long))) = .ok [true] ∧
    exChecks (exCheckFn .long (.tuple (List.replicate 13 .long))) = .ok [false] := by
  decide +kernel

/-- Hash collections do not implement `Hash` themselves: `set[frozenset[int]]`. -/
theorem C71_hash_counterexample :
    exChecks (exCheckFn (.set (.frozenSet .long)) .long) = .ok [false] ∧ exChecks (exCheckFn (.set .long) .long) = .ok [true] := by
  decide +kernel

/-- Two parameters of the same name, which renaming `self` can lead to (C26). -/
theorem C71_names_counterexample :
    (Function.parse (Env.ascii true false) (exFn [exParam c!"self", exParam c!"__unknown_self__"]) (exName c!"m.f") .function >>= exChecks) =
      .ok [false] := by
  decide +kernel

-- many types at once
example : exChecks (exCheckFn (.dict .string (.list (.tuple [.long, .optional .bytes]))) (.frozenSet .path)) = .ok [true] ∧
    Expressible (.dict .string (.list (.tuple [.long, .optional .bytes]))) ∧ Expressible (.frozenSet .path) := by
  refine ⟨by decide +kernel, ?_, ?_⟩ <;> simp [Expressible, ExpressibleList, falseHashable]
example : exChecks exForward = .ok [true] := by decide +kernel
example : exForwardFn.Typed := function_typed (E := Env.ascii true false) (cfg := {}) (imp := fun _ => true) (taken := []) (lt := [])
  (f := exForward) (r := .func [exForwardFn]) (fun _ _ h => by cases h) (fun _ _ => rfl)
  (by simp [exForward, StarParam, argsParam, kwargsParam]) (by decide) (by simp [fnsOf])

-- the hypotheses of `C71_expressible_partial`
example : Faithful exEnv exWorld ∧ (∃ c items, Built exEnv exWorld 5 {} [] c ∧ c.generate exEnv exWorld 5 = .ok items ∧ ¬ Within .strayPub items) ∧
    ∀ m, Parsed exEnv {} exWorld m → ∀ x, Has m x → ItemExpressible exEnv x := by
  obtain ⟨c, items, hb, h, -⟩ : ∃ c items, Built exEnv exWorld 5 {} [] c ∧ c.generate exEnv exWorld 5 = .ok items ∧ items.isEmpty = false :=
    built_run (names := [c!"pkg"]) (by decide +kernel)
  exact ⟨exWorld_faithful, ⟨c, items, hb, h,
    C52_names_partial exEnv exWorld exWorld_ordinary exWorld_unique exWorld_noAccessors 5 {} [] c items hb h⟩,
    fun m hm x hx => parsed_expressible 5 (by decide +kernel) hm hx⟩

-- the bindings of `pkg`, parsed and checked
example : Faithful exEnv exWorld ∧ ∃ c items, Built exEnv exWorld 5 {} [] c ∧ c.generate exEnv exWorld 5 = .ok items ∧
    (pFile 60 (Item.toksList items)).map RItem.checkAll = some true :=
  ⟨exWorld_faithful, built_run (names := [c!"pkg"]) (by decide +kernel)⟩

-- the checker insists on `?`, on declared names, on references where pyo3 wants them, and on conversions
example : (typ [(c!"py", false, .python)] (.try (.method (var c!"py") c!"import_bound" [internTree c!"m"]))).isSome = true := by decide +kernel
example : (typ [(c!"py", false, .python)] (.try (.try (.method (var c!"py") c!"import_bound" [internTree c!"m"])))).isSome = false := by
  decide +kernel
example : (typ [] (.try (.method (var c!"py") c!"import_bound" [internTree c!"m"]))).isSome = false := by decide +kernel
example : ({ exForwardFn with pre := exForwardFn.pre.tail }.tree).checks none = false := by decide +kernel
example : ({ exForwardFn with pre := exForwardFn.pre.take 2 }.tree).checks none = false := by decide +kernel
example : ({ exForwardFn with body := .setattr (.import c!"m") c!"x" c!"p_a" }.tree).checks none = false := by decide +kernel
example : ({ exForwardFn with sig := { exForwardFn.sig with recv := .self } }.tree).checks none = false := by decide +kernel

end Bindgen
