import Verif.Props.Parsed
import Verif.Props.Dispatch
/-!
# C27: constructors and call operators of classes
-/
namespace Bindgen
open Spec

/-- The object is a function, a builtin function or a method. -/
def Spec.Routine (o : PyObj) : Prop :=
  o.isModule = false ∧ o.isClass = false ∧ (o.isCFunction = true ∨ o.isFunction = some true ∨ o.isMethod = some true)

/-- The class has a routine of this name. -/
def Spec.HasRoutine (pc : PyClass) (n : Str) : Prop := n ∈ pc.dir ∧ ∃ o, pc.getattr n = some o ∧ Routine o

theorem determine_routine {E : Env} {o : PyObj} {p q : Path} {v : Variant} (h : determine E o p q false = .ok v) :
    (v = .function ∨ v = .method) ↔ Routine o := by
  unfold determine at h
  obtain ⟨_, -, h⟩ := Res.bind_ok h
  obtain ⟨f, hf, h⟩ := Res.bind_ok h
  obtain ⟨g, hg, h⟩ := Res.bind_ok h
  have hf' : o.isFunction = some f := by
    cases hx : o.isFunction with
    | none => rw [hx] at hf; simp [Res.orErr] at hf
    | some x => rw [hx] at hf; cases hf; rfl
  have hg' : o.isMethod = some g := by
    cases hx : o.isMethod with
    | none => rw [hx] at hg; simp [Res.orErr] at hg
    | some x => rw [hx] at hg; cases hg; rfl
  simp only [Res.pure_eq, Except.ok.injEq, Bool.false_and, Bool.false_eq_true, if_false] at h
  unfold Routine
  rw [hf', hg']
  cases hm : o.isModule <;> cases hc : o.isClass <;> cases hb : o.isCFunction <;> cases f <;> cases g <;>
    simp only [hm, hc, hb, if_true, Bool.or_true, Bool.or_false, Bool.false_eq_true, if_false] at h <;>
    first
    | (subst h; simp; done)
    | (rw [← h]; split_ifs <;> simp)

/-- What the members of a parsed class are: routines become methods, what is classified as a property a property. -/
theorem class_parse_exact {E : Env} {cfg : Config} {pc : PyClass} {name : Path} {c : Class}
    (h : Class.parse E cfg pc name = .ok c) :
    c.name = name ∧
    (∀ f, f ∈ c.methods ↔ ∃ x ∈ Class.candidates E cfg pc, Routine x.2 ∧
      Function.parse E x.2.fn (name.join (Path.ofIdent x.1)) (.method name (methodTypeOf x.1)) = .ok f) ∧
    (∀ p, p ∈ c.properties ↔ ∃ x ∈ Class.candidates E cfg pc,
      determine E x.2 (Path.fromPy E x.2.modPath) name false = .ok .property ∧
      Property.parse E x.2 (name.join (Path.ofIdent x.1)) .class = .ok p) ∧
    ∀ x ∈ Class.candidates E cfg pc, Routine x.2 →
      ∃ f, Function.parse E x.2.fn (name.join (Path.ofIdent x.1)) (.method name (methodTypeOf x.1)) = .ok f := by
  unfold Class.parse at h
  obtain ⟨_, -, h⟩ := Res.bind_ok h
  obtain ⟨⟨ms, ps⟩, h1, h⟩ := Res.bind_ok h
  obtain ⟨doc, -, h⟩ := Res.bind_ok h
  cases h
  generalize Class.candidates E cfg pc = l at h1 ⊢
  have key : ∀ (l : List (Ident × PyObj)) (acc r : List Function × List Property), foldRes (Class.step E name) acc l = .ok r →
      (∀ f, f ∈ r.1 ↔ f ∈ acc.1 ∨ ∃ x ∈ l, Routine x.2 ∧
        Function.parse E x.2.fn (name.join (Path.ofIdent x.1)) (.method name (methodTypeOf x.1)) = .ok f) ∧
      (∀ p, p ∈ r.2 ↔ p ∈ acc.2 ∨ ∃ x ∈ l, determine E x.2 (Path.fromPy E x.2.modPath) name false = .ok .property ∧
        Property.parse E x.2 (name.join (Path.ofIdent x.1)) .class = .ok p) ∧
      ∀ x ∈ l, Routine x.2 →
        ∃ f, Function.parse E x.2.fn (name.join (Path.ofIdent x.1)) (.method name (methodTypeOf x.1)) = .ok f := by
    intro l
    induction l with
    | nil => intro acc r hr; cases hr; simp
    | cons x l ih =>
      intro acc r hr
      rw [foldRes] at hr
      obtain ⟨b, hb, hr⟩ := Res.bind_ok hr
      obtain ⟨i1, i2, i3⟩ := ih b r hr
      unfold Class.step at hb
      obtain ⟨v, hv, hb⟩ := Res.bind_ok hb
      have hd := determine_routine hv
      have hmeth : v = .function ∨ v = .method → (∃ f, Function.parse E x.2.fn (name.join (Path.ofIdent x.1))
          (.method name (methodTypeOf x.1)) = .ok f ∧ b = (acc.1 ++ [f], acc.2)) := by
        rintro (rfl | rfl)
        all_goals
          obtain ⟨f, hf, hb⟩ := Res.bind_ok hb
          cases hb
          exact ⟨f, hf, rfl⟩
      by_cases hroutine : v = .function ∨ v = .method
      · obtain ⟨f, hf, rfl⟩ := hmeth hroutine
        have hR := hd.mp hroutine
        have hnp : v ≠ .property := by rintro rfl; simp at hroutine
        refine ⟨?_, ?_, ?_⟩
        · intro g
          rw [i1 g]
          simp only [mem_snoc, List.mem_cons, exists_eq_or_imp, hf, hR, true_and, Except.ok.injEq, or_assoc, @eq_comm _ f g]
        · intro p
          rw [i2 p]
          simp only [List.mem_cons, exists_eq_or_imp, hv, Except.ok.injEq, hnp, false_and, false_or]
        · intro y hy hRy
          rcases List.mem_cons.mp hy with rfl | hy
          · exact ⟨f, hf⟩
          · exact i3 y hy hRy
      · have hR : ¬ Routine x.2 := fun hc => hroutine (hd.mpr hc)
        by_cases hp : v = .property
        · subst hp
          obtain ⟨p, hpp, hb⟩ := Res.bind_ok hb
          cases hb
          refine ⟨?_, ?_, ?_⟩
          · intro g
            rw [i1 g]
            simp only [List.mem_cons, exists_eq_or_imp, hR, false_and, false_or]
          · intro q
            rw [i2 q]
            simp only [mem_snoc, List.mem_cons, exists_eq_or_imp, hv, hpp, true_and, Except.ok.injEq, or_assoc, @eq_comm _ p q]
          · intro y hy hRy
            rcases List.mem_cons.mp hy with rfl | hy
            · exact absurd hRy hR
            · exact i3 y hy hRy
        · have hb' : b = acc := by
            cases v <;> simp only at hb <;> first | (cases hb; rfl) | exact absurd rfl hp | exact absurd (by simp) hroutine
          subst hb'
          refine ⟨?_, ?_, ?_⟩
          · intro g
            rw [i1 g]
            simp only [List.mem_cons, exists_eq_or_imp, hR, false_and, false_or]
          · intro q
            rw [i2 q]
            simp only [List.mem_cons, exists_eq_or_imp, hv, Except.ok.injEq, hp, false_and, false_or]
          · intro y hy hRy
            rcases List.mem_cons.mp hy with rfl | hy
            · exact absurd hRy hR
            · exact i3 y hy hRy
  obtain ⟨k1, k2, k3⟩ := key l _ _ h1
  refine ⟨rfl, ?_, ?_, k3⟩
  · intro f; rw [k1 f]; simp
  · intro p; rw [k2 p]; simp

/-- The kind of a parsed method: constructors and call operators keep theirs, others never become one. -/
theorem parse_special {E : Env} {pf : PyFn} {n c : Path} {k : MethodType} {f : Function}
    (h : Function.parse E pf n (.method c k) = .ok f) :
    f.name = n ∧ (k = .constructor ∨ k = .callable → f.typ = .method c k) ∧
    (k = .unknown → ∀ c' , f.typ ≠ .method c' .constructor ∧ f.typ ≠ .method c' .callable) := by
  cases hs : pf.sig with
  | none =>
    obtain ⟨h1, h2, -⟩ := parse_nosig hs h
    refine ⟨h1, fun _ => h2, ?_⟩
    rintro rfl c'
    rw [h2]; simp
  | some s =>
    obtain ⟨ps, typ2, ps2, -, hsc, h1, h2, -⟩ := parse_sig hs h
    refine ⟨h1, ?_, ?_⟩
    · rintro (rfl | rfl)
      all_goals
        simp only [inferMethod, selfCheck] at hsc
        cases hsc
        rw [h2]; rfl
    · rintro rfl c'
      have key : ∀ c' k', (k' = .constructor ∨ k' = .callable) → f.typ ≠ .method c' k' := by
        intro c' k' hk
        rw [h2]
        have ht : ∃ c'' k'', typ2 = .method c'' k'' ∧ k'' ≠ .constructor ∧ k'' ≠ .callable := by
          rcases hdk : pf.dictKind with _ | dk
          · rw [hdk] at hsc
            simp only [inferMethod, selfCheck] at hsc
            split at hsc <;> cases hsc <;> exact ⟨_, _, rfl, by simp⟩
          · cases dk <;> rw [hdk] at hsc <;> simp only [inferMethod, selfCheck] at hsc <;>
              first
              | (split at hsc <;> cases hsc <;> exact ⟨_, _, rfl, by simp⟩)
              | (cases hsc; exact ⟨_, _, rfl, by simp⟩)
        obtain ⟨c'', k'', rfl, n1, n2⟩ := ht
        unfold noParamHack
        split
        · split
          · rintro ⟨⟩; simp at hk
          · rename_i heq _; cases heq; rintro ⟨⟩; simp at hk
        · rintro ⟨⟩; rcases hk with rfl | rfl <;> contradiction
      exact ⟨key _ _ (Or.inl rfl), key _ _ (Or.inr rfl)⟩

theorem methodTypeOf_iff (i : Ident) :
    (methodTypeOf i = .constructor ↔ i.asPy = c!"__init__") ∧ (methodTypeOf i = .callable ↔ i.asPy = c!"__call__") ∧
      (methodTypeOf i = .constructor ∨ methodTypeOf i = .callable ∨ methodTypeOf i = .unknown) := by
  unfold methodTypeOf
  by_cases h1 : i.asPy = c!"__init__"
  · rw [if_pos h1, h1]; decide
  · rw [if_neg h1]
    by_cases h2 : i.asPy = c!"__call__"
    · rw [if_pos h2, h2]; decide
    · rw [if_neg h2]
      simp [h1, h2]

theorem mem_candidates_iff {E : Env} {cfg : Config} {pc : PyClass} {i : Ident} {o : PyObj} :
    (i, o) ∈ Class.candidates E cfg pc ↔ (∃ s ∈ pc.dir, i = Ident.fromPy E s) ∧ pc.getattr i.asPy = some o ∧
      (cfg.isAttrAllowed i (Path.fromPy E o.modPath) = true ∨ i.asPy = c!"__init__" ∨ i.asPy = c!"__call__") := by
  unfold Class.candidates
  rw [List.mem_filterMap]
  constructor
  · rintro ⟨j, hj, h⟩
    obtain ⟨s, hs, rfl⟩ := List.mem_map.mp (mem_unique.mp hj)
    cases hg : pc.getattr (Ident.fromPy E s).asPy with
    | none => rw [hg] at h; cases h
    | some o' =>
      rw [hg] at h
      simp only at h
      split at h
      · rename_i hc
        cases h
        refine ⟨⟨s, hs, rfl⟩, hg, ?_⟩
        rw [Bool.or_eq_true] at hc
        exact hc.imp id (by simp)
      · cases h
  · rintro ⟨⟨s, hs, rfl⟩, hg, hc⟩
    refine ⟨_, mem_unique.mpr (List.mem_map.mpr ⟨s, hs, rfl⟩), ?_⟩
    rw [hg]
    simp only
    rw [if_pos]
    rw [Bool.or_eq_true]
    exact hc.imp id (by simp)

theorem inherent_mem {l : List FnImpl} {a : ClassParts} {fn : Fn} :
    fn ∈ (l.foldl ClassParts.add a).inherent ↔ fn ∈ a.inherent ∨ ∃ fns, .func fns ∈ l ∧ fn ∈ fns := by
  induction l generalizing a with
  | nil => simp
  | cons r l ih =>
    rw [List.foldl_cons, ih]
    cases r <;> simp [ClassParts.add, or_assoc, or_and_right, exists_or]

theorem traitImpls_mem {l : List FnImpl} {a : ClassParts} {fn : Fn} :
    fn ∈ (l.foldl ClassParts.add a).traitImpls ↔ fn ∈ a.traitImpls ∨ ∃ s fns, .method s fns ∈ l ∧ fn ∈ fns := by
  induction l generalizing a with
  | nil => simp
  | cons r l ih =>
    rw [List.foldl_cons, ih]
    cases r <;> simp [ClassParts.add, or_assoc, or_and_right, exists_or]

/-- Where the functions of an emitted class come from, and where those of a method go. -/
theorem class_places {E : Env} {cfg : Config} {imp : Str → Bool} {lt : LocalTypes} {c : Class} {k : ClassItem}
    (h : c.generate E cfg imp lt = .ok (some k)) : ∃ taken,
    (∀ fn ∈ k.inherent, ∃ m ∈ c.methods, ∃ fns, m.generate E cfg imp taken lt = .ok (.func fns) ∧ fn ∈ fns) ∧
    (∀ fn ∈ k.traitImpls, (∃ m ∈ c.methods, ∃ s fns, m.generate E cfg imp taken lt = .ok (.method s fns) ∧ fn ∈ fns) ∨
      ∃ p ∈ c.properties, ∃ l, p.generate E cfg imp (taken ++ c.extraIdents E) lt = .ok l ∧ some fn ∈ l) ∧
    (∀ m ∈ c.methods, ∃ r, m.generate E cfg imp taken lt = .ok r ∧
      (∀ fns, r = .func fns → ∀ fn ∈ fns, fn ∈ k.inherent) ∧
      ∀ s fns, r = .method s fns → ∀ fn ∈ fns, fn ∈ k.traitImpls) := by
  obtain ⟨name, ident, taken, impls, props, -, -, ht, hi, hp, -, -, -, hparts, -⟩ := class_generate h
  have h1 := congrArg ClassParts.inherent hparts
  have h2 := congrArg ClassParts.traitImpls hparts
  simp only at h1 h2
  refine ⟨taken, ?_, ?_, ?_⟩
  · intro fn hfn
    rw [h1, inherent_mem] at hfn
    rcases hfn with hfn | ⟨fns, hfns, hfn⟩
    · cases hfn
    · rcases List.mem_append.mp hfns with hm | hm
      · obtain ⟨m, hm, hg⟩ := traverse_mem hi hm
        exact ⟨m, hm, fns, hg, hfn⟩
      · obtain ⟨l, hl, hc⟩ := List.mem_map.mp hm
        cases hc
  · intro fn hfn
    rw [h2, traitImpls_mem] at hfn
    rcases hfn with hfn | ⟨s, fns, hfns, hfn⟩
    · cases hfn
    · rcases List.mem_append.mp hfns with hm | hm
      · obtain ⟨m, hm, hg⟩ := traverse_mem hi hm
        exact Or.inl ⟨m, hm, s, fns, hg, hfn⟩
      · obtain ⟨l, hl, hc⟩ := List.mem_map.mp hm
        obtain ⟨p, hpm, hg⟩ := traverse_mem hp hl
        cases hc
        refine Or.inr ⟨p, hpm, l, hg, ?_⟩
        obtain ⟨o, ho, rfl⟩ := List.mem_filterMap.mp hfn
        exact ho
  · intro m hm
    obtain ⟨r, hr, hg⟩ := traverse_mem' hi hm
    refine ⟨r, hg, ?_, ?_⟩
    · rintro fns rfl fn hfn
      rw [h1, inherent_mem]
      exact Or.inr ⟨fns, List.mem_append_left _ hr, hfn⟩
    · rintro s fns rfl fn hfn
      rw [h2, traitImpls_mem]
      exact Or.inr ⟨s, fns, List.mem_append_left _ hr, hfn⟩

/-- A function with a receiver and a legal name is emitted. -/
theorem generate_emits {E : Env} {cfg : Config} {imp : Str → Bool} {taken : List Ident} {lt : LocalTypes}
    {f : Function} {r : FnImpl} (h : f.generate E cfg imp taken lt = .ok r) {name : Ident} {ident : Str}
    (hn : f.name.name = .ok name) (hi : Function.ident E name = some ident) (ht : ∀ c, f.typ ≠ .method c .unknown) :
    ∃ fn, fn ∈ fnsOf r := by
  unfold Function.generate at h
  rw [hn, Res.ok_bind, hi] at h
  simp only at h
  obtain ⟨idents, -, h⟩ := Res.bind_ok h
  obtain ⟨pres, -, h⟩ := Res.bind_ok h
  obtain ⟨types, -, h⟩ := Res.bind_ok h
  obtain ⟨ret, -, h⟩ := Res.bind_ok h
  obtain ⟨sig, -, h⟩ := Res.bind_ok h
  obtain ⟨obj?, h6, h⟩ := Res.bind_ok h
  cases obj? with
  | none =>
    exfalso
    unfold dispatcher at h6
    split at h6
    all_goals first
      | (obtain ⟨_, -, h6⟩ := Res.bind_ok h6; obtain ⟨_, -, h6⟩ := Res.bind_ok h6; cases h6)
      | (obtain ⟨_, -, h6⟩ := Res.bind_ok h6; cases h6)
      | (cases h6; done)
      | (rename_i heq; exact ht _ heq)
  | some obj =>
    obtain ⟨pos, -, h⟩ := Res.bind_ok h
    obtain ⟨kw, -, h⟩ := Res.bind_ok h
    have hr := Except.ok.inj h
    rw [← hr]
    split <;> exact ⟨_, List.mem_singleton.mpr rfl⟩

/-- A method of a parsed class is a routine of the Python class. -/
theorem method_origin {E : Env} {cfg : Config} {pc : PyClass} {name : Path} {c : Class} (hd : ∀ s ∈ pc.dir, ¬ c!"r#" <+: s)
    (h : Class.parse E cfg pc name = .ok c) {m : Function} (hm : m ∈ c.methods) :
    ∃ s, HasRoutine pc s ∧ m.name.segs.getLast? = some (Ident.fromPy E s) ∧ (Ident.fromPy E s).asPy = s ∧
      (s = c!"__init__" → m.typ = .method name .constructor) ∧ (s = c!"__call__" → m.typ = .method name .callable) ∧
      (s ≠ c!"__init__" → s ≠ c!"__call__" → ∀ c', m.typ ≠ .method c' .constructor ∧ m.typ ≠ .method c' .callable) := by
  obtain ⟨-, h1, -⟩ := class_parse_exact h
  obtain ⟨⟨i, o⟩, hx, hR, hp⟩ := (h1 m).mp hm
  obtain ⟨⟨s, hs, rfl⟩, hget, -⟩ := mem_candidates_iff.mp hx
  have hpy : (Ident.fromPy E s).asPy = s := asPy_fromPy E (hd s hs)
  obtain ⟨g1, g2, g3⟩ := parse_special hp
  obtain ⟨t1, t2, t3⟩ := methodTypeOf_iff (Ident.fromPy E s)
  rw [hpy] at t1 t2 hget
  simp only at g1 g2 g3
  refine ⟨s, ⟨hs, o, hget, hR⟩, ?_, hpy, ?_, ?_, ?_⟩
  · rw [g1]; exact last_join
  · intro hi
    have := t1.mpr hi
    rw [this] at g2
    exact g2 (Or.inl rfl)
  · intro hi
    have := t2.mpr hi
    rw [this] at g2
    exact g2 (Or.inr rfl)
  · intro n1 n2
    apply g3
    rcases t3 with t | t | t
    · exact absurd (t1.mp t) n1
    · exact absurd (t2.mp t) n2
    · exact t

/-- Constructors and call operators of the Python class are methods of the parsed class. -/
theorem special_parsed {E : Env} {cfg : Config} {pc : PyClass} {name : Path} {c : Class} (hd : ∀ s ∈ pc.dir, ¬ c!"r#" <+: s)
    (h : Class.parse E cfg pc name = .ok c) {s : Str} (hs : HasRoutine pc s) (hsp : s = c!"__init__" ∨ s = c!"__call__") :
    ∃ m ∈ c.methods, m.name.name = .ok (Ident.fromPy E s) ∧
      (s = c!"__init__" → m.typ = .method name .constructor) ∧ (s = c!"__call__" → m.typ = .method name .callable) := by
  obtain ⟨-, h1, -, h4⟩ := class_parse_exact h
  obtain ⟨hdir, o, hget, hR⟩ := hs
  have hpy : (Ident.fromPy E s).asPy = s := asPy_fromPy E (hd s hdir)
  have hx : (Ident.fromPy E s, o) ∈ Class.candidates E cfg pc := by
    refine mem_candidates_iff.mpr ⟨⟨s, hdir, rfl⟩, ?_, Or.inr ?_⟩ <;> rw [hpy]
    · exact hget
    · exact hsp
  obtain ⟨f, hf⟩ := h4 _ hx hR
  obtain ⟨g1, g2, -⟩ := parse_special hf
  obtain ⟨t1, t2, -⟩ := methodTypeOf_iff (Ident.fromPy E s)
  rw [hpy] at t1 t2
  simp only at g1 g2
  refine ⟨f, (h1 f).mpr ⟨_, hx, hR, hf⟩, ?_, ?_, ?_⟩
  · rw [g1, Path.name, Path.name?, last_join]; rfl
  · intro hi
    rw [t1.mpr hi] at g2
    exact g2 (Or.inl rfl)
  · intro hi
    rw [t2.mpr hi] at g2
    exact g2 (Or.inr rfl)

theorem special_ident (E : Env) {s : Str} (hs : s = c!"__init__" ∨ s = c!"__call__") :
    ∃ t, Function.ident E (Ident.fromPy E s) = some t := by
  rcases hs with rfl | rfl
  · have hid : IsIdent E c!"__init__" := isIdent_ascii E _ (by decide) (by decide)
    rw [Function.ident, fromPy_plain hid (by decide), Ident.toSyn, synIdent_plain hid (by decide)]
    exact ⟨_, rfl⟩
  · have hid : IsIdent E c!"__call__" := isIdent_ascii E _ (by decide) (by decide)
    rw [Function.ident, fromPy_plain hid (by decide), Ident.toSyn, synIdent_plain hid (by decide)]
    exact ⟨_, rfl⟩

/-- The emitted function calls an object itself, not one of its attributes. -/
def Spec.CallsObject (fn : Fn) (obj : Obj) : Prop := ∃ pos kw, fn.body = .call obj none pos kw

/-- The emitted function calls the attribute `n` of an object. -/
def Spec.CallsAttr (fn : Fn) (n : Str) : Prop := ∃ obj pos kw, fn.body = .call obj (some n) pos kw

/-- **C27**: the only functions of a generated class that call the class itself are associated functions that return
`Self`, and there is one exactly if the Python class has a routine `__init__`; the only ones that call `self` itself are
trait methods, and there is one exactly if it has a routine `__call__`. All other functions of the class that call
something call another routine of the Python class, by name. -/
theorem C27_special {E : Env} {cfg : Config} {imp : Str → Bool} {lt : LocalTypes} {pc : PyClass} {cls : List Str} {c : Class}
    {k : ClassItem} (hcne : cls ≠ []) (hc : ∀ s ∈ cls, PySegment s) (hd : ∀ s ∈ pc.dir, ¬ c!"r#" <+: s)
    (h : Class.parse E cfg pc (Path.fromPy E (Str.join c!"." cls)) = .ok c) (hg : c.generate E cfg imp lt = .ok (some k)) :
    (∀ fn ∈ k.inherent, ∀ obj, CallsObject fn obj → Denotes obj cls ∧ fn.sig.ret = .selfBound) ∧
    (∀ fn ∈ k.traitImpls, ∀ obj, CallsObject fn obj → obj = .self) ∧
    ((∃ fn ∈ k.inherent, ∃ obj, CallsObject fn obj) ↔ HasRoutine pc c!"__init__") ∧
    ((∃ fn ∈ k.traitImpls, ∃ obj, CallsObject fn obj) ↔ HasRoutine pc c!"__call__") ∧
    (∀ fn, fn ∈ k.inherent ∨ fn ∈ k.traitImpls → ∀ n, CallsAttr fn n →
      HasRoutine pc n ∧ n ≠ c!"__init__" ∧ n ≠ c!"__call__") := by
  obtain ⟨taken, p1, p2, p3⟩ := class_places hg
  -- what a generated method is
  have key : ∀ m ∈ c.methods, ∀ r, m.generate E cfg imp taken lt = .ok r → ∀ fn ∈ fnsOf r,
      ∃ s obj meth pos kw, HasRoutine pc s ∧ fn.body = .call obj meth pos kw ∧
        ((s = c!"__init__" ∧ meth = none ∧ r = .func [fn] ∧ Denotes obj cls ∧ fn.sig.ret = .selfBound) ∨
          (s = c!"__call__" ∧ meth = none ∧ (∃ sig, r = .method sig [fn]) ∧ obj = .self) ∨
          (s ≠ c!"__init__" ∧ s ≠ c!"__call__" ∧ meth = some s)) := by
    intro m hm r hr fn hfn
    obtain ⟨s, hs, hlast, hpy, ti, tc, tother⟩ := method_origin hd h hm
    obtain ⟨name, ident, idents, pres, types, ret, sig, obj, pos, kw, h0, -, -, -, -, -, h5, h6, -, -, hfn', hr'⟩ := generate_fn hr hfn
    have h0' : name = Ident.fromPy E s := by
      have := path_name_last h0
      rw [hlast] at this
      exact (Option.some.inj this).symm
    by_cases e1 : s = c!"__init__"
    · have ht := ti e1
      rw [ht] at hfn' h5 h6
      unfold Function.contract at h5
      obtain ⟨_, -, h5⟩ := Res.bind_ok h5
      obtain ⟨_, -, h5⟩ := Res.bind_ok h5
      cases h5
      unfold dispatcher at h6
      obtain ⟨o, ho, h6⟩ := Res.bind_ok h6
      cases h6
      refine ⟨s, obj, none, _, kw, hs, by rw [hfn'], Or.inl ⟨e1, rfl, by simpa using hr', quote_denotes E imp hcne hc ho, by rw [hfn']⟩⟩
    · by_cases e2 : s = c!"__call__"
      · have ht := tc e2
        rw [ht] at hfn' h5 h6
        unfold Function.contract at h5
        obtain ⟨_, -, h5⟩ := Res.bind_ok h5
        obtain ⟨_, -, h5⟩ := Res.bind_ok h5
        cases h5
        cases h6
        exact ⟨s, .self, none, _, kw, hs, by rw [hfn'], Or.inr (Or.inl ⟨e2, rfl, ⟨_, by simpa using hr'⟩, rfl⟩)⟩
      · refine ⟨s, obj, some s, (if kw.isSome && pos.isNone then some .unit else pos), kw, hs, ?_, Or.inr (Or.inr ⟨e1, e2, rfl⟩)⟩
        rw [hfn']
        have := tother e1 e2
        simp only
        congr 1
        split
        · rename_i ht; exact absurd ht (this _).1
        · rename_i ht; exact absurd ht (this _).2
        · rw [h0', hpy]
  -- accessors call nothing
  have acc : ∀ (p : Property) (l : List (Option Fn)) (taken : List Ident), p.generate E cfg imp taken lt = .ok l →
      ∀ fn, some fn ∈ l → ∀ obj meth pos kw, fn.body ≠ .call obj meth pos kw := by
    intro p l taken hl fn hfn obj meth pos kw hb
    obtain ⟨i, -, ⟨o, ho⟩ | ⟨o, x, ho⟩⟩ := accessor_body hl hfn
    · rw [ho] at hb; cases hb
    · rw [ho] at hb; cases hb
  -- emission of the special methods
  have emit : ∀ s, HasRoutine pc s → (hsp : s = c!"__init__" ∨ s = c!"__call__") → ∃ m ∈ c.methods, ∃ r fn,
      m.generate E cfg imp taken lt = .ok r ∧ fn ∈ fnsOf r ∧
      (∀ fns, r = .func fns → ∀ fn ∈ fns, fn ∈ k.inherent) ∧ (∀ s fns, r = .method s fns → ∀ fn ∈ fns, fn ∈ k.traitImpls) ∧
      (s = c!"__init__" → m.typ.isConstructor = true) ∧ (s = c!"__call__" → m.typ.isCallable = true) := by
    intro s hs hsp
    obtain ⟨m, hm, hn, ti, tc⟩ := special_parsed hd h hs hsp
    obtain ⟨r, hr, hi, ht⟩ := p3 m hm
    obtain ⟨t, hid⟩ := special_ident E hsp
    obtain ⟨fn, hfn⟩ := generate_emits hr hn hid (by
      intro c'
      rcases hsp with e | e
      · rw [ti e]; simp
      · rw [tc e]; simp)
    exact ⟨m, hm, r, fn, hr, hfn, hi, ht, fun e => by rw [ti e]; rfl, fun e => by rw [tc e]; rfl⟩
  refine ⟨?_, ?_, ⟨?_, ?_⟩, ⟨?_, ?_⟩, ?_⟩
  · rintro fn hfn obj ⟨pos, kw, hb⟩
    obtain ⟨m, hm, fns, hr, hf⟩ := p1 fn hfn
    obtain ⟨s, obj', meth, pos', kw', hs, hb', hcase⟩ := key m hm _ hr fn hf
    rw [hb] at hb'
    cases hb'
    rcases hcase with ⟨-, -, -, hd, hret⟩ | ⟨-, -, ⟨_, hr'⟩, -⟩ | ⟨-, -, h⟩
    · exact ⟨hd, hret⟩
    · cases hr'
    · cases h
  · rintro fn hfn obj ⟨pos, kw, hb⟩
    rcases p2 fn hfn with ⟨m, hm, sg, fns, hr, hf⟩ | ⟨p, -, l, hl, hf⟩
    · obtain ⟨s, obj', meth, pos', kw', hs, hb', hcase⟩ := key m hm _ hr fn hf
      rw [hb] at hb'
      cases hb'
      rcases hcase with ⟨-, -, hr', -⟩ | ⟨-, -, -, ho⟩ | ⟨-, -, h⟩
      · cases hr'
      · exact ho
      · cases h
    · exact absurd hb (acc p l _ hl fn hf _ _ _ _)
  · rintro ⟨fn, hfn, obj, pos, kw, hb⟩
    obtain ⟨m, hm, fns, hr, hf⟩ := p1 fn hfn
    obtain ⟨s, obj', meth, pos', kw', hs, hb', hcase⟩ := key m hm _ hr fn hf
    rw [hb] at hb'
    cases hb'
    rcases hcase with ⟨rfl, -⟩ | ⟨-, -, ⟨_, hr'⟩, -⟩ | ⟨-, -, h⟩
    · exact hs
    · cases hr'
    · cases h
  · intro hs
    obtain ⟨m, hm, r, fn, hr, hfn, hi, ht, tc, -⟩ := emit _ hs (Or.inl rfl)
    obtain ⟨s, obj, meth, pos, kw, -, hb, hcase⟩ := key m hm r hr fn hfn
    have htyp := tc rfl
    obtain ⟨_, _, _, _, _, _, sig, _, _, _, -, -, -, -, -, -, h5, -, -, -, hfn', -⟩ := generate_fn hr hfn
    rcases hcase with ⟨-, rfl, rfl, -⟩ | ⟨-, -, ⟨_, rfl⟩, rfl⟩ | ⟨-, -, rfl⟩
    · exact ⟨fn, hi _ rfl fn (by simp), obj, pos, kw, hb⟩
    · exfalso
      have hrecv := (function_matched hr).2 fn (by simp)
      rw [hfn'] at hrecv
      revert htyp h5
      cases m.typ with
      | method c' k' =>
        cases k' <;> intro htyp h5 <;> first | (cases htyp; done) | skip
        unfold Function.contract at h5
        obtain ⟨_, -, h5⟩ := Res.bind_ok h5
        obtain ⟨_, -, h5⟩ := Res.bind_ok h5
        cases h5
        cases hrecv.2
      | _ => intro htyp; cases htyp
    · exfalso
      rw [hfn'] at hb
      revert htyp hb
      cases m.typ with
      | method c' k' =>
        cases k' <;> intro htyp hb <;> first | (cases htyp; done) | skip
        cases hb
      | _ => intro htyp; cases htyp
  · rintro ⟨fn, hfn, obj, pos, kw, hb⟩
    rcases p2 fn hfn with ⟨m, hm, sg, fns, hr, hf⟩ | ⟨p, -, l, hl, hf⟩
    · obtain ⟨s, obj', meth, pos', kw', hs, hb', hcase⟩ := key m hm _ hr fn hf
      rw [hb] at hb'
      cases hb'
      rcases hcase with ⟨-, -, hr', -⟩ | ⟨rfl, -⟩ | ⟨-, -, h⟩
      · cases hr'
      · exact hs
      · cases h
    · exact absurd hb (acc p l _ hl fn hf _ _ _ _)
  · intro hs
    obtain ⟨m, hm, r, fn, hr, hfn, hi, ht, -, tc⟩ := emit _ hs (Or.inr rfl)
    obtain ⟨s, obj, meth, pos, kw, -, hb, hcase⟩ := key m hm r hr fn hfn
    have htyp := tc rfl
    obtain ⟨_, _, _, _, _, _, sig, _, _, _, -, -, -, -, -, -, h5, -, -, -, hfn', -⟩ := generate_fn hr hfn
    rcases hcase with ⟨-, -, rfl, -, hret⟩ | ⟨-, rfl, ⟨_, rfl⟩, rfl⟩ | ⟨-, -, rfl⟩
    · exfalso
      rw [hfn'] at hret
      revert htyp h5
      cases m.typ with
      | method c' k' =>
        cases k' <;> intro htyp h5 <;> first | (cases htyp; done) | skip
        unfold Function.contract at h5
        obtain ⟨_, -, h5⟩ := Res.bind_ok h5
        obtain ⟨_, -, h5⟩ := Res.bind_ok h5
        cases h5
        cases hret
      | _ => intro htyp; cases htyp
    · exact ⟨fn, ht _ _ rfl fn (by simp), _, pos, kw, hb⟩
    · exfalso
      rw [hfn'] at hb
      revert htyp hb
      cases m.typ with
      | method c' k' =>
        cases k' <;> intro htyp hb <;> first | (cases htyp; done) | skip
        cases hb
      | _ => intro htyp; cases htyp
  · rintro fn hfn n ⟨obj, pos, kw, hb⟩
    have : ∃ m ∈ c.methods, ∃ r, m.generate E cfg imp taken lt = .ok r ∧ fn ∈ fnsOf r := by
      rcases hfn with hfn | hfn
      · obtain ⟨m, hm, fns, hr, hf⟩ := p1 fn hfn
        exact ⟨m, hm, _, hr, hf⟩
      · rcases p2 fn hfn with ⟨m, hm, sg, fns, hr, hf⟩ | ⟨p, -, l, hl, hf⟩
        · exact ⟨m, hm, _, hr, hf⟩
        · exact absurd hb (acc p l _ hl fn hf _ _ _ _)
    obtain ⟨m, hm, r, hr, hf⟩ := this
    obtain ⟨s, obj', meth, pos', kw', hs, hb', hcase⟩ := key m hm _ hr fn hf
    rw [hb] at hb'
    cases hb'
    rcases hcase with ⟨-, h, -⟩ | ⟨-, h, -⟩ | ⟨n1, n2, h⟩
    · cases h
    · cases h
    · cases h; exact ⟨hs, n1, n2⟩

/-- A class with a constructor, a call operator and another method. -/
def exCallable : PyClass where
  dir := [c!"__init__", c!"__call__", c!"__new__", c!"run"]
  attrs := [(c!"__init__", exFnObj c!"pkg"), (c!"__call__", exFnObj c!"pkg"), (c!"__new__", exFnObj c!"pkg"),
    (c!"run", exFnObj c!"pkg")]

/-- What the generated class calls. -/
def exCalls (k : ClassItem) : List (Str × Body) := (k.inherent ++ k.traitImpls).map (fun f => (f.sig.name, f.body))

/-- Its constructor calls the class, its call operator `self`, the other methods are called by name. -/
example : (∀ s ∈ exCallable.dir, ¬ c!"r#" <+: s) ∧
    (Class.parse exEnv { includePrivate := true } exCallable (Path.fromPy exEnv c!"pkg.K") >>= fun c =>
      c.generate exEnv {} (fun s => s = c!"pkg") []).map (fun k => k.map exCalls) =
      .ok (some [(c!"new", .call (.getattr (.import c!"pkg") c!"K") none none none),
        (c!"__new__", .call (.getattr (.import c!"pkg") c!"K") (some c!"__new__") (some (.tuple [c!"p_x"])) none),
        (c!"run", .call (.getattr (.import c!"pkg") c!"K") (some c!"run") (some (.tuple [c!"p_x"])) none),
        (c!"call", .call .self none none none)]) := by
  decide +kernel

end Bindgen
