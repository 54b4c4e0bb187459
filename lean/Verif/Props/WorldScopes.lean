import Verif.Props.Scopes
/-!
# C50 for whole bindings
-/
namespace Bindgen
open Spec

theorem prefix_map_inj {α β : Type} {f : α → β} {a b : List α} (hf : ∀ x ∈ a, ∀ y ∈ b, f x = f y → x = y)
    (h : a.map f <+: b.map f) : a <+: b := by
  induction a generalizing b with
  | nil => exact List.nil_prefix
  | cons x a ih =>
    cases b with
    | nil => simp at h
    | cons y b =>
      rw [List.map_cons, List.map_cons, List.cons_prefix_cons] at h
      rw [List.cons_prefix_cons]
      exact ⟨hf x (by simp) y (by simp) h.1, ih (fun u hu v hv => hf u (by simp [hu]) v (by simp [hv])) h.2⟩

/-- A place that is a module of the tree, or a package of one, is a module of the interpreter or contains one. -/
theorem below_of_prefix {E : Env} {cfg : Config} {W : World} (hF : Faithful E W) {segs : List Str} (hne : segs ≠ [])
    (hs : ∀ s ∈ segs, PyIdent E s) {m : Module} (hm : Parsed E cfg W m) (h : segs.map (Ident.fromPy E) <+: m.name.segs) :
    Below W (Str.join c!"." segs) := by
  obtain ⟨fuel, id, hm⟩ := hm
  cases fuel with
  | zero => exact absurd hm parse_zero
  | succ fuel =>
    obtain ⟨p⟩ := parse_parts hm
    obtain ⟨segs', -, h2, h3, h4⟩ := faithful_name hF p.get p.pmName
    rw [p.name, h4] at h
    obtain ⟨r, rfl⟩ := prefix_map_inj (fun x hx y hy he => fromPy_ident_inj (hs x hx).2 (h2 y hy).2 he) h
    refine ⟨id, p.nm, ⟨p.pm, p.get, p.pmName⟩, ?_⟩
    rw [h3]
    cases r with
    | nil => left; rw [List.append_nil]
    | cons t r =>
      right
      rw [join_append _ hne, Str.join_cons_cons]
      exact ⟨_, rfl⟩

theorem isIdent_append {E : Env} {a b : Str} (ha : IsIdent E a) (hb : ∀ x ∈ b, E.xidContinue x = true) : IsIdent E (a ++ b) := by
  obtain ⟨x, xs, rfl, h1, h2⟩ := ha
  refine ⟨x, xs ++ b, rfl, h1, ?_⟩
  intro y hy
  rcases List.mem_append.mp hy with hy | hy
  · exact h2 y hy
  · exact hb y hy

/-- The item is not a use of something defined elsewhere. -/
def Defines : SItem → Prop
  | .prelude _ => False
  | .import _ => False
  | _ => True

theorem mem_defNames {M : Module} {p : Path} : p ∈ M.defNames ↔ ∃ x, Has M x ∧ Defines x ∧ itemName x = p := by
  simp only [Module.defNames, List.mem_append, List.mem_map]
  constructor
  · rintro (((⟨x, hx, rfl⟩ | ⟨x, hx, rfl⟩) | ⟨x, hx, rfl⟩) | ⟨x, hx, rfl⟩)
    · exact ⟨.class x, hx, trivial, rfl⟩
    · exact ⟨.typeVar x, hx, trivial, rfl⟩
    · exact ⟨.function x, hx, trivial, rfl⟩
    · exact ⟨.property x, hx, trivial, rfl⟩
  · rintro ⟨x, hx, hd, rfl⟩
    cases x with
    | prelude => cases hd
    | «import» => cases hd
    | «class» c => exact Or.inl (Or.inl (Or.inl ⟨c, hx, rfl⟩))
    | typeVar c => exact Or.inl (Or.inl (Or.inr ⟨c, hx, rfl⟩))
    | function c => exact Or.inl (Or.inr ⟨c, hx, rfl⟩)
    | property c => exact Or.inr ⟨c, hx, rfl⟩

theorem defNames_nodup {M m : Module} (hM : ItemsOnce M) (hm : m.itemNames.Nodup) (h : ∀ y, Has M y → Has m y) : M.defNames.Nodup := by
  obtain ⟨-, -, o1, o2, o3, o4⟩ := hM
  unfold Module.itemNames at hm
  simp only [List.nodup_append] at hm
  obtain ⟨⟨⟨⟨-, h1, -⟩, h2, d2⟩, h3, d3⟩, h4, d4⟩ := hm
  have inj : ∀ {α : Type} {l l' : List α} {f : α → Path}, l.Nodup → (l'.map f).Nodup → (∀ x ∈ l, x ∈ l') → (l.map f).Nodup := by
    intro α l l' f hl hl' hs
    exact hl.map_on fun x hx y hy he => List.inj_on_of_nodup_map hl' (hs x hx) (hs y hy) he
  have m1 : ∀ p ∈ M.classes.map Class.name, p ∈ m.classes.map Class.name := fun p hp => by
    obtain ⟨c, hc, rfl⟩ := List.mem_map.mp hp
    exact List.mem_map_of_mem (h (.class c) hc)
  have m2 : ∀ p ∈ M.typeVars.map TypeVar.name, p ∈ m.typeVars.map TypeVar.name := fun p hp => by
    obtain ⟨c, hc, rfl⟩ := List.mem_map.mp hp
    exact List.mem_map_of_mem (h (.typeVar c) hc)
  have m3 : ∀ p ∈ M.functions.map Function.name, p ∈ m.functions.map Function.name := fun p hp => by
    obtain ⟨c, hc, rfl⟩ := List.mem_map.mp hp
    exact List.mem_map_of_mem (h (.function c) hc)
  have m4 : ∀ p ∈ M.properties.map Property.name, p ∈ m.properties.map Property.name := fun p hp => by
    obtain ⟨c, hc, rfl⟩ := List.mem_map.mp hp
    exact List.mem_map_of_mem (h (.property c) hc)
  refine List.nodup_append.mpr ⟨List.nodup_append.mpr ⟨List.nodup_append.mpr ⟨inj o1 h1 fun c hc => h (.class c) hc,
    inj o2 h2 fun c hc => h (.typeVar c) hc, ?_⟩, inj o3 h3 fun c hc => h (.function c) hc, ?_⟩,
    inj o4 h4 fun c hc => h (.property c) hc, ?_⟩
  · exact fun a ha b hb => d2 a (List.mem_append_right _ (m1 a ha)) b (m2 b hb)
  · intro a ha b hb
    refine d3 a ?_ b (m3 b hb)
    rcases List.mem_append.mp ha with ha | ha
    · exact List.mem_append_left _ (List.mem_append_right _ (m1 a ha))
    · exact List.mem_append_right _ (m2 a ha)
  · intro a ha b hb
    refine d4 a ?_ b (m4 b hb)
    rcases List.mem_append.mp ha with ha | ha
    · refine List.mem_append_left _ ?_
      rcases List.mem_append.mp ha with ha | ha
      · exact List.mem_append_left _ (List.mem_append_right _ (m1 a ha))
      · exact List.mem_append_right _ (m2 a ha)
    · exact List.mem_append_right _ (m3 a ha)

theorem prepared_free {E : Env} {W : World} {fuel : Nat} {c : Codegen} {out : List Module}
    (h : c.prepare E W fuel = .ok out) (hp : ∀ m ∈ c.modules, Parsed E c.cfg W m) {M : Module} (hM : InTree M out) :
    ∀ f ∈ M.functions, Free f := by
  intro f hf
  obtain ⟨m, ⟨_, _, hm⟩, -, hmf⟩ := prepared_has h hp hM (x := .function f) hf
  refine parse_all (Q := fun x => ∀ f, x = .function f → Free f) ?_ ?_ ?_ hm _ hmf f rfl
  · intro x t hx f hf
    cases x with
    | function g => cases hf; exact hx g rfl
    | _ => cases hf
  · intro i f hf
    cases hf
  · intro id pm name i a x hg hc hn f hf
    subst hf
    cases hn with
    | function t f ht hf => exact parse_free ht hf

/-- In an interpreter in which an attribute named like a submodule is this submodule, the items from which bindings are generated are
made from the attributes of the module, and a parsed module has them all. -/
theorem prepared_items {E : Env} {W : World} (hF : Faithful E W) (hu : UniqueNames W) {fuel : Nat} {c : Codegen} (hN : OwnSubmodules E c.cfg W)
    {out : List Module} (h : c.prepare E W fuel = .ok out) (hp : ∀ m ∈ c.modules, Parsed E c.cfg W m) {M : Module}
    (hM : InTree M out) {x0 : SItem} (hx0 : Has M x0) :
    ∃ id pm nm, W.get? id = some pm ∧ pm.name = some nm ∧ M.name = Path.fromPy E nm ∧
      (∃ m : Module, m.itemNames.Nodup ∧ ∀ y, Has M y → Has m y) ∧
      ∀ x, Has M x → (∀ i, x ≠ .prelude i) → ∃ s a, s ∈ pm.dir ∧ PyIdent E s ∧ pm.getattr s = some a ∧ Kept E c.cfg s a.obj ∧
        itemName x = fullName M.name (Ident.fromPy E s) ∧ ¬ Below W (nm ++ '.' :: s) ∧ NewItem E c.cfg M.name (Ident.fromPy E s) a x := by
  obtain ⟨m, ⟨f, id, hm⟩, hmn, hall⟩ := prepared_parsed (faithful_ordinary hF) hu h hp hM hx0
  cases f with
  | zero => exact absurd hm parse_zero
  | succ f =>
    obtain ⟨p⟩ := parse_parts hm
    obtain ⟨segs, s1, s2, s3, s4⟩ := faithful_name hF p.get p.pmName
    have hMn : M.name = ⟨false, segs.map (Ident.fromPy E)⟩ := by rw [← hmn, p.name, s4]
    have hfull : ∀ t, fullName M.name (Ident.fromPy E t) = ⟨false, (segs ++ [t]).map (Ident.fromPy E)⟩ := by
      intro t
      rw [hMn]
      simp [fullName, Path.join, Path.ofIdent]
    have hself : ∀ s a, s ∈ p.pm.dir → PyIdent E s → p.pm.getattr s = some a → Kept E c.cfg s a.obj → Below W (p.nm ++ '.' :: s) →
        SelfModule E M.name (Ident.fromPy E s, a) := by
      intro t a hd ht hget hk hb
      obtain ⟨g1, g2, g3⟩ := hN _ _ _ p.get p.pmName _ hd _ hget hk hb
      refine ⟨g1, ?_⟩
      simp only [g2, g3, Option.getD_some]
      rw [hfull, s3, ← join_snoc _ _ s1]
      have hd := fromPy_dotted E 0 (segs := segs ++ [t]) (by simp) (by
        intro s hs
        rcases mem_snoc.mp hs with hs | rfl
        · exact (s2 s hs).1
        · exact ht.1)
      simp only [dotted, List.replicate_zero, List.nil_append] at hd
      rw [hd]
      rfl
    have hattr : ∀ x, Has M x → (∀ i, x ≠ .prelude i) → ∃ s a, s ∈ p.pm.dir ∧ PyIdent E s ∧ p.pm.getattr s = some a ∧ Kept E c.cfg s a.obj ∧
        itemName x = fullName M.name (Ident.fromPy E s) ∧ ¬ Below W (p.nm ++ '.' :: s) ∧
        NewItem E c.cfg M.name (Ident.fromPy E s) a x := by
      intro x hx hd
      rcases itemName_mem (hall x hx) with ⟨i, rfl⟩ | hmem
      · exact absurd rfl (hd i)
      · obtain ⟨⟨i, a⟩, hy, hq, hns⟩ := parts_itemNames_self p _ hmem
        obtain ⟨hdir, hget, hk⟩ := mem_candidates hy
        obtain ⟨s, hs, rfl⟩ := List.mem_map.mp hdir
        have hsi := hF.attrs _ _ p.get s hs
        simp only [asPy_ident hsi.2] at hget
        rw [hmn] at hq hns
        have hnb : ¬ Below W (p.nm ++ '.' :: s) := fun hb => hns (hself s a hs hsi hget hk hb)
        refine ⟨s, a, hs, hsi, hget, hk, hq, hnb, ?_⟩
        rcases parts_new p (hall x hx) with ⟨i, rfl⟩ | ⟨⟨j, b⟩, hy', hnew⟩ | ⟨j, id', hj, himp, hj'⟩
        · exact absurd rfl (hd i)
        · rw [hmn] at hnew
          have := newItem_name hnew
          rw [hq] at this
          have := fullName_inj this
          simp only at this
          subst this
          obtain ⟨-, hget', -⟩ := mem_candidates hy'
          simp only [asPy_ident hsi.2, hget] at hget'
          cases hget'
          exact hnew
        · rw [hmn] at hj' himp
          rw [hq] at hj'
          cases fullName_inj hj'
          exfalso
          apply hnb
          rw [hfull, faithful_toPy E (by simp) (by
            intro t ht
            rcases mem_snoc.mp ht with ht | rfl
            · exact s2 t ht
            · exact hsi), join_snoc _ _ s1, ← s3] at himp
          exact ⟨id', _, hF.imported _ _ himp, Or.inl rfl⟩
    exact ⟨id, p.pm, p.nm, p.get, p.pmName, by rw [← hmn, p.name], ⟨m, (parse_itemNames hm).1, hall⟩, hattr⟩

/-- The same for what the module defines. -/
theorem prepared_attrs {E : Env} {W : World} (hF : Faithful E W) (hu : UniqueNames W) {fuel : Nat} {c : Codegen} (hN : OwnSubmodules E c.cfg W)
    {out : List Module} (h : c.prepare E W fuel = .ok out) (hp : ∀ m ∈ c.modules, Parsed E c.cfg W m) {M : Module}
    (hM : InTree M out) (he : M.defNames ≠ []) :
    ∃ id pm nm, W.get? id = some pm ∧ pm.name = some nm ∧ M.name = Path.fromPy E nm ∧ M.defNames.Nodup ∧
      ∀ x, Has M x → Defines x → ∃ s a, s ∈ pm.dir ∧ PyIdent E s ∧ pm.getattr s = some a ∧ Kept E c.cfg s a.obj ∧
        itemName x = fullName M.name (Ident.fromPy E s) ∧ ¬ Below W (nm ++ '.' :: s) ∧ NewItem E c.cfg M.name (Ident.fromPy E s) a x := by
  obtain ⟨p0, hp0⟩ := List.exists_mem_of_ne_nil _ he
  obtain ⟨x0, hx0, -, -⟩ := mem_defNames.mp hp0
  obtain ⟨id, pm, nm, h1, h2, h3, ⟨m, h4, h5⟩, h6⟩ := prepared_items hF hu hN h hp hM hx0
  refine ⟨id, pm, nm, h1, h2, h3, defNames_nodup (C38_once E W fuel c hp out h M hM) h4 h5, fun x hx hd => h6 x hx ?_⟩
  rintro i rfl
  cases hd

/-- In an interpreter without clashes, the modules from which bindings are generated are without clashes. -/
theorem prepared_clean {E : Env} {W : World} (hF : Faithful E W) (hu : UniqueNames W) {fuel : Nat} {c : Codegen} (hN : Collisionless E c.cfg W)
    {out : List Module} (h : c.prepare E W fuel = .ok out) (hp : ∀ m ∈ c.modules, Parsed E c.cfg W m) {M : Module}
    (hM : InTree M out) : CleanModule E M := by
  obtain ⟨ns, hns⟩ := inTree_nodeAt hM
  obtain ⟨-, hlc, -, -⟩ := prepared_placed hF h hp hns
  have hsubs : ∀ k ∈ M.submodules, ∃ t, PyIdent E t ∧ k.name = fullName M.name (Ident.fromPy E t) ∧
      ∃ m, Parsed E c.cfg W m ∧ k.name.segs <+: m.name.segs := by
    intro k hk
    obtain ⟨t, ht, hn⟩ := prepared_sub hF h hp hM hk
    obtain ⟨-, -, -, -, hpar⟩ := prepared_named hF h hp (nodeAt_snoc hns hk)
    refine ⟨t, ht, ?_, hpar⟩
    rw [hn]
    simp [fullName, Path.join, Path.ofIdent, hlc]
  have hfree := prepared_free h hp hM
  have hsn := (prepared_distinct hF h hp).2 M hM
  by_cases he : M.defNames = []
  · obtain ⟨⟨⟨e1, -⟩, -⟩, e4⟩ : ((M.classes.map Class.name = [] ∧ _) ∧ _) ∧ M.properties.map Property.name = [] := by
      simpa only [Module.defNames, List.append_eq_nil_iff] using he
    refine ⟨by rw [he]; exact List.nodup_nil, by rw [he]; simp, by rw [e4]; simp, by rw [e1]; simp, hsn, ?_, hfree⟩
    intro k hk
    obtain ⟨t, ht, hn, -⟩ := hsubs k hk
    exact ⟨t, ht, hn, by rw [he]; simp, by rw [e1]; simp⟩
  · obtain ⟨id, pm, nm, hget, hpm, hMn, hnd, hattr⟩ := prepared_attrs hF hu hN.modules h hp hM he
    obtain ⟨segs, s1, s2, s3, s4⟩ := faithful_name hF hget hpm
    have hfull : ∀ t, fullName M.name (Ident.fromPy E t) = ⟨false, (segs ++ [t]).map (Ident.fromPy E)⟩ := by
      intro t
      rw [hMn, s4]
      simp [fullName, Path.join, Path.ofIdent]
    have hone : ∀ x, Has M x → Defines x → ∀ s, IsIdent E s → itemName x = fullName M.name (Ident.fromPy E s) →
        ∃ a, s ∈ pm.dir ∧ pm.getattr s = some a ∧ Kept E c.cfg s a.obj ∧ NewItem E c.cfg M.name (Ident.fromPy E s) a x := by
      intro x hx hd s hs hq
      obtain ⟨s', a, h1, h2, h3, h4, h5, -, h6⟩ := hattr x hx hd
      rw [hq] at h5
      cases fromPy_ident_inj hs h2.2 (fullName_inj h5)
      exact ⟨a, h1, h3, h4, h6⟩
    have hclass : ∀ s, IsIdent E s → fullName M.name (Ident.fromPy E s) ∈ M.classes.map Class.name →
        ∃ a, s ∈ pm.dir ∧ pm.getattr s = some a ∧ Kept E c.cfg s a.obj ∧ a.obj.isClass = true := by
      intro s hs hm
      obtain ⟨k, hk, hkn⟩ := List.mem_map.mp hm
      obtain ⟨a, h1, h2, h3, h4⟩ := hone (.class k) hk trivial s hs hkn
      cases h4 with
      | class' _ _ hd => exact ⟨a, h1, h2, h3, determine_class hd⟩
    have hvar : ∀ s, IsIdent E s → fullName M.name (Ident.fromPy E s) ∈ M.properties.map Property.name ∨
        fullName M.name (Ident.fromPy E s) ∈ M.typeVars.map TypeVar.name →
        ∃ a, s ∈ pm.dir ∧ pm.getattr s = some a ∧ Kept E c.cfg s a.obj ∧ Variable a.obj := by
      rintro s hs (hm | hm)
      · obtain ⟨k, hk, hkn⟩ := List.mem_map.mp hm
        obtain ⟨a, h1, h2, h3, h4⟩ := hone (.property k) hk trivial s hs hkn
        cases h4 with
        | property _ _ hd => exact ⟨a, h1, h2, h3, determine_variable hd (Or.inl rfl)⟩
      · obtain ⟨k, hk, hkn⟩ := List.mem_map.mp hm
        obtain ⟨a, h1, h2, h3, h4⟩ := hone (.typeVar k) hk trivial s hs hkn
        cases h4 with
        | typeVar hd => exact ⟨a, h1, h2, h3, determine_variable hd (Or.inr rfl)⟩
    have hbelow : ∀ k ∈ M.submodules, ∀ t, PyIdent E t → k.name = fullName M.name (Ident.fromPy E t) → Below W (nm ++ '.' :: t) := by
      intro k hk t ht hn
      obtain ⟨_, -, -, m', hm', hpre⟩ := hsubs k hk
      rw [hn, hfull] at hpre
      rw [s3, ← join_snoc _ _ s1]
      refine below_of_prefix hF (by simp) ?_ hm' hpre
      intro s hs
      rcases mem_snoc.mp hs with hs | rfl
      · exact s2 s hs
      · exact ht
    have hid : ∀ s, IsIdent E s → IsIdent E (c!"get_" ++ s) ∧ IsIdent E (c!"set_" ++ s) ∧ IsIdent E (s ++ c!"Methods") := by
      intro s hs
      refine ⟨?_, ?_, ?_⟩
      · exact isIdent_append (isIdent_ascii E c!"get_" (by decide) (by decide)) fun x hx => hs.continue x hx
      · exact isIdent_append (isIdent_ascii E c!"set_" (by decide) (by decide)) fun x hx => hs.continue x hx
      · exact isIdent_append hs fun x hx => (isIdent_ascii E c!"Methods" (by decide) (by decide)).continue x hx
    refine ⟨hnd, ?_, ?_, ?_, hsn, ?_, hfree⟩
    · intro q hq
      obtain ⟨x, hx, hd, rfl⟩ := mem_defNames.mp hq
      obtain ⟨s, a, h1, h2, h3, h4, h5, -⟩ := hattr x hx hd
      obtain ⟨n1, n2⟩ := hN.names _ _ hget s h1 a h3 h4
      exact ⟨s, h2, n1, n2, h5⟩
    · intro s hs hq t ht
      obtain ⟨a, h1, h2, h3, h4⟩ := hvar s hs (Or.inl hq)
      have hti : IsIdent E t := by
        rcases ht with rfl | rfl
        · exact (hid s hs).1
        · exact (hid s hs).2.1
      refine ⟨fun hc => ?_, fun hc => ?_⟩
      · obtain ⟨b, g1, g2, g3, g4⟩ := hclass t hti hc
        have := (hN.accessors _ _ hget s h1 t g1 ht a b h2 g2 h3 g3 h4).1
        rw [g4] at this
        cases this
      · obtain ⟨b, g1, g2, g3, g4⟩ := hvar t hti (Or.inl hc)
        exact (hN.accessors _ _ hget s h1 t g1 ht a b h2 g2 h3 g3 h4).2 g4
    · intro s hs hq
      obtain ⟨a, h1, h2, h3, h4⟩ := hclass s hs hq
      refine ⟨fun hc => ?_, fun hc => ?_⟩
      · obtain ⟨b, g1, g2, g3, g4⟩ := hclass _ (hid s hs).2.2 hc
        have := (hN.traits _ _ hget s h1 g1 a b h2 g2 h3 g3 h4).1
        rw [g4] at this
        cases this
      · obtain ⟨b, g1, g2, g3, g4⟩ := hvar _ (hid s hs).2.2 (Or.inr hc)
        exact (hN.traits _ _ hget s h1 g1 a b h2 g2 h3 g3 h4).2 g4
    · intro k hk
      obtain ⟨t, ht, hn, -⟩ := hsubs k hk
      have hb := hbelow k hk t ht hn
      refine ⟨t, ht, hn, ?_, ?_⟩
      · intro hq
        rw [hn] at hq
        obtain ⟨x, hx, hd, hxn⟩ := mem_defNames.mp hq
        obtain ⟨s, a, -, h2, -, -, h5, hnb, -⟩ := hattr x hx hd
        rw [hxn] at h5
        cases fromPy_ident_inj ht.2 h2.2 (fullName_inj h5)
        exact hnb hb
      · rintro s hs hq rfl
        obtain ⟨a, h1, h2, h3, h4⟩ := hclass s hs hq
        exact hN.submodules _ _ _ hget hpm s h1 a h2 h3 h4 hb

theorem prepared_class {E : Env} {W : World} (hF : Faithful E W) {fuel : Nat} {c : Codegen} {out : List Module} (hN : Collisionless E c.cfg W)
    (h : c.prepare E W fuel = .ok out) (hp : ∀ m ∈ c.modules, Parsed E c.cfg W m) {M : Module} (hM : InTree M out) {k : Class}
    (hk : k ∈ M.classes) : ∃ pc name name' k0, CleanClass E c.cfg pc ∧ Class.parse E c.cfg pc name = .ok k0 ∧ k = { k0 with name := name' } := by
  obtain ⟨m, ⟨_, _, hm⟩, -, hmk⟩ := prepared_has h hp hM (x := .class k) hk
  refine parse_all (Q := fun x => ∀ k, x = .class k → ∃ pc name name' k0, CleanClass E c.cfg pc ∧ Class.parse E c.cfg pc name = .ok k0 ∧
    k = { k0 with name := name' }) ?_ ?_ ?_ hm _ hmk k rfl
  · intro x t hx k hk
    cases x with
    | «class» g =>
      cases hk
      obtain ⟨pc, n, n', k0, h1, h2, rfl⟩ := hx g rfl
      exact ⟨pc, n, t, k0, h1, h2, rfl⟩
    | _ => cases hk
  · intro i k hk
    cases hk
  · intro id pm name i a x hg hc hn k hk
    subst hk
    cases hn with
    | class' c hc' hdet =>
      obtain ⟨hd, hget, hk⟩ := mem_candidates hc
      obtain ⟨s, hs, rfl⟩ := List.mem_map.mp hd
      rw [asPy_ident (hF.attrs _ _ hg s hs).2] at hget
      exact ⟨a.cls, _, _, k, hN.classes _ _ hg s hs a hget hk (determine_class hdet), hc', rfl⟩

/-- **C50**: in no scope of the bindings are two things of the same name defined (`r#` aside): not among the types, traits and
modules of a generated module, not among its functions and constructors, not among the methods of a trait and not among the
associated functions of a struct. Missing: interpreters with names as `Collisionless` excludes them, for which the code emits
duplicates (`C50_accessor_counterexample`, `C50_sanitized_counterexample`, `C50_call_counterexample`, `C50_shadow_counterexample`,
`C50_trait_counterexample`, `C50_setter_counterexample`). -/
theorem C50_scopes_partial (E : Env) (W : World) (hF : Faithful E W) (hu : UniqueNames W) (fuel : Nat) (cfg : Config)
    (hN : Collisionless E cfg W) (srcs : List (Str × Str)) (c : Codegen) (hb : Built E W fuel cfg srcs c) (items : List Item)
    (h : c.generate E W fuel = .ok items) (idents : List Str) (content : List Item) (hc : ModChain items idents content) :
    (content.flatMap typeNames).Nodup ∧ (content.flatMap valueNames).Nodup ∧
      ∀ k, Item.class k ∈ content →
        (k.traitSigs.map fun s => unraw s.name).Nodup ∧ (k.inherent.map fun f => unraw f.sig.name).Nodup := by
  obtain ⟨hcfg, -, hp⟩ := built_ok hb
  subst hcfg
  obtain ⟨out, h1, h2⟩ := generate_prepared h
  obtain ⟨ns, M, c0, mods, hM, hc0, rfl, hmods, hsub, -⟩ := chain_node h2 hc
  have hcl := prepared_clean hF hu hN h1 hp (nodeAt_inTree hM)
  refine ⟨clean_types hcl hc0 hsub, clean_values hcl hc0 hmods, ?_⟩
  intro k hk
  rcases List.mem_append.mp hk with hk | hk
  · rcases List.mem_append.mp hk with hk | hk
    · unfold embedItems at hk
      split at hk <;> simp at hk
    · obtain ⟨q⟩ := content_parts hc0
      cases content_from q hk with
      | class' x k _ hx hg =>
        obtain ⟨pc, n, n', k0, g1, g2, rfl⟩ := prepared_class hF hN h1 hp (nodeAt_inTree hM) hx
        exact C50_class_partial E _ _ _ pc g1 n n' k0 g2 k hg
  · obtain ⟨a, d, i, inner, he⟩ := hmods _ hk
    cases he

/-- The top level defines no two modules of the same name. -/
theorem C50_top (E : Env) (W : World) (hF : Faithful E W) (fuel : Nat)
    (cfg : Config) (srcs : List (Str × Str)) (c : Codegen) (hb : Built E W fuel cfg srcs c) (items : List Item)
    (h : c.generate E W fuel = .ok items) : (items.flatMap typeNames).Nodup ∧ items.flatMap valueNames = [] := by
  obtain ⟨hcfg, -, hp⟩ := built_ok hb
  subst hcfg
  obtain ⟨out, h1, h2⟩ := generate_prepared h
  have hmod : ∀ x ∈ items, ∃ a d i inner, x = Item.mod a d i inner := by
    intro x hx
    obtain ⟨m, -, hm⟩ := traverse_mem h2 hx
    obtain ⟨p⟩ := generate_parts hm
    exact ⟨_, _, _, _, p.item⟩
  refine ⟨?_, flatMap_nil' fun x hx => ?_⟩
  · refine (nodup_traverse h2 Module.name typeNames (fun k n => IsIdent E n ∧ k.name = ⟨false, [Ident.fromPy E n]⟩)
      (prepared_distinct hF h1 hp).1 ?_ ?_).1
    · intro k hk b hb
      obtain ⟨a, b', c', d⟩ := prepared_placed hF h1 hp (ns := [k.name]) ⟨hk, rfl⟩
      have hlen := congrArg List.length a
      simp only [prefixes, List.length_map, List.length_range, List.length_singleton] at hlen
      obtain ⟨i, hi⟩ := List.length_eq_one_iff.mp hlen.symm
      obtain ⟨t, ht, he⟩ := d i (by rw [hi]; simp)
      obtain ⟨p⟩ := generate_parts hb
      have hlast := p.lastOk
      rw [hi] at hlast
      have hid := p.identOk
      rw [← Option.some.inj hlast, he] at hid
      rw [p.item]
      refine ⟨by simp [typeNames], ?_⟩
      intro n hnm
      cases List.mem_singleton.mp hnm
      rw [toSyn_unraw ht.2 hid]
      refine ⟨ht.2, ?_⟩
      revert b' hi
      generalize k.name = q
      intro b' hi
      cases q
      simp only at b' hi
      rw [b', hi, he]
    · intro a _ b _ n h1 h2
      rw [h1.2, h2.2]
  · obtain ⟨a, d, i, inner, rfl⟩ := hmod x hx
    rfl

/-! ## Examples -/

def belowCheck (W : World) (n : Str) : Bool := W.mods.any fun m => match m.name with
  | none => false
  | some n' => n' == n || (n ++ c!".").isPrefixOf n'

theorem below_check {W : World} {n : Str} (h : Below W n) : belowCheck W n = true := by
  obtain ⟨id, n', ⟨m, hg, hn⟩, h⟩ := h
  refine List.any_eq_true.mpr ⟨m, List.mem_of_getElem? hg, ?_⟩
  rw [hn]
  simpa [List.isPrefixOf_iff_prefix] using h

/-- The attributes that the configuration keeps, with their values. -/
def keptAttrs (E : Env) (cfg : Config) (m : PyMod) : List (Str × PyAttr) :=
  m.dir.filterMap fun s => match m.getattr s with
    | none => none
    | some a => if cfg.isAttrAllowed (Ident.fromPy E s) (Path.fromPy E a.obj.modPath) then some (s, a) else none

theorem mem_keptAttrs {E : Env} {cfg : Config} {m : PyMod} {s : Str} {a : PyAttr} (hs : s ∈ m.dir) (ha : m.getattr s = some a)
    (hk : Kept E cfg s a.obj) : (s, a) ∈ keptAttrs E cfg m := by
  refine List.mem_filterMap.mpr ⟨s, hs, ?_⟩
  simp only [ha]
  exact if_pos hk

/-- `Collisionless`, computed for one module. -/
def collisionCheck (E : Env) (cfg : Config) (W : World) (m : PyMod) : Bool :=
  let kept := keptAttrs E cfg m
  let vars := (kept.filter fun x => isVariable x.2.obj).map Prod.fst
  let defs := (kept.filter fun x => isVariable x.2.obj || x.2.obj.isClass).map Prod.fst
  kept.all (fun x => !unspellable.contains x.1 && x.1 != c!"pyo3_embed_python_source_code") &&
  vars.all (fun s => !defs.contains (c!"get_" ++ s) && !defs.contains (c!"set_" ++ s)) &&
  kept.all (fun x => !x.2.obj.isClass || (!defs.contains (x.1 ++ c!"Methods") && cleanClassCheck E cfg x.2.cls &&
    m.name.all fun n => !belowCheck W (n ++ '.' :: (x.1 ++ c!"Methods")))) &&
  kept.all (fun x => m.name.all fun n => !belowCheck W (n ++ '.' :: x.1) ||
    (x.2.obj.isModule && x.2.obj.modPath == [] && x.2.obj.dunderName == some (n ++ '.' :: x.1)))

theorem collisionless_of_check {E : Env} {cfg : Config} {W : World} (h : W.mods.all (collisionCheck E cfg W) = true) :
    Collisionless E cfg W := by
  have hm : ∀ id m, W.get? id = some m → collisionCheck E cfg W m = true := fun id m hg =>
    List.all_eq_true.mp h m (List.mem_of_getElem? hg)
  unfold collisionCheck at hm
  simp only [Bool.and_eq_true, Bool.or_eq_true, List.all_eq_true, Bool.not_eq_true', List.contains_eq_mem, decide_eq_false_iff_not,
    bne_iff_ne] at hm
  have hvar : ∀ {m s a}, s ∈ m.dir → m.getattr s = some a → Kept E cfg s a.obj → Variable a.obj →
      s ∈ ((keptAttrs E cfg m).filter fun x => isVariable x.2.obj).map Prod.fst := by
    intro m s a hs ha hk hv
    exact List.mem_map.mpr ⟨(s, a), List.mem_filter.mpr ⟨mem_keptAttrs hs ha hk, isVariable_iff.mpr hv⟩, rfl⟩
  have hdef : ∀ {m s a}, s ∈ m.dir → m.getattr s = some a → Kept E cfg s a.obj →
      s ∉ ((keptAttrs E cfg m).filter fun x => isVariable x.2.obj || x.2.obj.isClass).map Prod.fst →
      a.obj.isClass = false ∧ ¬ Variable a.obj := by
    intro m s a hs ha hk hn
    constructor
    · rw [Bool.eq_false_iff]
      intro hc
      exact hn (List.mem_map.mpr ⟨(s, a), List.mem_filter.mpr ⟨mem_keptAttrs hs ha hk, by simp [hc]⟩, rfl⟩)
    · intro hv
      exact hn (List.mem_map.mpr ⟨(s, a), List.mem_filter.mpr ⟨mem_keptAttrs hs ha hk, by simp [isVariable_iff.mpr hv]⟩, rfl⟩)
  refine ⟨?_, ?_, ?_, ?_, ?_, ?_⟩
  · intro id m hg s hs a ha hk
    exact (hm id m hg).1.1.1 _ (mem_keptAttrs hs ha hk)
  · intro id m hg s hs t ht he a b ha hb hk hk' hv
    have := (hm id m hg).1.1.2 s (hvar hs ha hk hv)
    rcases he with rfl | rfl
    · exact hdef ht hb hk' this.1
    · exact hdef ht hb hk' this.2
  · intro id m hg s hs ht a b ha hb hk hk' hc
    rcases (hm id m hg).1.2 _ (mem_keptAttrs hs ha hk) with h | h
    · rw [hc] at h; cases h
    · exact hdef ht hb hk' h.1.1
  · intro id m n hg hn s hs a ha hk hc hb
    rcases (hm id m hg).1.2 _ (mem_keptAttrs hs ha hk) with h | h
    · rw [hc] at h; cases h
    · have := h.2
      rw [hn] at this
      simp [below_check hb] at this
  · intro id m n hg hn s hs a ha hk hb
    have := (hm id m hg).2 _ (mem_keptAttrs hs ha hk)
    rw [hn] at this
    simpa [below_check hb, and_assoc] using this
  · intro id m hg s hs a ha hk hc
    rcases (hm id m hg).1.2 _ (mem_keptAttrs hs ha hk) with h | h
    · rw [hc] at h; cases h
    · exact cleanClass_of_check h.1.2

/-- The package `pkg` with a submodule `a`, which is also an attribute, a class `K`, functions `run` and `call`, a value `size` and
a list `__all__`. -/
def exTidyWorld : World where
  mods := [
    { name := some c!"pkg", isPackage := true, iterModules := some [c!"a"], dir := [c!"a", c!"K", c!"run", c!"call", c!"size"],
      all := some [c!"K", c!"run"],
      attrs := [(c!"a", { obj := { exModObj with dunderName := some c!"pkg.a" }, mod := some 1 }),
        (c!"K", { obj := exClsObj c!"pkg", cls := exCleanClass }),
        (c!"run", { obj := exFnObj c!"pkg" }), (c!"call", { obj := exFnObj c!"pkg" }), (c!"size", { obj := exIntObj })] },
    { name := some c!"pkg.a", dir := [c!"K"], attrs := [(c!"K", { obj := exClsObj c!"pkg.a" })] }]
  importMod s := if s = c!"pkg" then some 0 else if s = c!"pkg.a" then some 1 else none

theorem exTidyWorld_faithful : Faithful exEnv exTidyWorld := by
  refine faithful_of_check (by decide +kernel) fun s id h => ?_
  simp only [exTidyWorld] at h
  repeat' split at h
  all_goals first
    | (cases h; subst_vars; exact ⟨_, rfl, rfl⟩)
    | cases h

theorem exTidyWorld_unique : UniqueNames exTidyWorld := by
  rintro id id' n ⟨m, h1, h2⟩ ⟨m', h1', h2'⟩
  have hlt : ∀ {i : Nat} {x : PyMod}, exTidyWorld.get? i = some x → i < 2 := by
    intro i x h
    match i with
    | 0 | 1 => omega
    | k + 2 => cases h
  have a := hlt h1
  have b := hlt h1'
  have key : ∀ i < 2, ∀ j < 2, (exTidyWorld.get? i).bind PyMod.name = (exTidyWorld.get? j).bind PyMod.name → i = j := by
    decide
  refine key id a id' b ?_
  rw [h1, h1']
  simp [h2, h2']

/-- The names that the items of the generated module at this place define. -/
def exNamesAt : List Str → List Item → List (List Str × List Str)
  | [], items => [(items.flatMap typeNames, items.flatMap valueNames)]
  | n :: ns, items => items.flatMap fun (x : Item) => match x with
    | .mod _ _ m is => if m = n then exNamesAt ns is else []
    | _ => []

/-- The names in the module `pkg` of the bindings of `pkg`. -/
def exPkgNames (W : World) : Res (List (List Str × List Str)) :=
  ((Codegen.new {}).moduleNames exEnv W 5 [c!"pkg"] >>= fun c => c.generate exEnv W 5).map (exNamesAt [c!"pkg"])

/-- The hypotheses of `C50_scopes_partial`. -/
example : Faithful exEnv exTidyWorld ∧ UniqueNames exTidyWorld ∧ Collisionless exEnv {} exTidyWorld ∧
    exPkgNames exTidyWorld = .ok [([c!"call1", c!"K", c!"KMethods", c!"a"], [c!"K", c!"run", c!"call", c!"size", c!"set_size"])] :=
  ⟨exTidyWorld_faithful, exTidyWorld_unique, collisionless_of_check (by decide +kernel), by decide +kernel⟩

/-- The module `pkg` with a variable `size` beside a function `set_size`, a class `K` beside a function `KMethods`, and `_`. -/
def exBusyWorld : World where
  mods := [
    { name := some c!"pkg", dir := [c!"size", c!"set_size", c!"K", c!"KMethods", c!"_"],
      attrs := [(c!"size", { obj := exIntObj }), (c!"set_size", { obj := exFnObj c!"pkg" }),
        (c!"K", { obj := exClsObj c!"pkg", cls := exBusyClass }), (c!"KMethods", { obj := exFnObj c!"pkg" }),
        (c!"_", { obj := exIntObj })] }]
  importMod s := if s = c!"pkg" then some 0 else none

/-- Names that resemble accessors and traits without clashing are allowed by `Collisionless`. -/
example : Faithful exEnv exBusyWorld ∧ UniqueNames exBusyWorld ∧ Collisionless exEnv {} exBusyWorld ∧
    exPkgNames exBusyWorld = .ok [([c!"K", c!"KMethods"], [c!"K", c!"set_size", c!"KMethods", c!"size"])] := by
  refine ⟨faithful_of_check (by decide +kernel) fun s id h => ?_, ?_, collisionless_of_check (by decide +kernel), by decide +kernel⟩
  · simp only [exBusyWorld] at h
    split at h
    · cases h; subst_vars; exact ⟨_, rfl, rfl⟩
    · cases h
  · rintro id id' n ⟨m, h1, h2⟩ ⟨m', h1', h2'⟩
    have hlt : ∀ {i : Nat} {x : PyMod}, exBusyWorld.get? i = some x → i = 0 := by
      intro i x h
      match i with
      | 0 => rfl
      | k + 1 => cases h
    rw [hlt h1, hlt h1']

/-- The module `pkg` with a variable `x` beside a class `set_x`. -/
def exSetClashWorld : World where
  mods := [
    { name := some c!"pkg", dir := [c!"x", c!"set_x"], attrs := [(c!"x", { obj := exIntObj }), (c!"set_x", { obj := exClsObj c!"pkg" })] }]
  importMod s := if s = c!"pkg" then some 0 else none

/-- **C50** fails if a class is called like the setter of a variable. -/
theorem C50_setter_counterexample :
    exPkgNames exSetClashWorld = .ok [([c!"set_x", c!"set_xMethods"], [c!"set_x", c!"x", c!"set_x"])] := by decide +kernel

/-- **C50** fails if a class hides a submodule of the same name: the bindings define the struct `a` and the module `a`. -/
theorem C50_shadow_counterexample : exPkgNames exClashWorld = .ok [([c!"a", c!"aMethods", c!"a"], [c!"a"])] := by decide +kernel

/-- Classes `A` and `AMethods`. -/
def exTraitWorld : World where
  mods := [
    { name := some c!"pkg", dir := [c!"A", c!"AMethods"],
      attrs := [(c!"A", { obj := exClsObj c!"pkg" }), (c!"AMethods", { obj := exClsObj c!"pkg" })] }]
  importMod s := if s = c!"pkg" then some 0 else none

/-- **C50** fails if a class is called like the trait of another. -/
theorem C50_trait_counterexample :
    exPkgNames exTraitWorld = .ok [([c!"A", c!"AMethods", c!"AMethods", c!"AMethodsMethods"], [c!"A", c!"AMethods"])] := by
  decide +kernel

end Bindgen
