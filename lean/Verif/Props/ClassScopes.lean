import Verif.Spec.Scopes
import Verif.Props.Classes
/-!
# C50: the methods of a class
-/
namespace Bindgen
open Spec

/-- Outputs of a traversal have different names if the names tell the inputs apart. -/
theorem nodup_traverse {α β κ ν : Type} {g : α → Res β} {l : List α} {out : List β} (h : Res.traverse g l = .ok out) (key : α → κ)
    (nm : β → List ν) (R : α → ν → Prop) (hl : (l.map key).Nodup)
    (h1 : ∀ a ∈ l, ∀ b, g a = .ok b → (nm b).Nodup ∧ ∀ n ∈ nm b, R a n)
    (h2 : ∀ a ∈ l, ∀ b ∈ l, ∀ n, R a n → R b n → key a = key b) :
    (out.flatMap nm).Nodup ∧ ∀ n ∈ out.flatMap nm, ∃ a ∈ l, R a n := by
  induction l generalizing out with
  | nil => cases h; simp
  | cons a l ih =>
    obtain ⟨b, hb, h⟩ := Res.bind_ok h
    obtain ⟨bs, hbs, h⟩ := Res.bind_ok h
    cases h
    rw [List.map_cons, List.nodup_cons] at hl
    obtain ⟨i1, i2⟩ := ih hbs hl.2 (fun x hx => h1 x (by simp [hx])) (fun x hx y hy => h2 x (by simp [hx]) y (by simp [hy]))
    obtain ⟨j1, j2⟩ := h1 a (by simp) b hb
    rw [List.flatMap_cons]
    refine ⟨List.nodup_append.mpr ⟨j1, i1, ?_⟩, ?_⟩
    · rintro n hn m hm rfl
      obtain ⟨x, hx, hr⟩ := i2 n hm
      exact hl.1 (List.mem_map.mpr ⟨x, hx, h2 x (by simp [hx]) a (by simp) n hr (j2 n hn)⟩)
    · intro n hn
      rcases List.mem_append.mp hn with hn | hn
      · exact ⟨a, by simp, j2 n hn⟩
      · obtain ⟨x, hx, hr⟩ := i2 n hn
        exact ⟨x, by simp [hx], hr⟩

theorem classCandidates_nodup (E : Env) (cfg : Config) (pc : PyClass) : ((Class.candidates E cfg pc).map Prod.fst).Nodup := by
  have key : ∀ l : List Ident, ∀ f : Ident → Option (Ident × PyObj), (∀ i x, f i = some x → x.1 = i) →
      ((l.filterMap f).map Prod.fst).Sublist l := by
    intro l f hf
    induction l with
    | nil => exact List.Sublist.refl _
    | cons i l ih =>
      cases hfi : f i with
      | none => rw [List.filterMap_cons_none hfi]; exact ih.cons _
      | some x =>
        rw [List.filterMap_cons_some hfi, List.map_cons, hf i x hfi]
        exact ih.cons_cons _
  refine List.Sublist.nodup (key _ _ ?_) (unique_nodup (pc.dir.map (Ident.fromPy E)))
  intro i x h
  cases hg : pc.getattr i.asPy with
  | none => rw [hg] at h; cases h
  | some a =>
    rw [hg] at h
    simp only at h
    split at h
    · cases h; rfl
    · cases h

/-- The members of a class have different names. -/
theorem class_names {E : Env} {cfg : Config} {pc : PyClass} {name : Path} {c : Class}
    (h : Class.parse E cfg pc name = .ok c) : (c.methods.map Function.name).Nodup ∧ (c.properties.map Property.name).Nodup := by
  unfold Class.parse at h
  obtain ⟨_, -, h⟩ := Res.bind_ok h
  obtain ⟨⟨ms, ps⟩, h1, h⟩ := Res.bind_ok h
  obtain ⟨doc, -, h⟩ := Res.bind_ok h
  cases h
  have key : ∀ (l : List (Ident × PyObj)) (acc r : List Function × List Property), foldRes (Class.step E name) acc l = .ok r →
      ∃ a b : List (Ident × PyObj), a.Sublist l ∧ b.Sublist l ∧ r.1.map Function.name = acc.1.map Function.name ++ a.map (fun x => fullName name x.1) ∧
        r.2.map Property.name = acc.2.map Property.name ++ b.map (fun x => fullName name x.1) := by
    intro l
    induction l with
    | nil => intro acc r hr; cases hr; exact ⟨[], [], .slnil, .slnil, by simp, by simp⟩
    | cons x l ih =>
      intro acc r hr
      rw [foldRes] at hr
      obtain ⟨b, hb, hr⟩ := Res.bind_ok hr
      obtain ⟨u, v, hu, hv, e1, e2⟩ := ih b r hr
      unfold Class.step at hb
      obtain ⟨t, -, hb⟩ := Res.bind_ok hb
      have hskip : b = acc → ∃ a b : List (Ident × PyObj), a.Sublist (x :: l) ∧ b.Sublist (x :: l) ∧
          r.1.map Function.name = acc.1.map Function.name ++ a.map (fun x => fullName name x.1) ∧
          r.2.map Property.name = acc.2.map Property.name ++ b.map (fun x => fullName name x.1) := by
        rintro rfl
        exact ⟨u, v, hu.cons _, hv.cons _, e1, e2⟩
      have hmeth : (∃ f, Function.parse E x.2.fn (name.join (Path.ofIdent x.1)) (.method name (methodTypeOf x.1)) = .ok f ∧
          b = (acc.1 ++ [f], acc.2)) → ∃ a b : List (Ident × PyObj), a.Sublist (x :: l) ∧ b.Sublist (x :: l) ∧
          r.1.map Function.name = acc.1.map Function.name ++ a.map (fun x => fullName name x.1) ∧
          r.2.map Property.name = acc.2.map Property.name ++ b.map (fun x => fullName name x.1) := by
        rintro ⟨f, hf, rfl⟩
        refine ⟨x :: u, v, hu.cons_cons _, hv.cons _, ?_, e2⟩
        rw [e1]
        simp [function_parse_name hf, fullName]
      cases t with
      | function =>
        obtain ⟨f, hf, hb⟩ := Res.bind_ok hb
        cases hb
        exact hmeth ⟨f, hf, rfl⟩
      | method =>
        obtain ⟨f, hf, hb⟩ := Res.bind_ok hb
        cases hb
        exact hmeth ⟨f, hf, rfl⟩
      | property =>
        obtain ⟨p, hp, hb⟩ := Res.bind_ok hb
        cases hb
        refine ⟨u, x :: v, hu.cons _, hv.cons_cons _, e1, ?_⟩
        rw [e2]
        simp [(property_parse_name hp).1, fullName]
      | _ => cases hb; exact hskip rfl
  obtain ⟨a, b, ha, hb, e1, e2⟩ := key _ _ _ h1
  have hnd := classCandidates_nodup E cfg pc
  have inj : ∀ l : List (Ident × PyObj), l.Sublist (Class.candidates E cfg pc) → (l.map (fun x => fullName name x.1)).Nodup := by
    intro l hl
    have := (hl.map Prod.fst).nodup hnd
    have h2 := this.map (f := fullName name) fun i j h => fullName_inj h
    rw [List.map_map] at h2
    exact h2
  refine ⟨?_, ?_⟩
  · rw [e1]; simpa using inj a ha
  · rw [e2]; simpa using inj b hb

/-- The names in the trait and in the `impl` of an implementation. -/
def traitOf : FnImpl → List Sig
  | .func _ => []
  | .method s _ => s

/-- The associated functions of an implementation. -/
def inherentOf : FnImpl → List Fn
  | .func l => l
  | .method _ _ => []

theorem foldl_parts (l : List FnImpl) (a : ClassParts) :
    (l.foldl ClassParts.add a).traitSigs = a.traitSigs ++ l.flatMap traitOf ∧
      (l.foldl ClassParts.add a).inherent = a.inherent ++ l.flatMap inherentOf := by
  induction l generalizing a with
  | nil => simp
  | cons r l ih =>
    rw [List.foldl_cons, (ih _).1, (ih _).2]
    cases r <;> simp [ClassParts.add, traitOf, inherentOf]

theorem helper_ne (i j : Nat) : helperName c!"new" i ≠ helperName c!"call" j := by
  simp [helperName]

theorem accessorName_unique {D : Str → Prop} (hD : ∀ s, D s → ¬ D (c!"get_" ++ s) ∧ ¬ D (c!"set_" ++ s)) {a b x : Str}
    (ha : D a) (hb : D b) (h1 : accessorName a x) (h2 : accessorName b x) : a = b := by
  unfold accessorName at h1 h2
  rcases h1 with h | h | h <;> rcases h2 with h' | h' | h'
  · exact h.symm.trans h'
  · rw [h] at h'; subst h'; exact absurd ha (hD b hb).1
  · rw [h] at h'; subst h'; exact absurd ha (hD b hb).2
  · rw [h'] at h; subst h; exact absurd hb (hD a ha).1
  · rw [h] at h'; exact List.append_cancel_left h'
  · rw [h] at h'; simp at h'
  · rw [h'] at h; subst h; exact absurd hb (hD a ha).2
  · rw [h] at h'; simp at h'
  · rw [h] at h'; exact List.append_cancel_left h'

theorem fromPy_ident_inj {E : Env} {s t : Str} (hs : IsIdent E s) (ht : IsIdent E t) (h : Ident.fromPy E s = Ident.fromPy E t) : s = t := by
  rw [← asPy_ident hs, h, asPy_ident ht]

theorem unraw_helper {E : Env} {base : Str} (hb : IsIdent E base) (i : Nat) : unraw (helperName base i) = helperName base i :=
  (unraw_ident (helper_isIdent E hb i)).1

theorem pairwise_traitNames {E : Env} {cfg : Config} {imp : Str → Bool} {taken : List Ident} {lt : LocalTypes} {p : Property}
    {l : List (Option Fn)} {m : Str} (h : p.generate E cfg imp taken lt = .ok l) (hn : p.name.name = .ok (Ident.fromPy E m))
    (hm : IsIdent E m) : ((l.filterMap id).map fun fn => unraw fn.sig.name).Nodup := by
  obtain ⟨g, hg, h⟩ := accessors_of h
  rcases h with ⟨-, s, hs, rfl⟩ | ⟨-, rfl⟩
  · cases g with
    | none => cases s <;> simp
    | some g =>
      cases s with
      | none => simp
      | some s =>
        obtain ⟨name, ident, ty, obj, h1, h2, h3, h4, rfl⟩ := getter_fn hg
        obtain ⟨name', ident', pre, ty', obj', h1', h2', h3', h4', h5', rfl⟩ := setter_fn hs
        rw [hn] at h1 h1'
        cases h1; cases h1'
        obtain ⟨x, hx, hxi, -, hxs⟩ := getterIdent_name hm h2
        obtain ⟨hyi, -, hys⟩ := setterIdent_name hm h2'
        simp only [List.filterMap_cons_some (f := id) (a := some _) rfl, List.filterMap_nil, List.map_cons, List.map_nil,
          toSyn_unraw hxi hxs, toSyn_unraw hyi hys, List.nodup_cons, List.mem_singleton, List.not_mem_nil, not_false_eq_true,
          List.nodup_nil, and_true]
        rcases hx with rfl | rfl
        · intro hc
          have := congrArg List.length hc
          rw [List.length_append] at this
          simp only [List.length_cons, List.length_nil] at this
          omega
        · simp
  · cases g <;> simp

/-- What becomes a property or a type variable is a variable. -/
theorem determine_variable {E : Env} {o : PyObj} {p q : Path} {b : Bool} {v : Variant} (h : determine E o p q b = .ok v)
    (hv : v = .property ∨ v = .typeVar) : Variable o := by
  unfold determine at h
  obtain ⟨_, -, h⟩ := Res.bind_ok h
  obtain ⟨f, hf, h⟩ := Res.bind_ok h
  obtain ⟨g, hg, h⟩ := Res.bind_ok h
  have hf : o.isFunction = some f := by
    cases hx : o.isFunction with
    | none => rw [hx] at hf; cases hf
    | some x => rw [hx] at hf; cases hf; rfl
  have hg : o.isMethod = some g := by
    cases hx : o.isMethod with
    | none => rw [hx] at hg; cases hg
    | some x => rw [hx] at hg; cases hg; rfl
  have h := Except.ok.inj h
  unfold Variable
  rw [hf, hg]
  subst h
  split at hv
  · simp at hv
  · split at hv
    · simp at hv
    · split at hv
      · simp at hv
      · split at hv
        · simp at hv
        · split at hv
          · simp at hv
          · simp_all

theorem determine_property {E : Env} {o : PyObj} {p q : Path} {b : Bool} (h : determine E o p q b = .ok .property) : Variable o :=
  determine_variable h (Or.inl rfl)

theorem determine_class {E : Env} {o : PyObj} {p q : Path} {b : Bool} (h : determine E o p q b = .ok .class) : o.isClass = true := by
  unfold determine at h
  obtain ⟨_, -, h⟩ := Res.bind_ok h
  obtain ⟨f, -, h⟩ := Res.bind_ok h
  obtain ⟨g, -, h⟩ := Res.bind_ok h
  have h := Except.ok.inj h
  split at h
  · cases h
  · split at h
    · cases h
    · split at h
      · assumption
      · repeat' split at h
        all_goals cases h

/-- **C50** (classes): in what is emitted for a class, the trait declares no two methods of the same name (`r#` aside), and the
struct has no two associated functions of the same name. Missing: the clashes that `CleanClass` excludes, which the code does
not prevent (`C50_accessor_counterexample`, `C50_sanitized_counterexample`, `C50_call_counterexample`). -/
theorem C50_class_partial (E : Env) (cfg : Config) (imp : Str → Bool) (lt : LocalTypes) (pc : PyClass) (hpc : CleanClass E cfg pc)
    (name name' : Path) (c : Class) (h : Class.parse E cfg pc name = .ok c) (k : ClassItem)
    (hk : { c with name := name' }.generate E cfg imp lt = .ok (some k)) :
    (k.traitSigs.map fun s => unraw s.name).Nodup ∧ (k.inherent.map fun f => unraw f.sig.name).Nodup := by
  obtain ⟨-, hmeth, hprop, -⟩ := class_parse_exact h
  obtain ⟨hmn, hpn⟩ := class_names h
  obtain ⟨cn, ident, taken, impls, props, -, -, ht, hi, hp, -, -, -, hparts, -⟩ := class_generate hk
  have e1 := congrArg ClassParts.traitSigs hparts
  have e2 := congrArg ClassParts.inherent hparts
  rw [(foldl_parts _ _).1] at e1
  rw [(foldl_parts _ _).2] at e2
  simp only [List.nil_append, List.flatMap_append] at e1 e2
  have hm' : ∀ f ∈ c.methods, ∃ s ∈ pc.dir, IsIdent E s ∧ s ∉ unspellable ∧ f.name = fullName name (Ident.fromPy E s) ∧
      f.name.name = .ok (Ident.fromPy E s) ∧
      ((s = c!"__init__" ∧ f.typ = .method name .constructor) ∨ (s = c!"__call__" ∧ f.typ = .method name .callable) ∨
        ownName f.typ = true) := by
    intro f hf
    obtain ⟨⟨i, o⟩, hx, -, hf⟩ := (hmeth f).mp hf
    obtain ⟨⟨s, hs, rfl⟩, hget, hkept⟩ := mem_candidates_iff.mp hx
    obtain ⟨a1, a2, a3⟩ := parse_special hf
    obtain ⟨b1, b2, b3⟩ := methodTypeOf_iff (Ident.fromPy E s)
    have hid := hpc.idents s hs
    rw [asPy_ident hid] at b1 b2 hget hkept
    have hus : s ∉ unspellable := by
      rcases hkept with h | rfl | rfl
      · exact hpc.names s hs o hget h
      · decide
      · decide
    refine ⟨s, hs, hid, hus, a1, by rw [a1]; exact name_ok last_join, ?_⟩
    rcases b3 with b3 | b3 | b3
    · exact Or.inl ⟨b1.mp b3, by rw [a2 (Or.inl b3), b3]⟩
    · exact Or.inr (Or.inl ⟨b2.mp b3, by rw [a2 (Or.inr b3), b3]⟩)
    · refine Or.inr (Or.inr ?_)
      have := a3 b3
      unfold ownName
      split
      · exact absurd (by assumption) (this _).1
      · exact absurd (by assumption) (this _).2
      · rfl
  let D : Str → Prop := fun s => s ∈ pc.dir ∧ ∃ o, pc.getattr s = some o ∧ Variable o
  have hD : ∀ s, D s → ¬ D (c!"get_" ++ s) ∧ ¬ D (c!"set_" ++ s) := by
    rintro s ⟨hs, o, ho, hv⟩
    refine ⟨?_, ?_⟩
    · rintro ⟨ht, o', ho', hv'⟩
      exact hpc.accessors s hs _ ht (Or.inl rfl) o o' ho ho' ⟨hv, hv'⟩
    · rintro ⟨ht, o', ho', hv'⟩
      exact hpc.accessors s hs _ ht (Or.inr rfl) o o' ho ho' ⟨hv, hv'⟩
  have hp' : ∀ p ∈ c.properties, ∃ s, D s ∧ IsIdent E s ∧ p.name = fullName name (Ident.fromPy E s) ∧
      p.name.name = .ok (Ident.fromPy E s) := by
    intro p hp
    obtain ⟨⟨i, o⟩, hx, hdet, hf⟩ := (hprop p).mp hp
    obtain ⟨⟨s, hs, rfl⟩, hget, -⟩ := mem_candidates_iff.mp hx
    rw [asPy_ident (hpc.idents s hs)] at hget
    exact ⟨s, ⟨hs, o, hget, determine_property hdet⟩, hpc.idents s hs, (property_parse_name hf).1, by rw [(property_parse_name hf).1]; exact name_ok last_join⟩
  have htk : ∀ f ∈ c.methods, ∀ i, f.name.name = .ok i → i ∈ taken := by
    intro f hf i hfi
    obtain ⟨b, hb, hbi⟩ := traverse_mem' ht hf
    rw [hfi] at hbi
    cases hbi
    exact hb
  -- what a method is called
  let R : Function → Str → Prop := fun f n =>
    (f.typ = .method name .constructor ∧ (∃ i, n = helperName c!"new" i ∧ Ident.fromPy E n ∉ taken)) ∨
    (f.typ = .method name .callable ∧ (∃ i, n = helperName c!"call" i ∧ Ident.fromPy E n ∉ taken ∧
      ∀ j < i, Ident.fromPy E (helperName c!"call" j) ∈ taken)) ∨
    (ownName f.typ = true ∧ IsIdent E n ∧ f.name.name = .ok (Ident.fromPy E n))
  have hR : ∀ f ∈ c.methods, ∀ r, f.generate E cfg imp taken lt = .ok r → ∀ fn ∈ fnsOf r, R f (unraw fn.sig.name) := by
    intro f hf r hr fn hfn
    obtain ⟨s, hs, hid, hus, -, hnm, hk⟩ := hm' f hf
    rcases hk with ⟨-, hk⟩ | ⟨-, hk⟩ | hk
    · obtain ⟨i, n1, n2, -⟩ := C28_helper_names hr hfn (Or.inl ⟨hk, rfl⟩)
      rw [n1, unraw_helper (newCall_isIdent E).1]
      exact Or.inl ⟨hk, i, rfl, n2⟩
    · obtain ⟨i, n1, n2, n3⟩ := C28_helper_names hr hfn (Or.inr ⟨hk, rfl⟩)
      rw [n1, unraw_helper (newCall_isIdent E).2]
      exact Or.inr (Or.inl ⟨hk, i, rfl, n2, n3⟩)
    · have := toSyn_unraw hid (function_name hr hfn hnm hid hus hk)
      rw [this]
      exact Or.inr (Or.inr ⟨hk, hid, hnm⟩)
  have hsame : ∀ f ∈ c.methods, ∀ g ∈ c.methods, ∀ n, R f n → R g n → f.name = g.name := by
    intro f hf g hg n h1 h2
    obtain ⟨s, hs, hid, -, hfn, hnm, hk⟩ := hm' f hf
    obtain ⟨t, ht', hid', -, hgn, hnm', hk'⟩ := hm' g hg
    have own : ∀ {x y : Function}, y ∈ c.methods → (∃ m, n = m ∧ Ident.fromPy E m ∉ taken) → IsIdent E n → y.name.name = .ok (Ident.fromPy E n) → False := by
      rintro x y hy ⟨m, rfl, hm⟩ - hyn
      exact hm (htk y hy _ hyn)
    rcases h1 with ⟨k1, i, rfl, n1⟩ | ⟨k1, i, rfl, n1, -⟩ | ⟨k1, n1, n2⟩
    · rcases h2 with ⟨k2, -⟩ | ⟨k2, j, e, -⟩ | ⟨k2, -, n3⟩
      · rcases hk with ⟨rfl, -⟩ | ⟨-, hk⟩ | hk
        · rcases hk' with ⟨rfl, -⟩ | ⟨-, hk'⟩ | hk'
          · rw [hfn, hgn]
          · rw [hk'] at k2; cases k2
          · rw [k2] at hk'; cases hk'
        · rw [hk] at k1; cases k1
        · rw [k1] at hk; cases hk
      · exact absurd e (helper_ne _ _)
      · exact absurd (htk g hg _ n3) n1
    · rcases h2 with ⟨k2, j, e, -⟩ | ⟨k2, -⟩ | ⟨k2, -, n3⟩
      · exact absurd e.symm (helper_ne _ _)
      · rcases hk with ⟨-, hk⟩ | ⟨rfl, -⟩ | hk
        · rw [hk] at k1; cases k1
        · rcases hk' with ⟨-, hk'⟩ | ⟨rfl, -⟩ | hk'
          · rw [hk'] at k2; cases k2
          · rw [hfn, hgn]
          · rw [k2] at hk'; cases hk'
        · rw [k1] at hk; cases hk
      · exact absurd (htk g hg _ n3) n1
    · rcases h2 with ⟨k2, j, rfl, n3⟩ | ⟨k2, j, rfl, n3, -⟩ | ⟨k2, -, n3⟩
      · exact absurd (htk f hf _ n2) n3
      · exact absurd (htk f hf _ n2) n3
      · rw [hnm] at n2; rw [hnm'] at n3
        rw [hfn, hgn, Except.ok.inj (n2.trans n3.symm)]
  have hone : ∀ f ∈ c.methods, ∀ r, f.generate E cfg imp taken lt = .ok r →
      (fnsOf r).length ≤ 1 ∧ (∀ s ∈ traitOf r, ∃ fn ∈ fnsOf r, fn.sig = s ∧ s.recv = .self) ∧ (traitOf r).length ≤ 1 ∧
        ∀ fn ∈ inherentOf r, fn ∈ fnsOf r := by
    intro f hf r hr
    by_cases hnil : fnsOf r = []
    · have := function_matched hr
      cases r with
      | func l => exact ⟨by rw [hnil]; simp, by simp [traitOf], by simp [traitOf], by simp [inherentOf, fnsOf]⟩
      | method sg l =>
        have hl : l = [] := hnil
        have hsg : sg = l.map Fn.sig := this.1
        subst hl
        simp only [List.map_nil] at hsg
        subst hsg
        simp [fnsOf, traitOf, inherentOf]
    · obtain ⟨fn, hfn⟩ := List.exists_mem_of_ne_nil _ hnil
      obtain ⟨_, _, _, _, _, ret, sig, _, _, _, _, _, _, _, _, _, _, _, _, _, hfe, hre⟩ := generate_fn hr hfn
      by_cases hself : sig.recv = .self
      · rw [if_pos hself] at hre
        rw [hre]
        refine ⟨by simp [fnsOf], ?_, by simp [traitOf], by simp [inherentOf]⟩
        intro s hs
        cases List.mem_singleton.mp hs
        exact ⟨fn, by simp [fnsOf], by rw [hfe], hself⟩
      · rw [if_neg hself] at hre
        rw [hre]
        exact ⟨by simp [fnsOf], by simp [traitOf], by simp [traitOf], by simp [inherentOf, fnsOf]⟩
  have small : ∀ {α : Type} {l : List α}, l.length ≤ 1 → l.Nodup := by
    intro α l hl
    match l, hl with
    | [], _ => exact List.nodup_nil
    | [a], _ => simp
  have T := nodup_traverse hi Function.name (fun r => (traitOf r).map fun s => unraw s.name)
    (fun f n => R f n ∧ ¬ ∃ q, f.typ = .method q .constructor) hmn
    (fun f hf r hr => by
      obtain ⟨a1, a2, a3, -⟩ := hone f hf r hr
      refine ⟨small (by simpa using a3), ?_⟩
      intro n hn
      obtain ⟨sg, hsg, rfl⟩ := List.mem_map.mp hn
      obtain ⟨fn, hfn, rfl, hself⟩ := a2 sg hsg
      refine ⟨hR f hf r hr fn hfn, ?_⟩
      rintro ⟨q, hq⟩
      obtain ⟨_, _, _, _, _, ret, sig, _, _, _, _, _, _, _, _, _, h5, _, _, _, rfl, _⟩ := generate_fn hr hfn
      rw [hq] at h5
      simp only [Function.contract] at h5
      obtain ⟨_, -, h5⟩ := Res.bind_ok h5
      obtain ⟨_, -, h5⟩ := Res.bind_ok h5
      cases h5
      cases hself)
    (fun f hf g hg n h1 h2 => hsame f hf g hg n h1.1 h2.1)
  have I := nodup_traverse hi Function.name (fun r => (inherentOf r).map fun f => unraw f.sig.name) R hmn
    (fun f hf r hr => by
      obtain ⟨a1, -, -, a4⟩ := hone f hf r hr
      refine ⟨small ?_, ?_⟩
      · cases r with
        | func l => simpa [inherentOf, fnsOf] using a1
        | method _ _ => simp [inherentOf]
      · intro n hn
        obtain ⟨fn, hfn, rfl⟩ := List.mem_map.mp hn
        exact hR f hf r hr fn (a4 fn hfn)) hsame
  have P := nodup_traverse hp Property.name (fun l => (l.filterMap id).map fun fn => unraw fn.sig.name)
    (fun p n => ∃ s, D s ∧ p.name = fullName name (Ident.fromPy E s) ∧ accessorName s n ∧ IsIdent E n ∧
      nameTaken (taken ++ Class.extraIdents E { c with name := name' }) (Ident.fromPy E n) = false) hpn
    (fun p hpm l hl => by
      obtain ⟨s, hs, hid, hpn, hpnm⟩ := hp' p hpm
      refine ⟨pairwise_traitNames hl hpnm hid, ?_⟩
      intro n hn
      obtain ⟨fn, hfn, rfl⟩ := List.mem_map.mp hn
      have hfn : some fn ∈ l := by simpa using hfn
      obtain ⟨x, a1, a2, a3, a4⟩ := accessor_name hl hfn hpnm hid
      rw [toSyn_unraw a2 a4]
      exact ⟨s, hs, hpn, a1, a2, a3⟩)
    (fun p _ q _ n h1 h2 => by
      obtain ⟨s, hs, e1, a1, -⟩ := h1
      obtain ⟨t, ht, e2, a2, -⟩ := h2
      rw [e1, e2, accessorName_unique hD hs ht a1 a2])
  constructor
  · rw [e1, List.map_append, List.map_flatMap, List.map_flatMap, List.flatMap_map]
    have hP : ∀ l : List (Option Fn), (traitOf (propImpl l)).map (fun s => unraw s.name) =
        (l.filterMap id).map fun fn => unraw fn.sig.name := by
      intro l; simp [traitOf, propImpl]
    simp only [hP]
    refine List.nodup_append.mpr ⟨T.1, P.1, ?_⟩
    rintro n hn m hm rfl
    obtain ⟨f, hf, hr, hnc⟩ := T.2 n hn
    obtain ⟨p, hp, s, ⟨hs, o, hget, hv⟩, -, hacc, hid, htaken⟩ := P.2 n hm
    unfold nameTaken at htaken
    rw [Bool.or_eq_false_iff] at htaken
    have hnot : Ident.fromPy E n ∉ taken ++ Class.extraIdents E { c with name := name' } := by
      simpa using htaken.1
    rcases hr with ⟨k1, -⟩ | ⟨k1, i, rfl, -, hj⟩ | ⟨-, -, k1⟩
    · exact hnc ⟨_, k1⟩
    · have hi0 : i = 0 := by
        rcases Nat.eq_zero_or_pos i with h | h
        · exact h
        · exfalso
          obtain ⟨g, hg, hgn⟩ := traverse_mem ht (hj 0 h)
          obtain ⟨t, ht1, ht2, -, -, ht3, -⟩ := hm' g hg
          rw [hgn] at ht3
          have := fromPy_ident_inj (helper_isIdent E (newCall_isIdent E).2 0) ht2 (Except.ok.inj ht3)
          have hcall : t = c!"call" := by rw [← this]; rfl
          obtain ⟨u, hu1, hu2, -, -, -, hu3⟩ := hm' f hf
          rcases hu3 with ⟨-, hu3⟩ | ⟨rfl, -⟩ | hu3
          · rw [hu3] at k1; cases k1
          · have hn : helperName c!"call" i = c!"call" ++ Nat.toDigits 10 i := by
              unfold helperName
              rw [if_neg (by omega)]
            have hs' : s = c!"call" ++ Nat.toDigits 10 i := by
              rw [hn] at hacc
              rcases hacc with h | h | h
              · exact h.symm
              · simp at h
              · simp at h
            subst hs'
            have hdig : ∀ x ∈ Nat.toDigits 10 i, x.isDigit = true := fun x hx =>
              Nat.isDigit_of_mem_toDigits (by decide) (by decide) hx
            exact Nat.toDigits_ne_nil (hpc.call hu1 (hcall ▸ ht1) _ hs hdig o hget hv)
          · rw [k1] at hu3; cases hu3
      subst hi0
      refine hnot (List.mem_append_right _ ?_)
      unfold Class.extraIdents
      refine List.mem_append_right _ ?_
      have : c.methods.any (fun m => m.typ.isCallable) = true :=
        List.any_eq_true.mpr ⟨f, hf, by rw [k1]; rfl⟩
      rw [if_pos this]
      simp [helperName]
    · exact hnot (List.mem_append_left _ (htk f hf _ k1))
  · rw [e2, List.map_append, List.map_flatMap, List.map_flatMap, List.flatMap_map]
    have hP : ∀ l : List (Option Fn), (inherentOf (propImpl l)).map (fun f => unraw f.sig.name) = [] := fun l => rfl
    simp only [hP]
    have hz : ∀ l : List (List (Option Fn)), l.flatMap (fun _ => ([] : List Str)) = [] := by
      intro l; induction l <;> simp_all
    rw [hz, List.append_nil]
    exact I.1

/-- A property with a getter and a setter. -/
def exPropObj : PyObj where
  typeName := c!"property"
  typeModule := c!"builtins"
  fget := some ⟨some none, some c!"None"⟩
  fset := some ⟨some [none, none], some c!"None"⟩

/-- A class with a constructor, a call operator, a method `type` and a property `size`. -/
def exCleanClass : PyClass where
  dir := [c!"__init__", c!"__call__", c!"type", c!"new", c!"size"]
  attrs := [(c!"__init__", exFnObj c!"pkg"), (c!"__call__", exFnObj c!"pkg"), (c!"type", exFnObj c!"pkg"),
    (c!"new", exFnObj c!"pkg"), (c!"size", exPropObj)]

/-- The names in the trait and of the associated functions. -/
def exScope (pc : PyClass) : Res (Option (List Str × List Str)) :=
  (Class.parse exEnv {} pc (Path.fromPy exEnv c!"pkg.K") >>= fun c => c.generate exEnv {} (fun s => s = c!"pkg") []).map
    fun k => k.map fun k => (k.traitSigs.map Sig.name, k.inherent.map fun f => f.sig.name)

/-- `Variable`, computed. -/
def isVariable (o : PyObj) : Bool :=
  !o.isModule && !o.isClass && !o.isCFunction && o.isFunction != some true && o.isMethod != some true

theorem isVariable_iff {o : PyObj} : isVariable o = true ↔ Variable o := by
  simp [isVariable, Variable, and_assoc]

/-- `CleanClass`, computed. -/
def cleanClassCheck (E : Env) (cfg : Config) (pc : PyClass) : Bool :=
  let vars := pc.dir.filter fun s => (pc.getattr s).any isVariable
  pc.dir.all (fun s => isIdentText E s && (pc.getattr s).all fun o =>
    !cfg.isAttrAllowed (Ident.fromPy E s) (Path.fromPy E o.modPath) || !unspellable.contains s) &&
  vars.all (fun s => !vars.contains (c!"get_" ++ s) && !vars.contains (c!"set_" ++ s)) &&
  (!pc.dir.contains c!"__call__" || !pc.dir.contains c!"call" ||
    vars.all fun s => !(c!"call").isPrefixOf s || s == c!"call" || !(s.drop 4).all Char.isDigit)

theorem cleanClass_of_check {E : Env} {cfg : Config} {pc : PyClass} (h : cleanClassCheck E cfg pc = true) : CleanClass E cfg pc := by
  unfold cleanClassCheck at h
  simp only [Bool.and_eq_true, List.all_eq_true, Bool.not_eq_true', List.contains_eq_mem, decide_eq_false_iff_not] at h
  obtain ⟨⟨h1, h2⟩, h3⟩ := h
  have hv : ∀ s ∈ pc.dir, ∀ o, pc.getattr s = some o → Variable o → s ∈ pc.dir.filter fun s => (pc.getattr s).any isVariable := by
    intro s hs o ho hv
    refine List.mem_filter.mpr ⟨hs, ?_⟩
    rw [ho]
    exact isVariable_iff.mpr hv
  refine ⟨fun s hs => (isIdentText_iff E s).mp (h1 s hs).1, ?_, ?_, ?_⟩
  · intro s hs o ho hk
    have := (h1 s hs).2
    rw [ho] at this
    unfold Kept at hk
    simpa [hk] using this
  · rintro s hs t ht he o o' ho ho' ⟨v, v'⟩
    have := h2 s (hv s hs o ho v)
    rcases he with rfl | rfl
    · exact this.1 (hv _ ht o' ho' v')
    · exact this.2 (hv _ ht o' ho' v')
  · intro hc hc' t ht hd o ho v
    simp only [Bool.or_eq_true, Bool.not_eq_true', decide_eq_false_iff_not, hc, hc', not_true_eq_false, false_or,
      List.all_eq_true] at h3
    rcases h3 _ (hv _ ht o ho v) with (h | h) | h
    · simp at h
    · have := eq_of_beq h
      simpa using this
    · have : t.all Char.isDigit = false := h
      rw [List.all_eq_true.mpr hd] at this
      cases this

/-- A class with a constructor, a call operator beside a method `call`, a property `size` with a method `get_size`, and an
attribute `_`. -/
def exBusyClass : PyClass where
  dir := [c!"__call__", c!"call", c!"size", c!"get_size", c!"_"]
  attrs := [(c!"__call__", exFnObj c!"pkg"), (c!"call", exFnObj c!"pkg"), (c!"size", exPropObj), (c!"get_size", exFnObj c!"pkg"),
    (c!"_", exPropObj)]

/-- The hypotheses of `C50_class_partial`. -/
example : CleanClass exEnv {} exCleanClass ∧ exScope exCleanClass =
    .ok (some ([c!"call", c!"size", c!"set_size"], [c!"new1", c!"r#type", c!"new"])) :=
  ⟨cleanClass_of_check (by decide +kernel), by decide +kernel⟩

example : CleanClass exEnv {} exBusyClass ∧ exScope exBusyClass =
    .ok (some ([c!"call1", c!"size", c!"set_size"], [c!"call", c!"get_size"])) :=
  ⟨cleanClass_of_check (by decide +kernel), by decide +kernel⟩

/-- **C50** fails for properties `x` and `set_x`: the setter of one has the name of the getter of the other. -/
theorem C50_accessor_counterexample :
    exScope { dir := [c!"x", c!"set_x"], attrs := [(c!"x", exPropObj), (c!"set_x", exPropObj)] } =
      .ok (some ([c!"x", c!"set_x", c!"set_x", c!"set_set_x"], [])) := by decide +kernel

/-- **C50** fails for methods `crate` and `f_crate`, of which the first is renamed to the second. -/
theorem C50_sanitized_counterexample :
    exScope { dir := [c!"crate", c!"f_crate"], attrs := [(c!"crate", exFnObj c!"pkg"), (c!"f_crate", exFnObj c!"pkg")] } =
      .ok (some ([], [c!"f_crate", c!"f_crate"])) := by decide +kernel

/-- **C50** fails for a class with a method `call`, a property `call1` and a call operator, which is called `call1` as well. -/
theorem C50_call_counterexample :
    exScope { dir := [c!"__call__", c!"call", c!"call1"], attrs := [(c!"__call__", exFnObj c!"pkg"), (c!"call", exFnObj c!"pkg"), (c!"call1", exPropObj)] } =
      .ok (some ([c!"call1", c!"call1", c!"set_call1"], [c!"call"])) := by decide +kernel

end Bindgen
