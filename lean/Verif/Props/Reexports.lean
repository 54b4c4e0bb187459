import Verif.Props.Types
/-!
# Re-exports in the output (C06)
-/
namespace Bindgen
open Spec

/-- A module below a top-level one, or an item other than an import, has this full name. -/
def Spec.Present (mods : List Module) (p : Path) : Prop :=
  ∃ m, InTree m mods ∧ ((∃ s ∈ m.submodules, s.name = p) ∨ (∃ c ∈ m.classes, c.name = p) ∨ (∃ f ∈ m.functions, f.name = p) ∨
    (∃ t ∈ m.typeVars, t.name = p) ∨ ∃ q ∈ m.properties, q.name = p)

theorem nameExists_iff {p : Path} : ∀ l : List Module, nameExists p l = true ↔ ∃ s ∈ l, s.name = p
  | [] => by simp [nameExists]
  | m :: l => by simp [nameExists, nameExists_iff l]

theorem Spec.Present.mono {l l' : List Module} {p : Path} (h : ∀ m, InTree m l → InTree m l') (hp : Present l p) : Present l' p := by
  obtain ⟨m, hm, hp⟩ := hp
  exact ⟨m, h m hm, hp⟩

mutual
theorem pathExists_iff {p : Path} : ∀ m : Module, m.pathExists p = true ↔ Present [m] p
  | ⟨n, pr, im, subs, cs, ts, fs, ps, d, k, s⟩ => by
    rw [Module.pathExists]
    simp only [Bool.or_eq_true, List.any_eq_true, decide_eq_true_eq, nameExists_iff, pathExistsList_iff subs]
    constructor
    · rintro (((((h | h) | h) | h) | h) | h)
      · exact ⟨_, .top (List.mem_singleton.mpr rfl), Or.inl h⟩
      · exact ⟨_, .top (List.mem_singleton.mpr rfl), Or.inr (Or.inl h)⟩
      · exact ⟨_, .top (List.mem_singleton.mpr rfl), Or.inr (Or.inr (Or.inl h))⟩
      · exact ⟨_, .top (List.mem_singleton.mpr rfl), Or.inr (Or.inr (Or.inr (Or.inl h)))⟩
      · exact ⟨_, .top (List.mem_singleton.mpr rfl), Or.inr (Or.inr (Or.inr (Or.inr h)))⟩
      · exact h.mono fun m hm => .sub (List.mem_singleton.mpr rfl) hm
    · rintro ⟨m, hm, h⟩
      cases hm with
      | top hm =>
        rw [List.mem_singleton] at hm
        subst hm
        rcases h with h | h | h | h | h
        · exact Or.inl (Or.inl (Or.inl (Or.inl (Or.inl h))))
        · exact Or.inl (Or.inl (Or.inl (Or.inl (Or.inr h))))
        · exact Or.inl (Or.inl (Or.inl (Or.inr h)))
        · exact Or.inl (Or.inl (Or.inr h))
        · exact Or.inl (Or.inr h)
      | sub hm hs =>
        rw [List.mem_singleton] at hm
        subst hm
        exact Or.inr ⟨m, hs, h⟩
theorem pathExistsList_iff {p : Path} : ∀ l : List Module, pathExistsList p l = true ↔ Present l p
  | [] => by
    simp only [pathExistsList, Bool.false_eq_true, false_iff]
    rintro ⟨m, hm, -⟩
    cases hm with
    | top h => cases h
    | sub h => cases h
  | m :: l => by
    rw [pathExistsList, Bool.or_eq_true, pathExists_iff m, pathExistsList_iff l]
    constructor
    · rintro (h | h)
      · refine h.mono fun x hx => ?_
        cases hx with
        | top hx => exact .top (by rw [List.mem_singleton] at hx; simp [hx])
        | sub hx hs => exact .sub (by rw [List.mem_singleton] at hx; simp [hx]) hs
      · refine h.mono fun x hx => ?_
        cases hx with
        | top hx => exact .top (List.mem_cons_of_mem _ hx)
        | sub hx hs => exact .sub (List.mem_cons_of_mem _ hx) hs
    · rintro ⟨x, hx, h⟩
      cases hx with
      | top hx =>
        rcases List.mem_cons.mp hx with rfl | hx
        · exact Or.inl ⟨_, .top (by simp), h⟩
        · exact Or.inr ⟨_, .top hx, h⟩
      | sub hx hs =>
        rcases List.mem_cons.mp hx with rfl | hx
        · exact Or.inl ⟨_, .sub (List.mem_singleton.mpr rfl) hs, h⟩
        · exact Or.inr ⟨_, .sub hx hs, h⟩
end

/-- Names in a faithful forest are made of identifiers. -/
theorem present_idents {E : Env} {W : World} (hF : Faithful E W) {fuel : Nat} {c : Codegen} {out : List Module}
    (h : c.prepare E W fuel = .ok out) (hp : ∀ m ∈ c.modules, Parsed E c.cfg W m) {p : Path} (hpr : Present out p) :
    p.leadingColon = false ∧ p.segs ≠ [] ∧ ∀ i ∈ p.segs, ∃ t, PyIdent E t ∧ i = Ident.fromPy E t := by
  obtain ⟨m, hm, hpr⟩ := hpr
  obtain ⟨ns, hns⟩ := inTree_nodeAt hm
  obtain ⟨-, h1, h2, h3⟩ := prepared_placed hF h hp hns
  have key : ∀ x : SItem, Has m x → (∀ i, x ≠ .prelude i) → itemName x = p →
      p.leadingColon = false ∧ p.segs ≠ [] ∧ ∀ i ∈ p.segs, ∃ t, PyIdent E t ∧ i = Ident.fromPy E t := by
    rintro x hx hpre rfl
    obtain ⟨t, ht, he⟩ := prepared_itemName hF h hp hm hx hpre
    rw [he]
    refine ⟨h1, by simp, fun i hi => ?_⟩
    rcases mem_snoc.mp hi with hi | rfl
    · exact h3 i hi
    · exact ⟨t, ht, rfl⟩
  rcases hpr with ⟨s, hs, rfl⟩ | ⟨x, hx, he⟩ | ⟨x, hx, he⟩ | ⟨x, hx, he⟩ | ⟨x, hx, he⟩
  · obtain ⟨ns', hns'⟩ := inTree_nodeAt (inTree_sub hm s hs)
    exact (prepared_placed hF h hp hns').2
  · exact key (.class x) hx (fun _ => by simp) he
  · exact key (.function x) hx (fun _ => by simp) he
  · exact key (.typeVar x) hx (fun _ => by simp) he
  · exact key (.property x) hx (fun _ => by simp) he

theorem idents_plain {E : Env} {p : Path} (h : ∀ i ∈ p.segs, ∃ t, PyIdent E t ∧ i = Ident.fromPy E t) : Plain p := by
  intro i hi
  obtain ⟨t, ht, rfl⟩ := h i hi
  exact pyIdent_not_path ht

/-- What a re-export in a module of a faithful forest is. -/
theorem reexport_spec {E : Env} {M : Path} (hlc : M.leadingColon = false) (hne : M.segs ≠ []) {i : Import} {t : Str}
    (hti : PyIdent E t) (ht : i.target = ⟨M.leadingColon, M.segs ++ [Ident.fromPy E t]⟩) (hol : i.origin.leadingColon = false)
    (hon : i.origin.segs ≠ []) (hoi : ∀ j ∈ i.origin.segs, ∃ t, PyIdent E t ∧ j = Ident.fromPy E t) :
    ∃ rel, M.relativeTo i.origin true = .ok rel ∧
      resolve (M.segs.map Ident.rs) (rel.segs.map Ident.rs) = some (i.origin.segs.map Ident.rs) ∧
      (rel.synOk E = true → i.typ = .submoduleReexport → i.origin ≠ i.target → (Ident.fromPy E t).toSyn E ≠ none →
        ∃ a, Import.generate E i = .ok (some (.use rel a))) ∧
      ∀ rel' a, Import.generate E i = .ok (some (.use rel' a)) → rel' = rel ∧ boundName rel a = some (Ident.fromPy E t).rs := by
  obtain ⟨rel, hrel, -, hres⟩ := C05_relative_resolves M i.origin true hlc hol hon (idents_plain hoi)
  have hpar : (i.target.parent).getD Path.empty = M := by
    have hl : 0 < M.segs.length := List.length_pos_iff.mpr hne
    rw [ht, Path.parent, if_pos (by simp; omega)]
    cases M
    simp
  have hlast : i.target.name = .ok (Ident.fromPy E t) := name_ok (by rw [ht]; simp)
  obtain ⟨no, hno⟩ : ∃ n, i.origin.segs.getLast? = some n := ⟨_, List.getLast?_eq_some_getLast hon⟩
  refine ⟨rel, hrel, hres, ?_, ?_⟩
  · intro hok hty hot hsyn
    unfold Import.generate
    rw [if_neg (by simp [hty]), if_neg hot, hpar, hrel, Res.ok_bind, if_pos hok, name_ok hno, Res.ok_bind, hlast, Res.ok_bind]
    split
    · exact ⟨_, rfl⟩
    · cases hs : (Ident.fromPy E t).toSyn E with
      | none => exact absurd hs hsyn
      | some s => exact ⟨some s, by rw [Ident.trySyn, hs]; rfl⟩
  · intro rel' a h
    unfold Import.generate at h
    split at h
    · cases h
    · split at h
      · cases h
      · rw [hpar, hrel, Res.ok_bind] at h
        split at h
        · rw [name_ok hno, Res.ok_bind, hlast, Res.ok_bind] at h
          split at h
          · rename_i he
            cases h
            refine ⟨rfl, ?_⟩
            rw [boundName, relativeTo_last M i.origin hlc hol hon _ hrel, hno, he]
            rfl
          · obtain ⟨s, hs, h⟩ := Res.bind_ok h
            cases h
            refine ⟨rfl, ?_⟩
            unfold Ident.trySyn at hs
            cases hs' : (Ident.fromPy E t).toSyn E with
            | none => rw [hs'] at hs; cases hs
            | some s' =>
              rw [hs'] at hs
              cases hs
              rw [boundName, pyIdent_toSyn hti hs']
        · cases h

/-- **C06** in the output: in an interpreter that is faithful to its names, every `use` in the bindings belongs to an import of
the module it is in; it resolves there to the origin of the import, which is the name of an item or submodule of the prepared
forest, and it binds the name the import has in Python. -/
theorem C06_output (E : Env) (W : World) (hF : Faithful E W) (fuel : Nat) (cfg : Config) (srcs : List (Str × Str)) (c : Codegen)
    (hb : Built E W fuel cfg srcs c) (items : List Item) (h : c.generate E W fuel = .ok items) (idents : List Str)
    (content : List Item) (hch : ModChain items idents content) (rel : Path) (asName : Option Str)
    (hx : .use rel asName ∈ content) :
    ∃ out M i n, c.prepare E W fuel = .ok out ∧ InTree M out ∧ M.name.segs.map Ident.rs = idents ∧ i ∈ M.imports ∧
      Present out i.origin ∧ resolve idents (rel.segs.map Ident.rs) = some (i.origin.segs.map Ident.rs) ∧
      i.target.segs.map Ident.rs = idents ++ [n] ∧ boundName rel asName = some n := by
  obtain ⟨hcfg, -, hp⟩ := built_ok hb
  subst hcfg
  obtain ⟨out, h1, h2⟩ := generate_prepared h
  obtain ⟨ns, M, c0, mods, hM, hc0, rfl, hmods, -, hf⟩ := chain_node h2 hch
  obtain ⟨rfl, hlc, hne, hid⟩ := prepared_placed hF h1 hp hM
  rw [← prefixes_packages hlc hne] at hf
  have hidents := forall₂_rs hid (forall₂_lasts hf)
  obtain ⟨q⟩ := content_parts hc0
  have hx0 : .use rel asName ∈ c0 := by
    simp only [List.mem_append] at hx
    rcases hx with (hx | hx) | hx
    · exfalso
      unfold embedItems at hx
      split at hx <;> simp at hx
    · exact hx
    · obtain ⟨a, d, i, inner, h⟩ := hmods _ hx
      cases h
  cases content_from q hx0 with
  | use i _ _ _ him hex hg =>
    have hpr := (pathExistsList_iff out).mp hex
    obtain ⟨o1, o2, o3⟩ := present_idents hF h1 hp hpr
    obtain ⟨t, ht, he⟩ := prepared_itemName hF h1 hp (nodeAt_inTree hM) (x := .import i) him (fun _ => by simp)
    obtain ⟨rel', -, hres, -, hgen⟩ := reexport_spec hlc hne ht he o1 o2 o3
    obtain ⟨rfl, hbn⟩ := hgen rel asName hg
    refine ⟨out, M, i, (Ident.fromPy E t).rs, h1, nodeAt_inTree hM, hidents.symm, him, hpr, hidents ▸ hres, ?_, hbn⟩
    have he : i.target = _ := he
    rw [he, hidents]
    simp

/-- **C06** in the output, the converse: an import from below its own module whose origin is in the forest (and can be spelled
in Rust) is re-exported in the generated module. -/
theorem C06_present (E : Env) (W : World) (hF : Faithful E W) (fuel : Nat) (cfg : Config) (srcs : List (Str × Str)) (c : Codegen)
    (hb : Built E W fuel cfg srcs c) (hi : cfg.generateImports = true) (hs : cfg.traverseSubmodules = true) (items : List Item)
    (h : c.generate E W fuel = .ok items) (out : List Module) (ho : c.prepare E W fuel = .ok out) (M : Module) (hM : InTree M out)
    (i : Import) (him : i ∈ M.imports) (hty : i.typ = .submoduleReexport) (hne : i.origin ≠ i.target) (hpr : Present out i.origin)
    (hsp : ∀ j ∈ i.origin.segs ++ i.target.segs, j.toSyn E ≠ none) :
    ∃ content rel asName n, ModChain items (M.name.segs.map Ident.rs) content ∧ .use rel asName ∈ content ∧
      resolve (M.name.segs.map Ident.rs) (rel.segs.map Ident.rs) = some (i.origin.segs.map Ident.rs) ∧
      i.target.segs.getLast?.map Ident.rs = some n ∧ boundName rel asName = some n := by
  obtain ⟨hcfg, -, hp⟩ := built_ok hb
  subst hcfg
  obtain ⟨out', h1, h2⟩ := generate_prepared h
  rw [ho] at h1
  cases h1
  obtain ⟨ns, hns⟩ := inTree_nodeAt hM
  obtain ⟨hpl, hlc, hmne, hid⟩ := prepared_placed hF ho hp hns
  obtain ⟨is, c1, hch, ⟨c0, c3, hc0, rfl⟩, hf⟩ := generated_chain h2 hns (Or.inl hs)
  rw [hpl, ← prefixes_packages hlc hmne] at hf
  have his := forall₂_rs hid (forall₂_lasts hf)
  obtain ⟨o1, o2, o3⟩ := present_idents hF ho hp hpr
  obtain ⟨t, ht, he⟩ := prepared_itemName hF ho hp hM (x := .import i) him (fun _ => by simp)
  have he : i.target = _ := he
  obtain ⟨rel, hrel, hres, hgen, hgen'⟩ := reexport_spec hlc hmne ht he o1 o2 o3
  have hok : rel.synOk E = true := by
    unfold Path.synOk
    rw [Bool.and_eq_true, List.all_eq_true]
    constructor
    · have := relativeTo_last M.name i.origin hlc o1 o2 _ hrel
      cases hr : rel.segs with
      | nil =>
        rw [hr, List.getLast?_eq_some_getLast o2] at this
        cases this
      | cons a l => rfl
    · intro j hj
      unfold Path.synSegOk
      rcases relativeTo_mem _ _ _ _ hrel j hj with h | h | h
      · rw [h]; simp
      · rw [h]; simp
      · have := hsp j (List.mem_append_left _ h)
        cases hj : j.toSyn E with
        | none => exact absurd hj this
        | some s => rfl
  obtain ⟨a, ha⟩ := hgen hok hty hne (hsp _ (List.mem_append_right _ (by rw [he]; simp)))
  refine ⟨_, rel, a, (Ident.fromPy E t).rs, his ▸ hch, ?_, hres, by rw [he]; simp, (hgen' _ _ ha).2⟩
  obtain ⟨q⟩ := content_parts hc0
  have himp := q.importsOk
  rw [hi] at himp
  obtain ⟨o, hom, hog⟩ := traverse_mem' himp (List.mem_filter.mpr ⟨him, (pathExistsList_iff out).mpr hpr⟩)
  rw [ha] at hog
  cases hog
  simp only [List.mem_append]
  refine Or.inr (Or.inl ?_)
  rw [q.content]
  simp only [List.mem_append, List.mem_filterMap]
  exact Or.inl (Or.inl (Or.inl (Or.inl (Or.inl ⟨_, hom, rfl⟩))))

/-- The `use` items of the generated module at this place. -/
def exUsesAt : List Str → List Item → List (Path × Option Str)
  | [], items => items.filterMap fun (x : Item) => match x with
    | .use p a => some (p, a)
    | _ => none
  | n :: ns, items => items.flatMap fun (x : Item) => match x with
    | .mod _ _ m is => if m = n then exUsesAt ns is else []
    | _ => []

/-- The hypotheses of `C06_output` and `C06_present`: `pkg.a` has the class `X` from `pkg.a.c`. -/
example : Faithful exEnv exTwoTypesWorld ∧
    (((Codegen.new {}).moduleNames exEnv exTwoTypesWorld 5 [c!"pkg"] >>= fun c => c.generate exEnv exTwoTypesWorld 5).map
      (exUsesAt [c!"pkg", c!"a"])) = .ok [(⟨false, [⟨c!"self"⟩, ⟨c!"c"⟩, ⟨c!"X"⟩]⟩, none)] :=
  ⟨exTwoTypesWorld_faithful, by decide +kernel⟩

end Bindgen
