import Verif.Spec.Faithful
import Verif.Props.Submodules
import Verif.Props.Output
/-! # Modules of faithful interpreters stand where their names say -/
namespace Bindgen
open Spec

theorem join_snoc (segs : List Str) (s : Str) (hne : segs ≠ []) :
    Str.join c!"." (segs ++ [s]) = Str.join c!"." segs ++ '.' :: s := by
  induction segs with
  | nil => exact absurd rfl hne
  | cons a l ih =>
    cases l with
    | nil => simp [Str.join]
    | cons b l =>
      have := ih (by simp)
      simp only [List.cons_append] at this ⊢
      rw [Str.join, this, Str.join]
      simp

/-- The name of a parsed module, by segments. -/
theorem faithful_name {E : Env} {W : World} (hF : Faithful E W) {id : Nat} {pm : PyMod} {n : Str} (hg : W.get? id = some pm)
    (hn : pm.name = some n) : ∃ segs : List Str, segs ≠ [] ∧ (∀ s ∈ segs, PyIdent E s) ∧ n = Str.join c!"." segs ∧
      Path.fromPy E n = ⟨false, segs.map (Ident.fromPy E)⟩ := by
  obtain ⟨segs, h1, h2, rfl⟩ := hF.names id pm n hg hn
  refine ⟨segs, h1, h2, rfl, ?_⟩
  simpa [dotted] using fromPy_dotted E 0 h1 fun s hs => (h2 s hs).1

theorem faithful_toPy (E : Env) {segs : List Str} (hne : segs ≠ []) (h : ∀ s ∈ segs, PyIdent E s) :
    Path.toPy ⟨false, segs.map (Ident.fromPy E)⟩ = Str.join c!"." segs := by
  have h1 := toPy_fromPy E 0 hne fun s hs => (h s hs).1
  have h2 := fromPy_dotted E 0 hne fun s hs => (h s hs).1
  rw [h2] at h1
  simpa [dotted] using h1

theorem determine_module_here {E : Env} {o : PyObj} {p q : Path} (h : determine E o p q true = .ok .module) :
    Str.containsSub c!"<locals>" o.repr = true ∨ p = q := by
  unfold determine at h
  obtain ⟨_, -, h⟩ := Res.bind_ok h
  obtain ⟨f, -, h⟩ := Res.bind_ok h
  obtain ⟨g, -, h⟩ := Res.bind_ok h
  have h := Except.ok.inj h
  split at h
  · cases h
  · rename_i hi
    split at h
    · rename_i hm
      simp only [hm, Bool.true_or, Bool.and_true, Bool.true_and, Bool.and_eq_true, Bool.not_eq_true', decide_eq_true_eq,
        not_and_or, Bool.not_eq_false, Decidable.not_not] at hi
      exact hi
    · repeat' split at h
      all_goals cases h

/-- What a faithful interpreter loads as a submodule is called after the module. -/
theorem faithful_called {E : Env} {cfg : Config} {W : World} (hF : Faithful E W) {id : Nat} {pm : PyMod} {n : Str} {subs : List Ident}
    {st : ParseState} (hg : W.get? id = some pm) (hn : pm.name = some n)
    (he : ifOn pm.isPackage (extractSubmodules E cfg pm (Path.fromPy E n)) [] = .ok subs)
    (hst : foldRes (moduleStep E cfg (Path.fromPy E n)) { subs := subs } (moduleCandidates E cfg pm) = .ok st)
    {i : Ident} (hi : i ∈ st.subs) : ∃ t, PyIdent E t ∧ i = Ident.fromPy E t ∧
      (child (Path.fromPy E n) i).toPy = n ++ '.' :: t ∧
      ∀ id', submoduleId W pm (Path.fromPy E n) i = some id' → Called W id' (n ++ '.' :: t) := by
  obtain ⟨segs, h1, h2, h3, h4⟩ := faithful_name hF hg hn
  have hsi : ∃ t, PyIdent E t ∧ i = Ident.fromPy E t := by
    rcases attributes_st_subs he hst hi with ⟨-, ⟨l, hl, t, ht, rfl⟩, -⟩ | ⟨t, ht, a, rfl, -⟩
    · exact ⟨t, hF.listed _ _ _ hg hl t ht, rfl⟩
    · exact ⟨t, hF.attrs _ _ hg t ht, rfl⟩
  obtain ⟨t, ht, rfl⟩ := hsi
  have hne : segs ++ [t] ≠ [] := by simp
  have hall : ∀ s ∈ segs ++ [t], PyIdent E s := by
    intro s hs
    rcases mem_snoc.mp hs with hs | rfl
    · exact h2 s hs
    · exact ht
  have hfull : child (Path.fromPy E n) (Ident.fromPy E t) = ⟨false, (segs ++ [t]).map (Ident.fromPy E)⟩ := by
    simp [child, h4]
  have htext : (child (Path.fromPy E n) (Ident.fromPy E t)).toPy = n ++ '.' :: t := by
    rw [hfull, faithful_toPy E hne hall, h3, join_snoc _ _ h1]
  refine ⟨t, ht, rfl, htext, fun id' hid => ?_⟩
  rcases loads_of hid with h | ⟨hno, a, ha, hm⟩
  · rw [htext] at h
    exact hF.imported _ _ h
  · rw [htext] at hno
    rw [asPy_ident ht.2] at ha
    rcases hF.modules _ _ _ _ _ _ hg hn ha hm hno with h | ⟨g1, g2, g3⟩
    · exact h
    · exfalso
      rcases (attributes_subs hst).2 _ hi with hl | ⟨x, hx, hxi, hd⟩
      · obtain ⟨-, ⟨l, hl, u, hu, he⟩, -⟩ := (extracted_subs he).mp hl
        have : u = t := by
          have := congrArg Ident.asPy he
          rw [asPy_ident ht.2, asPy_ident (hF.listed _ _ _ hg hl u hu).2] at this
          exact this.symm
        exact g1 l hl (this ▸ hu)
      · obtain ⟨-, hg, -⟩ := mem_candidates hx
        rw [hxi, asPy_ident ht.2, ha] at hg
        cases hg
        rcases determine_module_here hd with h | h
        · rw [g3] at h; cases h
        · exact g2 h

/-- The submodules of a parsed module of a faithful interpreter are named after it. -/
theorem faithful_submodule {E : Env} {cfg : Config} {W : World} (hF : Faithful E W) {fuel id : Nat} {M : Module}
    (p : ParseParts E cfg W fuel id M) {i : Ident} (hi : i ∈ p.st.subs) {id' : Nat} (hid : submoduleId W p.pm M.name i = some id')
    {s : Module} (hs : Module.parse E cfg W fuel id' = .ok s) : s.name = ⟨false, M.name.segs ++ [i]⟩ := by
  obtain ⟨segs, h1, h2, h3, h4⟩ := faithful_name hF p.get p.pmName
  have he := p.extracted
  have hst := p.attributes
  rw [p.name] at he hst hid
  obtain ⟨t, ht, rfl, -, hc⟩ := faithful_called hF p.get p.pmName he hst hi
  have hne : segs ++ [t] ≠ [] := by simp
  have hall : ∀ s ∈ segs ++ [t], PyIdent E s := by
    intro s hs
    rcases mem_snoc.mp hs with hs | rfl
    · exact h2 s hs
    · exact ht
  obtain ⟨pm', hg', hn'⟩ := hc id' hid
  cases fuel with
  | zero => exact absurd hs parse_zero
  | succ fuel =>
    obtain ⟨q⟩ := parse_parts hs
    have h5 := q.get
    rw [hg'] at h5
    cases h5
    have h6 := q.pmName
    rw [hn'] at h6
    have h6 := Option.some.inj h6
    have h7 : p.nm ++ '.' :: t = Str.join c!"." (segs ++ [t]) := by rw [h3, join_snoc _ _ h1]
    rw [q.name, ← h6, h7]
    have := fromPy_dotted E 0 hne fun s hs => (hall s hs).1
    simp only [dotted, List.replicate_zero, List.nil_append] at this
    rw [this, p.name, h4]
    simp

/-- Every submodule in the tree has the name of its module and one more segment. -/
def NamedAfter (M : Module) : Prop :=
  M.name.leadingColon = false ∧ M.name.segs ≠ [] ∧ ∀ s ∈ M.submodules, ∃ i, s.name = ⟨false, M.name.segs ++ [i]⟩

theorem parsed_namedAfter {E : Env} {cfg : Config} {W : World} (hF : Faithful E W) {M : Module} (h : Parsed E cfg W M) :
    NamedAfter M := by
  obtain ⟨fuel, id, h⟩ := h
  cases fuel with
  | zero => exact absurd h parse_zero
  | succ fuel =>
    obtain ⟨p⟩ := parse_parts h
    obtain ⟨segs, h1, h2, h3, h4⟩ := faithful_name hF p.get p.pmName
    refine ⟨by rw [p.name, h4], by rw [p.name, h4]; simpa using h1, ?_⟩
    refine traversed_invariant p (P := fun _ l => ∀ s ∈ l, ∃ i, s.name = ⟨false, M.name.segs ++ [i]⟩) (by simp)
      (fun _ _ _ _ _ h _ _ _ => h) fun _ l s i h hi ⟨id', hid, hs⟩ => ?_
    intro x hx
    rcases mem_snoc.mp hx with hx | rfl
    · exact h x hx
    · exact ⟨i, faithful_submodule hF p hi hid hs⟩

/-- The names of all prefixes. -/
def prefixes (segs : List Ident) : List Path := (List.range segs.length).map fun i => ⟨false, segs.take (i + 1)⟩

theorem prefixes_snoc (segs : List Ident) (i : Ident) : prefixes (segs ++ [i]) = prefixes segs ++ [⟨false, segs ++ [i]⟩] := by
  unfold prefixes
  rw [List.length_append, List.length_singleton, List.range_succ, List.map_append]
  congr 1
  · refine List.map_congr_left fun j hj => ?_
    rw [List.mem_range] at hj
    rw [List.take_append_of_le_length (by omega)]
  · simp [List.take_of_length_le]

theorem prefixes_packages {p : Path} (hl : p.leadingColon = false) (hne : p.segs ≠ []) :
    packages p ++ [p] = prefixes p.segs := by
  obtain ⟨b, segs⟩ := p
  simp only at hl hne
  subst hl
  rw [← List.dropLast_append_getLast hne, prefixes_snoc]
  congr 1
  unfold packages prefixes
  simp only [List.length_append, List.length_singleton, Nat.add_sub_cancel]
  refine List.map_congr_left fun j hj => ?_
  rw [List.mem_range] at hj
  rw [List.take_append_of_le_length (by omega)]

theorem packages_take (p : Path) {i : Nat} (hi : i < (packages p).length) :
    (packages p).take (i + 1) = prefixes (p.segs.take (i + 1)) ∧ p.segs.take (i + 1) ≠ [] := by
  unfold packages at hi ⊢
  simp only [List.length_map, List.length_range] at hi
  constructor
  · unfold prefixes
    rw [← List.map_take, List.take_range, Nat.min_eq_left (by omega), List.length_take, Nat.min_eq_left (by omega)]
    refine List.map_congr_left fun j hj => ?_
    rw [List.mem_range] at hj
    rw [List.take_take, Nat.min_eq_left (by omega)]
  · intro h
    have := congrArg List.length h
    rw [List.length_take, List.length_nil] at this
    omega

/-- Below modules that are named after their place, every module is at the place its name says. -/
theorem nodeAt_prefixes {base : List Ident} {l : List Module} (hl : ∀ m, InTree m l → NamedAfter m)
    (hb : ∀ m ∈ l, ∃ i, m.name = ⟨false, base ++ [i]⟩) {ns : List Path} {x : Module} (h : NodeAt l ns x) :
    prefixes base ++ ns = prefixes x.name.segs := by
  induction ns generalizing base l with
  | nil => cases h
  | cons n ns ih =>
    cases ns with
    | nil =>
      obtain ⟨hx, rfl⟩ := h
      obtain ⟨i, hi⟩ := hb x hx
      rw [hi, prefixes_snoc]
    | cons n' ns =>
      obtain ⟨k, hk, rfl, h⟩ := h
      obtain ⟨i, hi⟩ := hb k hk
      have := ih (base := base ++ [i]) (fun m hm => hl m (.sub hk hm)) (fun m hm => by
        obtain ⟨j, hj⟩ := (hl k (.top hk)).2.2 m hm
        exact ⟨j, by rw [hj, hi]⟩) h
      rw [← this, prefixes_snoc, hi]
      simp

theorem parsed_idents {E : Env} {cfg : Config} {W : World} (hF : Faithful E W) {m : Module} (h : Parsed E cfg W m) :
    ∀ i ∈ m.name.segs, ∃ t, PyIdent E t ∧ i = Ident.fromPy E t := by
  obtain ⟨fuel, id, h⟩ := h
  cases fuel with
  | zero => exact absurd h parse_zero
  | succ fuel =>
    obtain ⟨p⟩ := parse_parts h
    obtain ⟨segs, -, h2, -, h4⟩ := faithful_name hF p.get p.pmName
    intro i hi
    rw [p.name, h4] at hi
    obtain ⟨t, ht, rfl⟩ := List.mem_map.mp hi
    exact ⟨t, h2 t ht, rfl⟩

/-- After preparation every module is at the place its name says, and is a parsed module or a package of one. -/
theorem prepared_named {E : Env} {W : World} (hF : Faithful E W) {fuel : Nat} {c : Codegen} {out : List Module}
    (h : c.prepare E W fuel = .ok out) (hp : ∀ m ∈ c.modules, Parsed E c.cfg W m) {ns : List Path} {M : Module}
    (hM : NodeAt out ns M) : ns = prefixes M.name.segs ∧ M.name.leadingColon = false ∧ M.name.segs ≠ [] ∧
      (∀ i ∈ M.name.segs, ∃ t, PyIdent E t ∧ i = Ident.fromPy E t) ∧ ∃ m, Parsed E c.cfg W m ∧ M.name.segs <+: m.name.segs := by
  obtain ⟨mods, h1, h⟩ := Res.bind_ok h
  obtain ⟨cn, h2, h⟩ := Res.bind_ok h
  cases h
  have hp := withDeps_parsed hp h1
  have hat : ModuleAt cn ns := ((embed_same c.embedded cn).modules ns).mp ⟨M, hM⟩
  have hn := nodeAt_name hM
  have key : ∃ segs : List Ident, ns = prefixes segs ∧ segs ≠ [] ∧ (∀ i ∈ segs, ∃ t, PyIdent E t ∧ i = Ident.fromPy E t) ∧
      ∃ m, Parsed E c.cfg W m ∧ segs <+: m.name.segs := by
    obtain ⟨m, hm, h | h⟩ := (C35_modules E W mods cn h2 ns).mp hat
    · obtain ⟨ns', rfl, x, hx⟩ := h
      have hna := parsed_namedAfter hF (hp m hm)
      refine ⟨x.name.segs, ?_, ?_, parsed_idents hF (parsed_inTree (hp m hm) (nodeAt_inTree hx)),
        x, parsed_inTree (hp m hm) (nodeAt_inTree hx), List.prefix_refl _⟩
      · have hpk := prefixes_packages hna.1 hna.2.1
        rw [← List.dropLast_append_getLast hna.2.1] at hpk
        rw [prefixes_snoc] at hpk
        have hpk := (List.append_inj' hpk rfl).1
        rw [hpk]
        refine nodeAt_prefixes (l := [m]) (fun y hy => parsed_namedAfter hF (parsed_inTree (hp m hm) hy)) ?_ hx
        intro y hy
        rw [List.mem_singleton] at hy
        subst hy
        refine ⟨y.name.segs.getLast hna.2.1, ?_⟩
        rw [List.dropLast_append_getLast]
        have hlc := hna.1
        revert hlc
        generalize y.name = q
        intro hlc
        cases q
        cases hlc
        rfl
      · exact (parsed_namedAfter hF (parsed_inTree (hp m hm) (nodeAt_inTree hx))).2.1
    · obtain ⟨i, hi, rfl⟩ := h
      exact ⟨_, (packages_take _ hi).1, (packages_take _ hi).2, fun j hj => parsed_idents hF (hp m hm) j (List.mem_of_mem_take hj),
        m, hp m hm, List.take_prefix _ _⟩
  obtain ⟨segs, rfl, hne, hid, hpar⟩ := key
  rw [← List.dropLast_append_getLast hne, prefixes_snoc, List.getLast?_append] at hn
  simp only [List.getLast?_singleton, Option.some_or, Option.some.injEq] at hn
  rw [List.dropLast_append_getLast] at hn
  rw [← hn]
  exact ⟨rfl, rfl, hne, hid, hpar⟩

/-- After preparation every module is at the place its name says. -/
theorem prepared_placed {E : Env} {W : World} (hF : Faithful E W) {fuel : Nat} {c : Codegen} {out : List Module}
    (h : c.prepare E W fuel = .ok out) (hp : ∀ m ∈ c.modules, Parsed E c.cfg W m) {ns : List Path} {M : Module}
    (hM : NodeAt out ns M) : ns = prefixes M.name.segs ∧ M.name.leadingColon = false ∧ M.name.segs ≠ [] ∧
      ∀ i ∈ M.name.segs, ∃ t, PyIdent E t ∧ i = Ident.fromPy E t := by
  obtain ⟨a, b, c, d, -⟩ := prepared_named hF h hp hM
  exact ⟨a, b, c, d⟩

end Bindgen
