import Verif.Props.Reexports
/-!
# Sibling modules in the output (C36)
-/
namespace Bindgen
open Spec

/-- The submodules are those of distinct names of the traversal. -/
theorem traversed_names {E : Env} {cfg : Config} {W : World} {fuel id : Nat} {M : Module} (p : ParseParts E cfg W fuel id M)
    {name : Ident → Path} (hname : ∀ i ∈ p.st.subs, ∀ id', submoduleId W p.pm M.name i = some id' → ∀ s,
      Module.parse E cfg W fuel id' = .ok s → s.name = name i) :
    ∃ l : List Ident, l.Nodup ∧ (∀ i ∈ l, i ∈ p.st.subs) ∧ M.submodules.map Module.name = l.map name := by
  rcases ifOn_ok p.traversed with ⟨-, h⟩ | ⟨-, h⟩
  · have key : ∀ (l : List Ident) (acc acc' : ParseState × List Module), (∀ i ∈ l, i ∈ p.st.subs) →
        foldRes (submoduleStep W p.pm M.name (Module.parse E cfg W fuel)) acc l = .ok acc' →
        ∃ l' : List Ident, l'.Sublist l ∧ acc'.2.map Module.name = acc.2.map Module.name ++ l'.map name := by
      intro l
      induction l with
      | nil => intro acc acc' _ h; cases h; exact ⟨[], List.Sublist.slnil, by simp⟩
      | cons i l ih =>
        intro acc acc' hl h
        rw [foldRes] at h
        obtain ⟨a1, h1, h⟩ := Res.bind_ok h
        obtain ⟨l', hs, he⟩ := ih a1 acc' (fun j hj => hl j (by simp [hj])) h
        rcases submoduleStep_ok h1 with rfl | ⟨c, s, id, -, -, -, rfl⟩ | ⟨s, id, -, hid, hp, rfl⟩
        · exact ⟨l', hs.cons _, he⟩
        · exact ⟨l', hs.cons _, he⟩
        · refine ⟨i :: l', hs.cons_cons _, ?_⟩
          rw [he]
          simp [hname i (hl i (by simp)) id hid s hp]
    obtain ⟨l', hs, he⟩ := key _ _ _ (fun i hi => (E.set_mem _ _).mp hi) h
    exact ⟨l', hs.nodup (E.set_nodup _), fun i hi => (E.set_mem _ _).mp (hs.subset hi), by simpa using he⟩
  · have h2 := congrArg Prod.snd h
    simp only at h2
    rw [h2]
    exact ⟨[], List.nodup_nil, by simp, rfl⟩

/-- The submodules of modules in a faithful interpreter have different names. -/
theorem parsed_distinct {E : Env} {cfg : Config} {W : World} (hF : Faithful E W) {M : Module} (h : Parsed E cfg W M) :
    (M.submodules.map Module.name).Nodup := by
  obtain ⟨fuel, id, h⟩ := h
  cases fuel with
  | zero => exact absurd h parse_zero
  | succ fuel =>
    obtain ⟨p⟩ := parse_parts h
    obtain ⟨l, hn, -, he⟩ := traversed_names p (name := fun i => ⟨false, M.name.segs ++ [i]⟩)
      fun i hi id' hid s hs => faithful_submodule hF p hi hid hs
    rw [he]
    refine hn.map fun a b h => ?_
    simpa using h

theorem faithful_ordinary {E : Env} {W : World} (hF : Faithful E W) : OrdinaryWorld W := by
  intro id m n hg hn
  obtain ⟨segs, h1, h2, h3⟩ := hF.names id m n hg hn
  exact ⟨segs, h1, fun s hs => (h2 s hs).1, h3⟩

/-- After preparation sibling modules have different names. -/
theorem prepared_distinct {E : Env} {W : World} (hF : Faithful E W) {fuel : Nat} {c : Codegen} {out : List Module}
    (h : c.prepare E W fuel = .ok out) (hp : ∀ m ∈ c.modules, Parsed E c.cfg W m) :
    (out.map Module.name).Nodup ∧ DistinctSubmodules out := by
  obtain ⟨mods, h1, h⟩ := Res.bind_ok h
  obtain ⟨cn, h2, h⟩ := Res.bind_ok h
  cases h
  have hp := withDeps_parsed hp h1
  have hord : ∀ m, InTree m mods → OrdinaryName E m.name := by
    intro m hm
    obtain ⟨k, hk, hmk⟩ := inTree_mem hm
    obtain ⟨f, id, hpk⟩ := hp k hk
    exact parse_ordinary (faithful_ordinary hF) hpk hmk
  obtain ⟨a, b⟩ := C36_distinct E W mods cn h2 hord fun m hm => by
    obtain ⟨k, hk, hmk⟩ := inTree_mem hm
    exact parsed_distinct hF (parsed_inTree (hp k hk) hmk)
  refine ⟨(embed_same c.embedded cn).top ▸ a, ?_⟩
  have hsub : ∀ m ∈ embedSources c.embedded cn, ∃ k ∈ cn, m.submodules = k.submodules := by
    intro m hm
    obtain ⟨k, hk, rfl⟩ := List.mem_map.mp hm
    refine ⟨k, hk, ?_⟩
    split <;> rfl
  intro m hm
  cases hm with
  | top hm =>
    obtain ⟨k, hk, he⟩ := hsub m hm
    rw [he]
    exact b k (.top hk)
  | sub hn hm =>
    obtain ⟨k, hk, he⟩ := hsub _ hn
    exact b m (.sub hk (he ▸ hm))

/-- The names of the modules declared among the items. -/
def Spec.modNames (items : List Item) : List Str := items.filterMap fun (x : Item) => match x with
  | .mod _ _ n _ => some n
  | _ => none

theorem prefixes_inj {a b : List Ident} (h : prefixes a = prefixes b) : a = b := by
  have hl : a.length = b.length := by simpa [prefixes] using congrArg List.length h
  cases ha : a.length with
  | zero =>
    have hb : b.length = 0 := by omega
    rw [List.length_eq_zero_iff.mp ha, List.length_eq_zero_iff.mp hb]
  | succ n =>
    have := congrArg (fun l => l[n]?) h
    simp only [prefixes, List.getElem?_map, List.getElem?_range, ← hl, ha, Nat.lt_succ_self] at this
    simp only [Option.map_some, Option.some.injEq, Path.mk.injEq, true_and] at this
    rw [List.take_of_length_le (by omega), List.take_of_length_le (by omega)] at this
    exact this

theorem nodeAt_snoc {l : List Module} {ns : List Path} {M s : Module} (h : NodeAt l ns M) (hs : s ∈ M.submodules) :
    NodeAt l (ns ++ [s.name]) s := by
  induction ns generalizing l with
  | nil => cases h
  | cons n ns ih =>
    cases ns with
    | nil =>
      obtain ⟨hM, rfl⟩ := h
      exact ⟨M, hM, rfl, hs, rfl⟩
    | cons n' ns =>
      obtain ⟨k, hk, hn, h⟩ := h
      exact ⟨k, hk, hn, ih h⟩

theorem prepared_sub {E : Env} {W : World} (hF : Faithful E W) {fuel : Nat} {c : Codegen} {out : List Module}
    (h : c.prepare E W fuel = .ok out) (hp : ∀ m ∈ c.modules, Parsed E c.cfg W m) {M s : Module} (hM : InTree M out)
    (hs : s ∈ M.submodules) : ∃ t, PyIdent E t ∧ s.name = ⟨false, M.name.segs ++ [Ident.fromPy E t]⟩ := by
  obtain ⟨ns, hns⟩ := inTree_nodeAt hM
  obtain ⟨h1, -, -, -⟩ := prepared_placed hF h hp hns
  obtain ⟨h2, h3, h4, h5⟩ := prepared_placed hF h hp (nodeAt_snoc hns hs)
  rw [h1] at h2
  rw [← List.dropLast_append_getLast h4, prefixes_snoc] at h2
  have := prefixes_inj (List.append_inj' h2 rfl).1
  obtain ⟨t, ht, he⟩ := h5 _ (List.getLast_mem h4)
  refine ⟨t, ht, ?_⟩
  have h6 := (List.append_inj' h2 rfl).2
  have h6 := (List.cons.inj h6).1
  rw [h6, ← this, he]

/-- Modules whose names differ only in the last segment get different names in Rust. -/
theorem modNames_nodup {E : Env} {cfg : Config} {imp : Str → Bool} {tops : List Module} {ts : List Path} {base : List Ident}
    {l : List Module} (hl : ∀ s ∈ l, ∃ t, PyIdent E t ∧ s.name = ⟨false, base ++ [Ident.fromPy E t]⟩)
    (hn : (l.map Module.name).Nodup) {items : List Item} (h : Res.traverse (Module.generate E cfg imp tops ts) l = .ok items) :
    (modNames items).Nodup ∧ ∀ n ∈ modNames items, ∃ s ∈ l, s.name.segs.getLast?.map Ident.rs = some n := by
  induction l generalizing items with
  | nil => cases h; simp [modNames]
  | cons m l ih =>
    obtain ⟨it, hit, h⟩ := Res.bind_ok h
    obtain ⟨its, hits, h⟩ := Res.bind_ok h
    cases h
    obtain ⟨p⟩ := generate_parts hit
    rw [p.item]
    rw [List.map_cons, List.nodup_cons] at hn
    obtain ⟨a, b⟩ := ih (fun s hs => hl s (by simp [hs])) hn.2 hits
    obtain ⟨t, ht, hm⟩ := hl m (by simp)
    have hlast := p.lastOk
    rw [hm] at hlast
    simp only [List.getLast?_append, List.getLast?_singleton, Option.some_or, Option.some.injEq] at hlast
    have hid := p.identOk
    rw [← hlast] at hid
    have hid := pyIdent_toSyn ht hid
    have hmn : modNames (.mod (tops.contains m) (docAttr cfg m.doc) p.ident (embedItems m.name m.source ++ p.content ++ p.mods) :: its) =
        p.ident :: modNames its := rfl
    rw [hmn, List.nodup_cons]
    refine ⟨⟨fun hc => ?_, a⟩, ?_⟩
    · obtain ⟨s, hs, he⟩ := b _ hc
      obtain ⟨u, hu, hsn⟩ := hl s (by simp [hs])
      rw [hsn, hid] at he
      simp only [List.getLast?_append, List.getLast?_singleton, Option.some_or, Option.map_some, Option.some.injEq] at he
      apply hn.1
      rw [hm, List.mem_map]
      refine ⟨s, hs, ?_⟩
      rw [hsn]
      have : Ident.fromPy E u = Ident.fromPy E t := by
        cases h1 : Ident.fromPy E u; cases h2 : Ident.fromPy E t
        rw [h1, h2] at he
        rw [Ident.mk.injEq]
        exact he
      rw [this]
    · intro n hnm
      rcases List.mem_cons.mp hnm with rfl | hnm
      · exact ⟨m, by simp, by rw [hm, hid]; simp⟩
      · obtain ⟨s, hs, he⟩ := b n hnm
        exact ⟨s, by simp [hs], he⟩

/-- **C36** in the output: in an interpreter that is faithful to its names, no scope of the bindings declares two modules of the
same name, neither the top level nor any generated module. -/
theorem C36_output (E : Env) (W : World) (hF : Faithful E W) (fuel : Nat) (cfg : Config) (srcs : List (Str × Str)) (c : Codegen)
    (hb : Built E W fuel cfg srcs c) (items : List Item) (h : c.generate E W fuel = .ok items) :
    (modNames items).Nodup ∧ ∀ idents content, ModChain items idents content → (modNames content).Nodup := by
  obtain ⟨hcfg, -, hp⟩ := built_ok hb
  subst hcfg
  obtain ⟨out, h1, h2⟩ := generate_prepared h
  obtain ⟨d1, d2⟩ := prepared_distinct hF h1 hp
  constructor
  · refine (modNames_nodup (base := []) (fun s hs => ?_) d1 h2).1
    obtain ⟨a, b, c', d⟩ := prepared_placed hF h1 hp (ns := [s.name]) ⟨hs, rfl⟩
    have hlen := congrArg List.length a
    simp only [prefixes, List.length_map, List.length_range, List.length_singleton] at hlen
    obtain ⟨i, hi⟩ := List.length_eq_one_iff.mp hlen.symm
    obtain ⟨t, ht, he⟩ := d i (by rw [hi]; simp)
    refine ⟨t, ht, ?_⟩
    revert b hi
    generalize s.name = q
    intro b hi
    cases q
    simp only at b hi
    rw [b, hi, he]
    rfl
  · intro idents content hch
    obtain ⟨ns, M, c0, mods, hM, hc0, rfl, hmods, hsub, hf⟩ := chain_node h2 hch
    have hm : ∀ a b : List Item, modNames (a ++ b) = modNames a ++ modNames b := fun a b => List.filterMap_append
    have hzero : ∀ l : List Item, (∀ a d i inner, Item.mod a d i inner ∉ l) → modNames l = [] := by
      intro l hl
      refine List.filterMap_eq_nil_iff.mpr fun x hx => ?_
      cases x with
      | mod a d i inner => exact absurd hx (hl a d i inner)
      | _ => rfl
    rw [hm, hm, hzero _ fun a d i inner hx => ?_, hzero c0 fun a d i inner hx => ?_]
    · rcases ifOn_ok hsub with ⟨-, h⟩ | ⟨-, h⟩
      · exact (modNames_nodup (fun s hs => prepared_sub hF h1 hp (nodeAt_inTree hM) hs) (d2 M (nodeAt_inTree hM)) h).1
      · rw [h]; exact List.nodup_nil
    · obtain ⟨q⟩ := content_parts hc0
      cases content_from q hx
    · unfold embedItems at hx
      split at hx <;> simp at hx

example : Faithful exEnv exTwoTypesWorld ∧
    (((Codegen.new {}).moduleNames exEnv exTwoTypesWorld 5 [c!"pkg", c!"pkg.a"] >>= fun c => c.generate exEnv exTwoTypesWorld 5).map
      modNames) = .ok [c!"pkg"] :=
  ⟨exTwoTypesWorld_faithful, by decide +kernel⟩

end Bindgen
