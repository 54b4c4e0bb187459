import Verif.Spec.Refs
import Verif.Lemmas.Placed
import Verif.Lemmas.IntoRs
import Verif.Props.RustTypes
import Verif.Props.Classes
/-! # References to generated types -/
namespace Bindgen
open Spec

/-- A reference in a type comes from the table of local types. -/
theorem intoRs_mentions {E : Env} {lt : LocalTypes} {t : PyTy} {o : RsTy × RsTy} (h : intoRs E lt t = .ok o) {rel : Path}
    (hm : Mentions rel o.1 ∨ Mentions rel o.2) : rel.synOk E = true ∧ ∃ q, lt.get q = some rel := by
  induction t using PyTy.ind generalizing o with
  | step t ih =>
    have own : ∀ {s : PyTy} {p : RsTy × RsTy}, s ∈ t.kids → intoRs E lt s = .ok p → Mentions rel p.1 →
        rel.synOk E = true ∧ ∃ q, lt.get q = some rel := fun hs hp hm => ih _ hs hp (Or.inl hm)
    cases t
    case other n =>
      rw [intoRs] at h
      rcases mapType_ok h with ⟨_, h⟩ | ⟨_, r, hr, hs, h⟩ | ⟨_, _, h⟩
      · cases h
        rcases hm with hm | hm
        · cases hm
        · cases hm with | ref hm => cases hm
      · cases h
        have : rel = r := by
          rcases hm with hm | hm
          · cases hm; rfl
          · cases hm with | ref hm => cases hm; rfl
        subst this
        exact ⟨hs, _, hr⟩
      · cases h
        rcases hm with hm | hm <;> cases hm
    case optional t =>
      rw [intoRs] at h
      obtain ⟨p, hp, h⟩ := Res.bind_ok h
      cases h
      refine own (by simp [PyTy.kids]) hp ?_
      rcases hm with hm | hm <;> (cases hm with | option hm => exact hm)
    case list t =>
      rw [intoRs] at h
      obtain ⟨p, hp, h⟩ := Res.bind_ok h
      cases h
      refine own (by simp [PyTy.kids]) hp ?_
      rcases hm with hm | hm
      · cases hm with | vec hm => exact hm
      · cases hm with | slice hm => exact hm
    case dict k v =>
      rw [intoRs] at h
      obtain ⟨p, hp, h⟩ := Res.bind_ok h
      split at h
      · obtain ⟨q, hq, h⟩ := Res.bind_ok h
        cases h
        have hm : Mentions rel (.hashMap q.1 p.1) := by
          rcases hm with hm | hm
          · exact hm
          · cases hm with | ref hm => exact hm
        cases hm with
        | key hm => exact own (by simp [PyTy.kids]) hq hm
        | value hm => exact own (by simp [PyTy.kids]) hp hm
      · cases h
        rcases hm with hm | hm <;> cases hm
    case frozenSet t =>
      rw [intoRs] at h
      split at h
      · obtain ⟨p, hp, h⟩ := Res.bind_ok h
        cases h
        refine own (by simp [PyTy.kids]) hp ?_
        rcases hm with hm | hm
        · cases hm with | hashSet hm => exact hm
        · cases hm with | ref hm => cases hm with | hashSet hm => exact hm
      · cases h
        rcases hm with hm | hm
        · cases hm
        · cases hm with | ref hm => cases hm
    case set t =>
      rw [intoRs] at h
      split at h
      · obtain ⟨p, hp, h⟩ := Res.bind_ok h
        cases h
        refine own (by simp [PyTy.kids]) hp ?_
        rcases hm with hm | hm
        · cases hm with | hashSet hm => exact hm
        · cases hm with | ref hm => cases hm with | hashSet hm => exact hm
      · cases h
        rcases hm with hm | hm
        · cases hm
        · cases hm with | ref hm => cases hm
    case tuple ts =>
      rcases tuple_cases ts with hs | ⟨t, rfl⟩ | ⟨h2, he⟩
      · rw [intoRs_tuple_short E lt hs] at h
        cases h
        rcases hm with hm | hm <;> cases hm
      · rw [intoRs_tuple_ellipsis, intoRs] at h
        obtain ⟨p, hp, h⟩ := Res.bind_ok h
        cases h
        refine own (by simp [PyTy.kids]) hp ?_
        rcases hm with hm | hm
        · cases hm with | vec hm => exact hm
        · cases hm with | slice hm => exact hm
      · rw [intoRs_tuple E lt h2 he] at h
        obtain ⟨rs, hrs, h⟩ := Res.bind_ok h
        cases h
        have hm : Mentions rel (.tuple rs) := hm.elim id id
        cases hm with
        | tuple hr hm =>
          obtain ⟨s, hs, hsr⟩ := traverse_mem hrs hr
          obtain ⟨b, hb⟩ := intoRsOwned_ok hsr
          exact own (by simpa [PyTy.kids] using hs) hb hm
    all_goals
      rw [intoRs] at h
      cases h
      rcases hm with hm | hm
      · first
          | cases hm; done
          | (cases hm with | vec hm => cases hm)
      · first
          | cases hm; done
          | (cases hm with | ref hm => cases hm)
          | (cases hm with | slice hm => cases hm)

theorem owned_mentions {E : Env} {lt : LocalTypes} {t : PyTy} {o : RsTy} (h : intoRsOwned E lt t = .ok o) {rel : Path}
    (hm : Mentions rel o) : rel.synOk E = true ∧ ∃ q, lt.get q = some rel := by
  obtain ⟨b, hb⟩ := intoRsOwned_ok h
  exact intoRs_mentions hb (Or.inl hm)

theorem borrowed_mentions {E : Env} {lt : LocalTypes} {t : PyTy} {o : RsTy} (h : intoRsBorrowed E lt t = .ok o) {rel : Path}
    (hm : Mentions rel o) : rel.synOk E = true ∧ ∃ q, lt.get q = some rel := by
  obtain ⟨p, hp, h⟩ := Res.bind_ok h
  cases h
  exact intoRs_mentions hp (Or.inr hm)

theorem function_mentions {E : Env} {cfg : Config} {imp : Str → Bool} {taken : List Ident} {lt : LocalTypes}
    {f : Function} {r : FnImpl} (h : f.generate E cfg imp taken lt = .ok r) {fn : Fn} (hfn : fn ∈ fnsOf r) {rel : Path}
    (hm : SigMentions rel fn.sig) : rel.synOk E = true ∧ ∃ q, lt.get q = some rel := by
  obtain ⟨name, ident, idents, pres, types, ret, sig, obj, pos, kw, -, -, -, -, ht, hr, hs, -, -, -, rfl, -⟩ := generate_fn h hfn
  have hsig : sig.params = idents.zip types ∧ (sig.ret = .ty ret ∨ sig.ret = .selfBound) := by
    unfold Function.contract at hs
    split at hs
    · cases hs; exact ⟨rfl, Or.inl rfl⟩
    · obtain ⟨_, -, hs⟩ := Res.bind_ok hs
      obtain ⟨_, -, hs⟩ := Res.bind_ok hs
      cases hs; exact ⟨rfl, Or.inl rfl⟩
    · obtain ⟨_, -, hs⟩ := Res.bind_ok hs
      obtain ⟨_, -, hs⟩ := Res.bind_ok hs
      cases hs; exact ⟨rfl, Or.inr rfl⟩
    · cases hs; exact ⟨rfl, Or.inl rfl⟩
  rcases hm with ⟨x, t, hx, hm⟩ | ⟨t, hx, hm⟩
  · simp only [hsig.1] at hx
    obtain ⟨p, -, hp⟩ := traverse_mem ht (List.of_mem_zip hx).2
    exact borrowed_mentions hp hm
  · simp only at hx
    rcases hsig.2 with h2 | h2
    · rw [h2] at hx; cases hx; exact owned_mentions hr hm
    · rw [h2] at hx; cases hx

theorem property_mentions {E : Env} {cfg : Config} {imp : Str → Bool} {taken : List Ident} {lt : LocalTypes} {p : Property}
    {l : List (Option Fn)} (h : p.generate E cfg imp taken lt = .ok l) {fn : Fn} (hfn : some fn ∈ l) {rel : Path}
    (hm : SigMentions rel fn.sig) : rel.synOk E = true ∧ ∃ q, lt.get q = some rel := by
  obtain ⟨g, hg, h⟩ := accessors_of h
  have hget : some fn = g → rel.synOk E = true ∧ ∃ q, lt.get q = some rel := by
    rintro rfl
    obtain ⟨name, -, hg⟩ := Res.bind_ok hg
    obtain ⟨i, -, hg⟩ := Res.bind_ok hg
    cases i with
    | none => cases hg
    | some i =>
      obtain ⟨ty, hty, hg⟩ := Res.bind_ok hg
      obtain ⟨o, -, hg⟩ := Res.bind_ok hg
      cases hg
      rcases hm with ⟨x, t, hx, -⟩ | ⟨t, hx, hm⟩
      · cases hx
      · cases hx; exact owned_mentions hty hm
  rcases h with ⟨-, s, hs, rfl⟩ | ⟨-, rfl⟩
  · rcases List.mem_cons.mp hfn with hfn | hfn
    · exact hget hfn
    · rw [List.mem_singleton] at hfn
      subst hfn
      obtain ⟨name, -, hs⟩ := Res.bind_ok hs
      obtain ⟨i, -, hs⟩ := Res.bind_ok hs
      cases i with
      | none => cases hs
      | some i =>
        obtain ⟨pre, -, hs⟩ := Res.bind_ok hs
        obtain ⟨ty, hty, hs⟩ := Res.bind_ok hs
        obtain ⟨o, -, hs⟩ := Res.bind_ok hs
        cases hs
        rcases hm with ⟨x, t, hx, hm⟩ | ⟨t, hx, hm⟩
        · rw [List.mem_singleton] at hx
          cases hx
          exact borrowed_mentions hty hm
        · cases hx
  · exact hget (List.mem_singleton.mp hfn)

/-- The signatures of the trait are those of its implementation. -/
theorem class_sigs {E : Env} {cfg : Config} {imp : Str → Bool} {lt : LocalTypes} {c : Class} {k : ClassItem}
    (h : c.generate E cfg imp lt = .ok (some k)) : k.traitSigs = k.traitImpls.map Fn.sig := by
  obtain ⟨name, ident, taken, impls, props, -, -, -, himpls, hprops, -, -, -, hparts, -⟩ := class_generate h
  have key : ∀ (l : List FnImpl) (a : ClassParts), (∀ r ∈ l, ∀ s f, r = .method s f → s = f.map Fn.sig) →
      a.traitSigs = a.traitImpls.map Fn.sig →
      (l.foldl ClassParts.add a).traitSigs = (l.foldl ClassParts.add a).traitImpls.map Fn.sig := by
    intro l
    induction l with
    | nil => exact fun a _ ha => ha
    | cons r l ih =>
      intro a hl ha
      refine ih _ (fun x hx => hl x (by simp [hx])) ?_
      cases r with
      | func fns => exact ha
      | method s f => simp [ClassParts.add, ha, hl _ (List.mem_cons_self ..) s f rfl]
  have := key (impls ++ props.map propImpl) ⟨[], [], []⟩ ?_ rfl
  · rw [← hparts] at this
    exact this
  · intro r hr s f he
    rcases List.mem_append.mp hr with hr | hr
    · obtain ⟨m, -, hm⟩ := traverse_mem himpls hr
      have := function_matched hm
      rw [he] at this
      exact this.1
    · obtain ⟨l, hl, rfl⟩ := List.mem_map.mp hr
      cases he
      rfl

/-- A reference in the content of a generated module comes from its table of local types. -/
theorem content_mentions {E : Env} {cfg : Config} {imp : Str → Bool} {tops : List Module} {m : Module} {taken : List Ident}
    {lt : LocalTypes} {x : Item} (h : ContentFrom E cfg imp tops m taken lt x) {s : Sig} (hs : HasSig s x) {rel : Path}
    (hm : SigMentions rel s) : rel.synOk E = true ∧ ∃ q, lt.get q = some rel := by
  cases h with
  | use => cases hs
  | prelude => cases hs
  | typeVar => cases hs
  | stray => cases hs
  | function f fns fn _ _ hg hfn =>
    cases hs
    exact function_mentions hg hfn hm
  | property p l fn _ _ _ hg hfn =>
    cases hs
    exact property_mentions hg hfn hm
  | class' c k _ _ hg =>
    have : ∃ f, (f ∈ k.inherent ∨ f ∈ k.traitImpls) ∧ f.sig = s := by
      rcases hs with hs | hs
      · rw [class_sigs hg] at hs
        obtain ⟨f, hf, rfl⟩ := List.mem_map.mp hs
        exact ⟨f, Or.inr hf, rfl⟩
      · exact hs
    obtain ⟨f, hf, rfl⟩ := this
    obtain ⟨taken, -, ⟨m, -, r, hr, hfr⟩ | ⟨p, -, l, hl, hfl⟩⟩ := class_fns hg hf
    · exact function_mentions hr hfr hm
    · exact property_mentions hl hfl hm

/-- Every entry of the table is the relative path of a type. -/
theorem localTypes_get {E : Env} {ts : List Path} {name : Path} {imports : List Import} {lt : LocalTypes}
    (h : Module.localTypes E ts name imports = .ok lt) {q rel : Path} (hq : lt.get q = some rel) :
    ∃ p ∈ ts, name.relativeTo p false = .ok rel := by
  have hmem : (q, rel) ∈ lt := by
    unfold LocalTypes.get at hq
    have : ∀ l : List (Path × Path), l.lookup q = some rel → (q, rel) ∈ l := by
      intro l
      induction l with
      | nil => intro h; cases h
      | cons a l ih =>
        intro h
        rw [List.lookup] at h
        split at h
        · rename_i he
          cases h
          have : q = a.1 := by simpa using he
          subst this
          simp
        · exact List.mem_cons_of_mem _ (ih h)
    exact List.mem_reverse.mp (this _ hq)
  obtain ⟨own, h1, h⟩ := Res.bind_ok h
  obtain ⟨imported, h2, h⟩ := Res.bind_ok h
  cases h
  rcases List.mem_append.mp hmem with hm | hm
  · obtain ⟨p, hp, hr⟩ := traverse_mem h1 hm
    obtain ⟨r, hr, hx⟩ := Res.bind_ok hr
    cases hx
    exact ⟨_, hp, hr⟩
  · obtain ⟨l, hl, hm⟩ := List.mem_flatten.mp hm
    obtain ⟨i, -, hi⟩ := traverse_mem h2 hl
    obtain ⟨p, hp, hr⟩ := traverse_mem hi hm
    obtain ⟨k, -, hr⟩ := Res.bind_ok hr
    obtain ⟨r, hr, hx⟩ := Res.bind_ok hr
    cases hx
    exact ⟨p, (List.mem_filter.mp hp).1, hr⟩

mutual
theorem mem_types {p : Path} : ∀ m : Module, p ∈ m.types ↔
    ∃ M, InTree M [m] ∧ ((∃ c ∈ M.classes, c.name = p) ∨ ∃ t ∈ M.typeVars, t.name = p)
  | ⟨n, pr, im, subs, cs, ts, fs, ps, d, k, s⟩ => by
    rw [Module.types, List.mem_append, List.mem_append, List.mem_map, List.mem_map, mem_typesList subs]
    constructor
    · rintro ((⟨c, hc, rfl⟩ | ⟨t, ht, rfl⟩) | ⟨M, hM, h⟩)
      · exact ⟨_, .top (List.mem_singleton.mpr rfl), Or.inl ⟨c, hc, rfl⟩⟩
      · exact ⟨_, .top (List.mem_singleton.mpr rfl), Or.inr ⟨t, ht, rfl⟩⟩
      · exact ⟨M, .sub (List.mem_singleton.mpr rfl) hM, h⟩
    · rintro ⟨M, hM, h⟩
      cases hM with
      | top hm =>
        rw [List.mem_singleton] at hm
        subst hm
        exact Or.inl h
      | sub hm hM =>
        rw [List.mem_singleton] at hm
        subst hm
        exact Or.inr ⟨M, hM, h⟩
theorem mem_typesList {p : Path} : ∀ l : List Module, p ∈ typesList l ↔
    ∃ M, InTree M l ∧ ((∃ c ∈ M.classes, c.name = p) ∨ ∃ t ∈ M.typeVars, t.name = p)
  | [] => by
    simp only [typesList, List.not_mem_nil, false_iff]
    rintro ⟨M, hM, -⟩
    cases hM with
    | top h => cases h
    | sub h => cases h
  | m :: l => by
    rw [typesList, List.mem_append, mem_types m, mem_typesList l]
    constructor
    · rintro (⟨M, hM, h⟩ | ⟨M, hM, h⟩)
      · refine ⟨M, ?_, h⟩
        cases hM with
        | top hm => exact .top (by rw [List.mem_singleton] at hm; simp [hm])
        | sub hm hM => exact .sub (by rw [List.mem_singleton] at hm; simp [hm]) hM
      · refine ⟨M, ?_, h⟩
        cases hM with
        | top hm => exact .top (List.mem_cons_of_mem _ hm)
        | sub hm hM => exact .sub (List.mem_cons_of_mem _ hm) hM
    · rintro ⟨M, hM, h⟩
      cases hM with
      | top hm =>
        rcases List.mem_cons.mp hm with rfl | hm
        · exact Or.inl ⟨_, .top (by simp), h⟩
        · exact Or.inr ⟨_, .top hm, h⟩
      | sub hm hM =>
        rcases List.mem_cons.mp hm with rfl | hm
        · exact Or.inl ⟨_, .sub (List.mem_singleton.mpr rfl) hM, h⟩
        · exact Or.inr ⟨_, .sub hm hM, h⟩
end

/-- A chain of generated modules stands for a chain of modules. -/
theorem chain_node {E : Env} {cfg : Config} {imp : Str → Bool} {tops : List Module} {ts : List Path} {l : List Module}
    {items : List Item} (h : Res.traverse (Module.generate E cfg imp tops ts) l = .ok items) {idents : List Str}
    {content : List Item} (hc : ModChain items idents content) :
    ∃ ns M c0 mods, NodeAt l ns M ∧ M.content E cfg imp tops ts = .ok c0 ∧
      content = embedItems M.name M.source ++ c0 ++ mods ∧ (∀ x ∈ mods, ∃ a d i inner, x = .mod a d i inner) ∧
      ifOn cfg.traverseSubmodules (Res.traverse (Module.generate E cfg imp tops ts) M.submodules) [] = .ok mods ∧
      List.Forall₂ (fun n i => ∃ s, n.segs.getLast? = some s ∧ s.toSyn E = some i) ns idents := by
  have hmods : ∀ {m : Module} {it : Item} (p : GenParts E cfg imp tops ts m it), ∀ x ∈ p.mods, ∃ a d i inner, x = .mod a d i inner := by
    intro m it p x hx
    rcases ifOn_ok p.modsOk with ⟨-, h⟩ | ⟨-, h⟩
    · obtain ⟨s, -, hg⟩ := traverse_mem h hx
      obtain ⟨q⟩ := generate_parts hg
      exact ⟨_, _, _, _, q.item⟩
    · rw [h] at hx; cases hx
  induction idents generalizing l items with
  | nil => cases hc
  | cons i is ih =>
    cases hc with
    | here hm =>
      obtain ⟨M, hM, hg⟩ := traverse_mem h hm
      obtain ⟨p⟩ := generate_parts hg
      have := p.item
      injection this with h1 h2 h3 h4
      have hid := p.identOk
      rw [← h3] at hid
      exact ⟨[M.name], M, p.content, p.mods, ⟨hM, rfl⟩, p.contentOk, h4, hmods p, p.modsOk, .cons ⟨_, p.lastOk, hid⟩ .nil⟩
    | nested hm hc =>
      obtain ⟨k, hk, hg⟩ := traverse_mem h hm
      obtain ⟨p⟩ := generate_parts hg
      have := p.item
      injection this with h1 h2 h3 h4
      have hid := p.identOk
      rw [← h3] at hid
      have key : ∀ a d j inner', Item.mod a d j inner' ∈ embedItems k.name k.source ++ p.content ++ p.mods → Item.mod a d j inner' ∈ p.mods := by
        intro a d j inner' hx
        simp only [List.mem_append] at hx
        rcases hx with (hx | hx) | hx
        · unfold embedItems at hx
          split at hx <;> simp at hx
        · obtain ⟨q⟩ := content_parts p.contentOk
          cases content_from q hx
        · exact hx
      have hin : ModChain p.mods is content := by
        rw [h4] at hc
        cases hc with
        | here hx => exact .here (key _ _ _ _ hx)
        | nested hx hc => exact .nested (key _ _ _ _ hx) hc
      rcases ifOn_ok p.modsOk with ⟨-, h⟩ | ⟨-, h⟩
      · obtain ⟨ns, M, c0, mods, hM, hc0, he, hmo, hmo', hf⟩ := ih h hin
        refine ⟨k.name :: ns, M, c0, mods, ?_, hc0, he, hmo, hmo', .cons ⟨_, p.lastOk, hid⟩ hf⟩
        cases ns with
        | nil => cases hM
        | cons n ns => exact ⟨k, hk, rfl, hM⟩
      · rw [h] at hin
        cases hin with
        | here hx => cases hx
        | nested hx => cases hx

end Bindgen
