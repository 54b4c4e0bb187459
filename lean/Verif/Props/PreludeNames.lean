import Verif.Lemmas.Prepared
import Verif.Props.Output
import Verif.Props.Prelude
import Verif.Props.Flags
/-!
# C62: what a prelude exports
-/
namespace Bindgen
open Spec

/-- The names in `__all__` of a module; none if it has no index. -/
def Spec.indexNames (pm : PyMod) : List Str := pm.all.getD []

/-- The index names exactly the public attributes, so a prelude would be the module once more. -/
def Spec.IndexIsPublic (pm : PyMod) : Prop := ∀ n, n ∈ indexNames pm ↔ n ∈ pm.dir ∧ ¬ c!"_" <+: n

/-- The dotted module name `s` is the package `top` or lies in it. -/
def Spec.InPackage (top s : Str) : Prop := s = top ∨ top ++ c!"." <+: s

/-- A name of the index of the module with the segments `top :: rest` that belongs in the prelude: an attribute that the
configuration allows and, unless dependencies are generated, that comes from the same top-level package. -/
def Spec.Exported (cfg : Config) (pm : PyMod) (top : Str) (rest : List Str) (n : Str) : Prop :=
  ∃ a, pm.getattr n = some a ∧ (cfg.generateDependencies = true ∨ InPackage top a.obj.modPath) ∧ Allowed cfg n (top :: rest)

theorem fromPy_inj {E : Env} {a b : Str} (ha : ¬ c!"r#" <+: a) (hb : ¬ c!"r#" <+: b) (h : Ident.fromPy E a = Ident.fromPy E b) : a = b := by
  rw [← asPy_fromPy E ha, h, asPy_fromPy E hb]

theorem unique_map {α β : Type} [DecidableEq α] [DecidableEq β] {f : α → β} {l : List α}
    (h : ∀ a ∈ l, ∀ b ∈ l, f a = f b → a = b) : unique (l.map f) = (unique l).map f := by
  induction l with
  | nil => rfl
  | cons a l ih =>
    have ih := ih fun x hx y hy => h x (List.mem_cons_of_mem _ hx) y (List.mem_cons_of_mem _ hy)
    simp only [List.map_cons, unique, ih, List.filter_map, List.cons.injEq, true_and]
    congr 1
    refine List.filter_congr fun x hx => ?_
    have hx := mem_unique.mp hx
    by_cases hxa : x = a
    · simp [hxa]
    · have : f x ≠ f a := fun he => hxa (h x (List.mem_cons_of_mem _ hx) a (by simp) he)
      simp [hxa, this]

theorem unique_sublist {α : Type} [DecidableEq α] (l : List α) : (unique l).Sublist l := by
  induction l with
  | nil => exact .slnil
  | cons a l ih => exact .cons_cons a (List.filter_sublist.trans ih)

theorem takeWhile_nodot {x : Str} (hx : '.' ∉ x) (r : Str) (hr : r = [] ∨ ∃ t, r = '.' :: t) :
    (x ++ r).takeWhile (fun c => decide (c ≠ '.')) = x := by
  induction x with
  | nil => rcases hr with rfl | ⟨t, rfl⟩ <;> simp
  | cons a x ih =>
    have h1 : a ≠ '.' := fun h => hx (by simp [h])
    have h2 : '.' ∉ x := fun h => hx (by simp [h])
    simp only [List.cons_append, List.takeWhile_cons, h1, decide_true, if_true, ne_eq, not_false_eq_true]
    rw [ih h2]

theorem startsWith_top {E : Env} {top s : Str} (ht : PySegment top)
    (hs : s = [] ∨ ∃ ms : List Str, ms ≠ [] ∧ (∀ x ∈ ms, PySegment x) ∧ s = Str.join c!"." ms) (rest : List Ident) :
    (match (Path.mk false (Ident.fromPy E top :: rest)).root with
      | some r => (Path.fromPy E s).startsWith r
      | none => false) = true ↔ InPackage top s := by
  simp only [Path.root, Path.startsWith]
  rcases hs with rfl | ⟨ms, hne, hms, rfl⟩
  · simp only [Path.fromPy, if_true, Path.empty]
    constructor
    · intro h; cases h
    · rintro (h | h)
      · exact absurd h.symm ht.1
      · have := List.IsPrefix.length_le h; simp at this
  · have hf := fromPy_dotted E 0 hne hms
    simp only [dotted, List.replicate_zero, List.nil_append] at hf
    rw [hf]
    cases ms with
    | nil => exact absurd rfl hne
    | cons x ms =>
      have hx := hms x (by simp)
      simp only [List.map_cons, List.isPrefixOf_cons_cons, List.isPrefixOf_nil_left, Bool.and_true, beq_iff_eq]
      constructor
      · intro h
        have := fromPy_inj ht.2.2.1 hx.2.2.1 h
        subst this
        cases ms with
        | nil => left; simp [Str.join]
        | cons y ms => right; simp only [Str.join]; exact ⟨Str.join c!"." (y :: ms), by simp⟩
      · intro h
        have hj : (Str.join c!"." (x :: ms)).takeWhile (fun c => decide (c ≠ '.')) = x := by
          cases ms with
          | nil => simpa [Str.join] using takeWhile_nodot hx.2.1 [] (Or.inl rfl)
          | cons y ms =>
            simp only [Str.join, List.append_assoc]
            exact takeWhile_nodot hx.2.1 _ (Or.inr ⟨_, rfl⟩)
        have ht' : (Str.join c!"." (x :: ms)).takeWhile (fun c => decide (c ≠ '.')) = top := by
          rcases h with h | ⟨t, h⟩
          · rw [h]; simpa using takeWhile_nodot ht.2.1 [] (Or.inl rfl)
          · rw [← h, List.append_assoc]; exact takeWhile_nodot ht.2.1 _ (Or.inr ⟨_, rfl⟩)
        rw [← ht', hj]

theorem startsWith_private {n : Str} : Str.startsWith n c!"_" = true ↔ c!"_" <+: n := by
  unfold Str.startsWith
  exact List.isPrefixOf_iff_prefix

theorem extractPrelude_index (E : Env) (cfg : Config) (pm : PyMod) (name : Path) :
    extractPrelude E cfg pm name = extractPrelude E cfg { pm with all := some (indexNames pm) } name := by
  obtain ⟨_, all, _⟩ := pm
  cases all <;> rfl

theorem keep_names {α β : Type} (b : Bool) (f : α → β) (P Q : β → Bool) (l : List α) :
    ∃ names : List α, ((if b then l.map f else (l.map f).filter P).filter Q) = names.map f ∧ names.Sublist l ∧
      ∀ n, n ∈ names ↔ n ∈ l ∧ (b = true ∨ P (f n) = true) ∧ Q (f n) = true := by
  cases b with
  | true =>
    refine ⟨l.filter (Q ∘ f), ?_, List.filter_sublist, fun n => ?_⟩
    · simp [List.filter_map]
    · simp
  | false =>
    refine ⟨(l.filter (P ∘ f)).filter (Q ∘ f), ?_, List.filter_sublist.trans List.filter_sublist, fun n => ?_⟩
    · simp only [Bool.false_eq_true, if_false, List.filter_map]
    · simp only [List.mem_filter, Function.comp, Bool.false_eq_true, false_or, and_assoc]

/-- The prelude of a module, in terms of Python names. -/
theorem extractPrelude_names (E : Env) (cfg : Config) (pm : PyMod) (top : Str) (rest : List Str) (hs : ∀ s ∈ top :: rest, PySegment s)
    (hraw : ∀ n, n ∈ indexNames pm ∨ n ∈ pm.dir → ¬ c!"r#" <+: n)
    (hmod : ∀ n a, pm.getattr n = some a → a.obj.modPath = [] ∨
      ∃ ms : List Str, ms ≠ [] ∧ (∀ x ∈ ms, PySegment x) ∧ a.obj.modPath = Str.join c!"." ms) :
    ∃ names : List Str, extractPrelude E cfg pm ⟨false, (top :: rest).map (Ident.fromPy E)⟩ = names.map (Ident.fromPy E) ∧
      names.Nodup ∧ names.Sublist (indexNames pm) ∧
      ∀ n, n ∈ names ↔ ¬ IndexIsPublic pm ∧ n ∈ indexNames pm ∧ Exported cfg pm top rest n := by
  have hidx : unique ((indexNames pm).map (Ident.fromPy E)) = (unique (indexNames pm)).map (Ident.fromPy E) :=
    unique_map fun a ha b hb => fromPy_inj (hraw a (Or.inl ha)) (hraw b (Or.inl hb))
  have hpub : ∀ n, ¬ c!"r#" <+: n → (Ident.fromPy E n ∈ (pm.dir.map (Ident.fromPy E)).filter (fun i => !Str.startsWith i.asPy c!"_") ↔
      n ∈ pm.dir ∧ ¬ c!"_" <+: n) := by
    intro n hn
    rw [List.mem_filter, List.mem_map]
    constructor
    · rintro ⟨⟨k, hk, he⟩, h⟩
      have := fromPy_inj (hraw k (Or.inr hk)) hn he
      subst this
      refine ⟨hk, fun hp => ?_⟩
      rw [asPy_fromPy E hn, startsWith_private.mpr hp] at h
      cases h
    · rintro ⟨hk, hp⟩
      refine ⟨⟨n, hk, rfl⟩, ?_⟩
      rw [asPy_fromPy E hn]
      cases h : Str.startsWith n c!"_" with
      | false => rfl
      | true => exact absurd (startsWith_private.mp h) hp
  rw [extractPrelude_index]
  unfold extractPrelude indexIsPublic indexIdents
  simp only [hidx]
  split
  · rename_i hc
    rw [Bool.and_eq_true, List.all_eq_true, List.all_eq_true] at hc
    refine ⟨[], rfl, List.nodup_nil, List.nil_sublist _, fun n => ⟨fun h => absurd h List.not_mem_nil, fun h => absurd (fun k => ?_) h.1⟩⟩
    constructor
    · intro hk
      have := hc.1 _ (List.mem_map.mpr ⟨k, mem_unique.mpr hk, rfl⟩)
      rw [List.contains_iff_mem] at this
      exact (hpub k (hraw k (Or.inl hk))).mp this
    · intro hk
      have hr := hraw k (Or.inr hk.1)
      have := hc.2 _ ((hpub k hr).mpr hk)
      rw [List.contains_iff_mem, List.mem_map] at this
      obtain ⟨k', hk', he⟩ := this
      rw [mem_unique] at hk'
      exact fromPy_inj (hraw k' (Or.inl hk')) hr he ▸ hk'
  · rename_i hc
    have hnot : ¬ IndexIsPublic pm := by
      intro hp
      refine hc ?_
      rw [Bool.and_eq_true, List.all_eq_true, List.all_eq_true]
      constructor
      · intro i hi
        obtain ⟨k, hk, rfl⟩ := List.mem_map.mp hi
        rw [mem_unique] at hk
        rw [List.contains_iff_mem]
        exact (hpub k (hraw k (Or.inl hk))).mpr ((hp k).mp hk)
      · intro i hi
        obtain ⟨k, hk, rfl⟩ := List.mem_map.mp (List.mem_filter.mp hi).1
        rw [List.contains_iff_mem, List.mem_map]
        exact ⟨k, mem_unique.mpr ((hp k).mpr ((hpub k (hraw k (Or.inr hk))).mp hi)), rfl⟩
    have hsame : ∀ n, PyMod.getattr { pm with all := some (indexNames pm) } n = pm.getattr n := fun _ => rfl
    simp only [hsame]
    have hm : ((top :: rest).map (Ident.fromPy E)).map Ident.asPy = top :: rest := by
      rw [List.map_map]
      conv => rhs; rw [← List.map_id (top :: rest)]
      exact List.map_congr_left fun s h => asPy_fromPy E (hs s h).2.2.1
    obtain ⟨names, h1, h2, h3⟩ := keep_names cfg.generateDependencies (Ident.fromPy E)
      (fun i => match pm.getattr i.asPy with
        | some a => match (Path.mk false ((top :: rest).map (Ident.fromPy E))).root with
          | some r => (Path.fromPy E a.obj.modPath).startsWith r
          | none => false
        | none => false)
      (fun i => match pm.getattr i.asPy with
        | some _ => cfg.isAttrAllowed i ⟨false, (top :: rest).map (Ident.fromPy E)⟩
        | none => false) (unique (indexNames pm))
    refine ⟨names, ?_, h2.nodup (unique_nodup _), h2.trans (unique_sublist _), fun n => ?_⟩
    · rw [← h1]
      rfl
    · rw [h3, mem_unique, and_iff_right hnot]
      refine and_congr_right fun hn => ?_
      unfold Exported
      simp only [asPy_fromPy E (hraw n (Or.inl hn))]
      cases hg : pm.getattr n with
      | none => simp
      | some a =>
        have e1 := startsWith_top (E := E) (hs top (by simp)) (hmod n a hg) (rest.map (Ident.fromPy E))
        have e2 := C08_filter_iff cfg (Ident.fromPy E n) ⟨false, (top :: rest).map (Ident.fromPy E)⟩
        rw [asPy_fromPy E (hraw n (Or.inl hn))] at e2
        simp only [hm] at e2
        simp only [Option.some.injEq, exists_eq_left', e2]
        exact and_congr_left fun _ => or_congr_right e1

/-- Names of the index and of `dir()` are not spelled `r#…`, and `__module__` of an attribute is missing or an ordinary module
name. -/
def Spec.PlainNames (pm : PyMod) : Prop :=
  (∀ n, n ∈ indexNames pm ∨ n ∈ pm.dir → ¬ c!"r#" <+: n) ∧
  ∀ n a, pm.getattr n = some a → a.obj.modPath = [] ∨
    ∃ ms : List Str, ms ≠ [] ∧ (∀ x ∈ ms, PySegment x) ∧ a.obj.modPath = Str.join c!"." ms

/-- **C62** (parsing): unless the index just names the public attributes, the prelude of a module holds exactly the names of the
index that are attributes, allowed and from the same package; each once and in the order of the index. -/
theorem C62_parsed (E : Env) (cfg : Config) (W : World) (fuel id : Nat) (M : Module) (h : Module.parse E cfg W fuel id = .ok M)
    (pm : PyMod) (hg : W.get? id = some pm) (top : Str) (rest : List Str) (hn : pm.name = some (Str.join c!"." (top :: rest)))
    (hs : ∀ s ∈ top :: rest, PySegment s) (hpl : PlainNames pm) :
    ∃ names : List Str, M.prelude = names.map (Ident.fromPy E) ∧ names.Nodup ∧ names.Sublist (indexNames pm) ∧
      ∀ n, n ∈ names ↔ cfg.generatePreludes = true ∧ ¬ IndexIsPublic pm ∧ n ∈ indexNames pm ∧ Exported cfg pm top rest n := by
  cases fuel with
  | zero => exact absurd h parse_zero
  | succ fuel =>
    obtain ⟨p⟩ := parse_parts h
    have e1 := p.get
    rw [hg] at e1
    cases e1
    have e2 := p.pmName
    rw [hn] at e2
    have hf := fromPy_dotted E 0 (List.cons_ne_nil top rest) hs
    simp only [dotted, List.replicate_zero, List.nil_append] at hf
    have hname : M.name = ⟨false, (top :: rest).map (Ident.fromPy E)⟩ := by rw [p.name, ← Option.some.inj e2, hf]
    have hpre := p.prelude
    rw [hname] at hpre
    cases hc : cfg.generatePreludes with
    | false =>
      rw [hc] at hpre
      exact ⟨[], by rw [hpre]; rfl, List.nodup_nil, List.nil_sublist _, by simp⟩
    | true =>
      rw [hc] at hpre
      obtain ⟨names, h1, h2, h3, h4⟩ := extractPrelude_names E cfg p.pm top rest hs hpl.1 hpl.2
      exact ⟨names, hpre.trans h1, h2, h3, fun n => by rw [h4, and_iff_right rfl]⟩

/-- The module holds a submodule, class, function, type variable or variable of that name. -/
def Spec.HoldsName (E : Env) (m : Module) (n : Str) : Prop :=
  ∃ p, (p ∈ m.submodules.map Module.name ∨ p ∈ m.classes.map Class.name ∨ p ∈ m.functions.map Function.name ∨
    p ∈ m.typeVars.map TypeVar.name ∨ p ∈ m.properties.map Property.name) ∧ p.segs.getLast? = some (Ident.fromPy E n)

theorem anyName_complete {i : Ident} {l : List Path} {b : Bool} (h : anyName i l = .ok b) {p : Path} (hp : p ∈ l)
    (hn : p.segs.getLast? = some i) : b = true := by
  induction l with
  | nil => cases hp
  | cons q l ih =>
    unfold anyName at h
    obtain ⟨n, hq, h⟩ := Res.bind_ok h
    split at h
    · cases h; rfl
    · rename_i hne
      rcases List.mem_cons.mp hp with rfl | hp
      · rw [name_ok hn] at hq
        cases hq
        exact absurd rfl hne
      · exact ih h hp

theorem anyName_outcome (i : Ident) (l : List Path) : (∃ p, anyName i l = .error (.panic p)) ∨ ∃ b, anyName i l = .ok b := by
  induction l with
  | nil => exact Or.inr ⟨_, rfl⟩
  | cons q l ih =>
    unfold anyName
    unfold Path.name
    cases q.name? with
    | none => exact Or.inl ⟨_, rfl⟩
    | some n =>
      simp only [Res.ofOption, Res.ok_bind]
      split
      · exact Or.inr ⟨_, rfl⟩
      · exact ih

/-- If every name of the prelude can be spelled, its exports are spelled names of the prelude, in the same order: those that the
module has. -/
theorem preludeExports_complete {E : Env} {m : Module} {l : List Ident} (hl : ∀ i ∈ l, ∃ t, i.toSyn E = some t) :
    (∃ p, m.preludeExports E l = .error (.panic p)) ∨ ∃ es sub, m.preludeExports E l = .ok es ∧ sub.Sublist l ∧
      List.Forall₂ (fun (i : Ident) t => i.toSyn E = some t) sub es ∧ (∀ i ∈ l, m.identExists i false = .ok true → i ∈ sub) ∧
      ∀ i ∈ l, ∃ b, m.identExists i false = .ok b := by
  induction l with
  | nil => exact Or.inr ⟨[], [], rfl, .slnil, .nil, by simp, by simp⟩
  | cons i l ih =>
    unfold Module.preludeExports
    rcases anyName_outcome i (m.immediateNames false) with ⟨p, hp⟩ | ⟨b, hb⟩
    · exact Or.inl ⟨p, by unfold Module.identExists; rw [hp]; rfl⟩
    · have hb' : m.identExists i false = .ok b := hb
      rw [hb', Res.ok_bind]
      obtain ⟨t, ht⟩ := hl i (by simp)
      rcases ih fun j hj => hl j (List.mem_cons_of_mem _ hj) with ⟨p, hp⟩ | ⟨es, sub, h1, h2, h3, h4, h5⟩
      · left
        refine ⟨p, ?_⟩
        cases b with
        | true => simp only [if_true, Ident.trySyn, ht]; rw [hp]; rfl
        | false => simpa using hp
      · right
        have h5' : ∀ j ∈ i :: l, ∃ b, m.identExists j false = .ok b := by
          intro j hj
          rcases List.mem_cons.mp hj with rfl | hj
          · exact ⟨b, hb'⟩
          · exact h5 j hj
        cases b with
        | true =>
          refine ⟨t :: es, i :: sub, ?_, h2.cons_cons _, .cons ht h3, ?_, h5'⟩
          · simp only [if_true, Ident.trySyn, ht]; rw [h1]; rfl
          · intro j hj hx
            rcases List.mem_cons.mp hj with rfl | hj
            · simp
            · exact List.mem_cons_of_mem _ (h4 j hj hx)
        | false =>
          refine ⟨es, sub, by simpa using h1, h2.cons _, h3, ?_, h5'⟩
          intro j hj hx
          rcases List.mem_cons.mp hj with rfl | hj
          · rw [hb'] at hx; cases hx
          · exact h4 j hj hx

theorem forall₂_mem_left {α β : Type} {R : α → β → Prop} {l : List α} {r : List β} (h : List.Forall₂ R l r) {a : α} (ha : a ∈ l) :
    ∃ b ∈ r, R a b := by
  induction h with
  | nil => cases ha
  | cons h1 _ ih =>
    rcases List.mem_cons.mp ha with rfl | ha
    · exact ⟨_, by simp, h1⟩
    · obtain ⟨b, hb, h⟩ := ih ha
      exact ⟨b, by simp [hb], h⟩

theorem forall₂_mem_right {α β : Type} {R : α → β → Prop} {l : List α} {r : List β} (h : List.Forall₂ R l r) {b : β} (hb : b ∈ r) :
    ∃ a ∈ l, R a b := by
  induction h with
  | nil => cases hb
  | cons h1 _ ih =>
    rcases List.mem_cons.mp hb with rfl | hb
    · exact ⟨_, by simp, h1⟩
    · obtain ⟨a, ha, h⟩ := ih hb
      exact ⟨a, by simp [ha], h⟩

theorem forall₂_nodup {α β : Type} {R : α → β → Prop} {l : List α} {r : List β} (h : List.Forall₂ R l r) (hl : l.Nodup)
    (hR : ∀ a ∈ l, ∀ a' ∈ l, ∀ b, R a b → R a' b → a = a') : r.Nodup := by
  induction h with
  | nil => exact List.nodup_nil
  | @cons a b l r h1 h2 ih =>
    rw [List.nodup_cons] at hl ⊢
    refine ⟨fun hb => ?_, ih hl.2 fun x hx y hy => hR x (List.mem_cons_of_mem _ hx) y (List.mem_cons_of_mem _ hy)⟩
    obtain ⟨a', ha', h⟩ := forall₂_mem_right h2 hb
    exact hl.1 (hR a (by simp) a' (List.mem_cons_of_mem _ ha') b h1 h ▸ ha')

/-- The prelude of a module whose prelude names can be spelled. -/
theorem content_prelude {E : Env} {cfg : Config} {imp : Str → Bool} {tops : List Module} {ts : List Path} {m : Module}
    {out : List Item} (h : m.content E cfg imp tops ts = .ok out) (hc : cfg.generatePreludes = true) (hd : m.prelude.Nodup)
    (hl : ∀ i ∈ m.prelude, ∃ n, i = Ident.fromPy E n ∧ IsIdent E n ∧ n ∉ unspellable) (n : Str)
    (hn : Ident.fromPy E n ∈ m.prelude) (hh : HoldsName E m n) :
    ∃ pn es t, .prelude pn es ∈ out ∧ es.Nodup ∧ t ∈ es ∧ (Ident.fromPy E n).toSyn E = some t := by
  obtain ⟨q⟩ := content_parts h
  have hq := q.preludeOk
  rw [hc] at hq
  have hsyn : ∀ i ∈ m.prelude, ∃ t, i.toSyn E = some t := by
    intro i hi
    obtain ⟨k, rfl, h1, h2⟩ := hl i hi
    obtain ⟨t, ht, -⟩ := spelled h1 h2
    exact ⟨t, ht⟩
  have hne : m.prelude.isEmpty = false := by
    cases hp : m.prelude with
    | nil => rw [hp] at hn; cases hn
    | cons a l => rfl
  have hnp : ∀ p, m.generatePrelude E ≠ .error (.panic p) := by
    intro p hp
    rw [hp] at hq
    cases hq
  have hgen : m.generatePrelude E = (do
      let exports ← m.preludeExports E m.prelude
      if exports.isEmpty then return none
      else do
        let names ← Res.traverse Path.name (m.immediateNames true)
        let ident ← (← fresh E c!"call" names).trySyn E
        return some (.prelude ident exports)) := by
    unfold Module.generatePrelude
    rw [hne]
    rfl
  rcases preludeExports_complete hsyn with ⟨p, hp⟩ | ⟨es, sub, h1, h2, h3, h4, h5⟩
  · refine absurd ?_ (hnp p)
    rw [hgen, hp]
    rfl
  · have hex : m.identExists (Ident.fromPy E n) false = .ok true := by
      obtain ⟨p, hp, hlast⟩ := hh
      have hmem : p ∈ m.immediateNames false := by
        unfold Module.immediateNames
        simp only [Bool.false_eq_true, if_false, List.nil_append, List.mem_append]
        tauto
      obtain ⟨b, hb⟩ := h5 _ hn
      rw [hb, anyName_complete hb hmem hlast]
    obtain ⟨t, hte, ht⟩ := forall₂_mem_left h3 (h4 _ hn hex)
    have hes : es.isEmpty = false := by
      cases hes : es with
      | nil => rw [hes] at hte; cases hte
      | cons a l => rfl
    have hnames : (∃ p, Res.traverse Path.name (m.immediateNames true) = .error (.panic p)) ∨
        ∃ names, Res.traverse Path.name (m.immediateNames true) = .ok names := by
      generalize m.immediateNames true = l
      induction l with
      | nil => exact Or.inr ⟨[], rfl⟩
      | cons q l ih =>
        unfold Res.traverse
        have hq : q.name = .error (.panic .unwrap) ∨ ∃ k, q.name = .ok k := by
          unfold Path.name
          cases q.name? with
          | none => exact Or.inl rfl
          | some k => exact Or.inr ⟨k, rfl⟩
        rcases hq with hq | ⟨k, hq⟩
        · exact Or.inl ⟨_, by rw [hq]; rfl⟩
        · rw [hq, Res.ok_bind]
          rcases ih with ⟨p, hp⟩ | ⟨names, hp⟩
          · exact Or.inl ⟨p, by rw [hp]; rfl⟩
          · exact Or.inr ⟨k :: names, by rw [hp]; rfl⟩
    rcases hnames with ⟨p, hp⟩ | ⟨names, hp⟩
    · refine absurd ?_ (hnp p)
      rw [hgen, h1, Res.ok_bind, hes]
      simp only [Bool.false_eq_true, if_false]
      rw [hp]
      rfl
    · obtain ⟨k, hk, -⟩ := C28_search E (newCall_isIdent E).2 names
      have hfin : m.generatePrelude E = .ok (some (.prelude (helperName c!"call" k) es)) := by
        rw [hgen, h1, Res.ok_bind, hes]
        simp only [Bool.false_eq_true, if_false]
        rw [hp, Res.ok_bind, hk, Res.ok_bind, trySyn_plain (helper_isIdent E (newCall_isIdent E).2 k) (call_not_keyword k)]
        rfl
      rw [hfin] at hq
      have hq : q.prelude = some (some (.prelude (helperName c!"call" k) es)) :=
        (Except.ok.inj (show Except.ok (some (some (Item.prelude (helperName c!"call" k) es))) = Except.ok q.prelude from hq)).symm
      refine ⟨helperName c!"call" k, es, t, ?_, ?_, hte, ht⟩
      · rw [q.content, hq]
        simp only [List.mem_append]
        exact Or.inl (Or.inl (Or.inl (Or.inl (Or.inr (List.mem_singleton.mpr rfl)))))
      · refine forall₂_nodup h3 (h2.nodup hd) ?_
        intro a ha b hb u hu hu'
        obtain ⟨x, rfl, hx1, hx2⟩ := hl a (h2.subset ha)
        obtain ⟨y, rfl, hy1, hy2⟩ := hl b (h2.subset hb)
        obtain ⟨u1, e1, f1⟩ := spelled hx1 hx2
        obtain ⟨u2, e2, f2⟩ := spelled hy1 hy2
        rw [hu] at e1
        rw [hu'] at e2
        cases e1
        cases e2
        rw [← f1, f2]

theorem parsed_module {E : Env} {cfg : Config} {W : World} {m : Module} (h : Parsed E cfg W m) :
    ∃ id pm n, W.get? id = some pm ∧ pm.name = some n ∧ m.name = Path.fromPy E n ∧
      ∀ i ∈ m.prelude, ∃ k ∈ indexNames pm, i = Ident.fromPy E k := by
  obtain ⟨fuel, id, h⟩ := h
  cases fuel with
  | zero => exact absurd h parse_zero
  | succ fuel =>
    obtain ⟨p⟩ := parse_parts h
    refine ⟨id, p.pm, p.nm, p.get, p.pmName, p.name, fun i hi => ?_⟩
    have hpre := p.prelude
    rw [extractPrelude_index] at hpre
    rw [hpre] at hi
    split at hi
    · unfold extractPrelude at hi
      simp only at hi
      split at hi
      · cases hi
      · have hi := (List.mem_filter.mp hi).1
        have : i ∈ unique ((indexNames p.pm).map (Ident.fromPy E)) := by
          split at hi
          · exact hi
          · exact (List.mem_filter.mp hi).1
        obtain ⟨k, hk, rfl⟩ := List.mem_map.mp (mem_unique.mp this)
        exact ⟨k, hk, rfl⟩
    · cases hi

/-- **C62** (output): every name of the index of a requested module that belongs in the prelude, and for which the module holds
something, is exported by the prelude of the generated module, whose exports are all different. Missing: indices with a name that
cannot be spelled in Rust, for which it is false (`C62_unspellable_counterexample`); the case that submodules are not traversed
and the name is dotted; names that are re-exports (`C62_reexport_counterexample`). -/
theorem C62_output_partial (E : Env) (W : World) (hW : OrdinaryWorld W) (fuel : Nat) (cfg : Config) (srcs : List (Str × Str))
    (c : Codegen) (items : List Item) (hb : Built E W fuel cfg srcs c) (h : c.generate E W fuel = .ok items)
    (hc : cfg.generatePreludes = true) (fuel' id : Nat) (pm : PyMod) (top : Str) (rest : List Str) (hg : W.get? id = some pm)
    (hn : pm.name = some (Str.join c!"." (top :: rest))) (hs : ∀ s ∈ top :: rest, PySegment s) (hpl : PlainNames pm)
    (m : Module) (hp : Module.parse E cfg W fuel' id = .ok m) (hm : m ∈ c.modules) (ht : cfg.traverseSubmodules = true ∨ rest = [])
    (hspell : ∀ id' pm', W.get? id' = some pm' → pm'.name = some (Str.join c!"." (top :: rest)) →
      ∀ n ∈ indexNames pm', IsIdent E n ∧ n ∉ unspellable) :
    ∃ idents content, ModChain items idents content ∧
      List.Forall₂ (fun (s : Str) i => (Ident.fromPy E s).toSyn E = some i) (top :: rest) idents ∧
      ∀ n ∈ indexNames pm, ¬ IndexIsPublic pm → Exported cfg pm top rest n → HoldsName E m n →
        ∃ pn es t, .prelude pn es ∈ content ∧ es.Nodup ∧ t ∈ es ∧ unraw t = n := by
  have b := built_ok hb
  have hpar : ∀ m ∈ c.modules, Parsed E c.cfg W m := b.config ▸ b.parsed
  have hf := fromPy_dotted E 0 (List.cons_ne_nil top rest) hs
  simp only [dotted, List.replicate_zero, List.nil_append] at hf
  have hname : m.name = ⟨false, (top :: rest).map (Ident.fromPy E)⟩ := by
    cases fuel' with
    | zero => exact absurd hp parse_zero
    | succ fuel' =>
      obtain ⟨p⟩ := parse_parts hp
      have e1 := p.get
      rw [hg] at e1
      cases e1
      have e2 := p.pmName
      rw [hn] at e2
      rw [p.name, ← Option.some.inj e2, hf]
  obtain ⟨idents, content, h1, h2, out, M, ts, own, g1, g2, g3, g4, g5, g6, g7⟩ :=
    C39_module_partial E W fuel c items h m hm (by
      rw [b.config, hname]
      exact ht.imp (fun h => h) fun h => by simp [h])
  rw [hname, List.forall₂_map_left_iff] at h2
  refine ⟨idents, content, h1, h2, fun n hni hpub hex hh => ?_⟩
  obtain ⟨names, k1, k2, k3, k4⟩ := C62_parsed E cfg W fuel' id m hp pm hg top rest hn hs hpl
  have hmem : Ident.fromPy E n ∈ m.prelude := by
    rw [k1]
    exact List.mem_map.mpr ⟨n, (k4 n).mpr ⟨hc, hpub, hni, hex⟩, rfl⟩
  have hprel : ∀ i ∈ M.prelude, ∃ k, i = Ident.fromPy E k ∧ IsIdent E k ∧ k ∉ unspellable := by
    intro i hi
    obtain ⟨m', j1, j2, j3⟩ := prepared_has g1 hpar g2 (x := .prelude i) hi
    obtain ⟨id', pm', n', f1, f2, f3, f4⟩ := parsed_module j1
    obtain ⟨k, hk, rfl⟩ := f4 i j3
    obtain ⟨segs, s1, s2, s3⟩ := hW id' pm' n' f1 f2
    have heq : segs = top :: rest := by
      have e : Path.fromPy E n' = Path.fromPy E (Str.join c!"." (top :: rest)) := by rw [← f3, j2, g3, hname, hf]
      have t1 := toPy_fromPy E 0 s1 s2
      have t2 := toPy_fromPy E 0 (List.cons_ne_nil top rest) hs
      simp only [dotted, List.replicate_zero, List.nil_append] at t1 t2
      have hf' := fromPy_dotted E 0 s1 s2
      simp only [dotted, List.replicate_zero, List.nil_append] at hf'
      rw [s3, hf', hf] at e
      have e := congrArg (fun p => p.segs.map Ident.asPy) e
      have hid : ∀ l : List Str, (∀ s ∈ l, PySegment s) → (l.map (Ident.fromPy E)).map Ident.asPy = l := by
        intro l hl
        rw [List.map_map]
        conv => rhs; rw [← List.map_id l]
        exact List.map_congr_left fun s h => asPy_fromPy E (hl s h).2.2.1
      simpa only [hid segs s2, hid (top :: rest) hs] using e
    subst heq
    exact ⟨k, rfl, hspell id' pm' f1 (by rw [f2, s3]) k hk⟩
  have hMn : Ident.fromPy E n ∈ M.prelude := g4 (.prelude _) hmem
  have hHolds : HoldsName E M n := by
    obtain ⟨p, hp, hl⟩ := hh
    refine ⟨p, ?_, hl⟩
    simp only [List.mem_map] at hp ⊢
    rcases hp with ⟨x, hx, rfl⟩ | ⟨x, hx, rfl⟩ | ⟨x, hx, rfl⟩ | ⟨x, hx, rfl⟩ | ⟨x, hx, rfl⟩
    · exact Or.inl (g5 x hx)
    · exact Or.inr (Or.inl ⟨x, g4 (.class x) hx, rfl⟩)
    · exact Or.inr (Or.inr (Or.inl ⟨x, g4 (.function x) hx, rfl⟩))
    · exact Or.inr (Or.inr (Or.inr (Or.inl ⟨x, g4 (.typeVar x) hx, rfl⟩)))
    · exact Or.inr (Or.inr (Or.inr (Or.inr ⟨x, g4 (.property x) hx, rfl⟩)))
  have honce := (C38_once E W fuel c hpar out g1 M g2).1
  obtain ⟨pn, es, t, r1, r2, r3, r4⟩ := content_prelude g6 (b.config ▸ hc) honce hprel n hMn hHolds
  refine ⟨pn, es, t, g7 _ r1, r2, r3, ?_⟩
  obtain ⟨q1, q2⟩ := hspell id pm hg hn n hni
  obtain ⟨t', e1, e2⟩ := spelled q1 q2
  rw [r4] at e1
  cases e1
  exact e2

/-- **C62** (output, converse): whatever a generated prelude exports is a name of the index of a Python module that belongs in its
prelude. -/
theorem C62_exports (E : Env) (W : World) (hW : OrdinaryWorld W) (hpl : ∀ id pm, W.get? id = some pm → PlainNames pm) (fuel : Nat)
    (cfg : Config) (srcs : List (Str × Str)) (c : Codegen) (items : List Item) (hb : Built E W fuel cfg srcs c)
    (h : c.generate E W fuel = .ok items) (allow : Bool) (doc : Option Str) (k : Str) (inner : List Item)
    (hx : Within (.mod allow doc k inner) items) (pn : Str) (es : List Str) (hpre : .prelude pn es ∈ inner) (e : Str) (he : e ∈ es) :
    cfg.generatePreludes = true ∧ ∃ id pm top rest n, W.get? id = some pm ∧ pm.name = some (Str.join c!"." (top :: rest)) ∧
      (∃ s, (top :: rest).getLast? = some s ∧ (Ident.fromPy E s).toSyn E = some k) ∧ ¬ IndexIsPublic pm ∧ n ∈ indexNames pm ∧
      Exported cfg pm top rest n ∧ (Ident.fromPy E n).toSyn E = some e := by
  have hbo := built_ok hb
  have hcfg := hbo.config
  subst hcfg
  obtain ⟨out, hprep, hfrom⟩ := generate_from h
  obtain ⟨M, hM, q, hin⟩ := from_mod (hfrom _ hx)
  obtain ⟨p⟩ := content_parts q.contentOk
  have hprec : .prelude pn es ∈ q.content := by
    rw [hin] at hpre
    simp only [List.mem_append] at hpre
    rcases hpre with (hpre | hpre) | hpre
    · unfold embedItems at hpre
      split at hpre <;> simp at hpre
    · exact hpre
    · rcases ifOn_ok q.modsOk with ⟨-, hmods⟩ | ⟨-, hmods⟩
      · obtain ⟨s, -, hg⟩ := traverse_mem hmods hpre
        obtain ⟨q'⟩ := generate_parts hg
        exact absurd q'.item (by simp)
      · rw [hmods] at hpre; cases hpre
  cases content_from p hprec with
  | prelude _ _ _ hg =>
    obtain ⟨n', es', names, i', he', hes, -, -, -, -⟩ := generatePrelude_prelude hg
    cases he'
    obtain ⟨i, hi, hex, hsyn⟩ := preludeExports_mem hes he
    obtain ⟨m, ⟨fu, id, hm⟩, hmn, hmx⟩ := prepared_has hprep hbo.parsed hM (x := .prelude i) hi
    obtain ⟨pm, nm, hget, hpn, hname⟩ : ∃ pm nm, W.get? id = some pm ∧ pm.name = some nm ∧ m.name = Path.fromPy E nm := by
      cases fu with
      | zero => exact absurd hm parse_zero
      | succ fu =>
        obtain ⟨p⟩ := parse_parts hm
        exact ⟨p.pm, p.nm, p.get, p.pmName, p.name⟩
    obtain ⟨segs, s1, s2, rfl⟩ := hW id pm nm hget hpn
    cases segs with
    | nil => exact absurd rfl s1
    | cons top rest =>
      obtain ⟨names', k1, -, -, k4⟩ := C62_parsed E c.cfg W fu id m hm pm hget top rest hpn s2 (hpl id pm hget)
      have hmx : i ∈ m.prelude := hmx
      rw [k1] at hmx
      obtain ⟨n, hn, rfl⟩ := List.mem_map.mp hmx
      obtain ⟨r1, r2, r3, r4⟩ := (k4 n).mp hn
      refine ⟨r1, id, pm, top, rest, n, hget, hpn, ?_, r2, r3, r4, hsyn⟩
      have hf := fromPy_dotted E 0 s1 s2
      simp only [dotted, List.replicate_zero, List.nil_append] at hf
      have hlast := q.lastOk
      rw [← hmn, hname, hf] at hlast
      simp only [List.getLast?_map] at hlast
      cases hl : (top :: rest).getLast? with
      | none => simp at hl
      | some s =>
        rw [hl] at hlast
        have hid := q.identOk
        rw [← Option.some.inj hlast] at hid
        have hit := q.item
        injection hit with _ _ hk _
        exact ⟨s, rfl, hk ▸ hid⟩

/-! ## Examples -/

/-- A package with the functions `f`, `g`, `crate`, the variable `VALUE` and the re-export `h`, and this index. -/
def exIndexPkg (index : List Str) : PyMod where
  name := some c!"pkg"
  all := some index
  dir := [c!"VALUE", c!"crate", c!"f", c!"g", c!"h"]
  attrs := [(c!"f", { obj := exFnObj c!"pkg" }), (c!"g", { obj := exFnObj c!"pkg" }), (c!"crate", { obj := exFnObj c!"pkg" }),
    (c!"VALUE", { obj := exIntObj }), (c!"h", { obj := { exFnObj c!"pkg.sub" with dunderName := some c!"h" } })]
  isPackage := true
  iterModules := some [c!"sub"]

/-- Its submodule. -/
def exIndexSub : PyMod where
  name := some c!"pkg.sub"
  dir := [c!"h"]
  attrs := [(c!"h", { obj := exFnObj c!"pkg.sub" })]

/-- The interpreter with that package. -/
def exIndexWorld (index : List Str) : World where
  mods := [exIndexPkg index, exIndexSub]
  importMod s := if s = c!"pkg" then some 0 else if s = c!"pkg.sub" then some 1 else none

/-- The exports of the preludes in the first generated module. -/
def exExports (items : List Item) : List (List Str) :=
  match items with
  | .mod _ _ _ l :: _ => l.filterMap fun (x : Item) => match x with
    | .prelude _ es => some es
    | _ => none
  | _ => []

theorem exIndexWorld_ordinary (index : List Str) : OrdinaryWorld (exIndexWorld index) := by
  intro id m n hm hn
  match id with
  | 0 => cases hm; cases hn; exact ⟨[c!"pkg"], by decide, by unfold PySegment; decide, rfl⟩
  | 1 => cases hm; cases hn; exact ⟨[c!"pkg", c!"sub"], by decide, by unfold PySegment; decide, rfl⟩
  | k + 2 => cases hm

theorem exIndex_plain : ∀ id pm, (exIndexWorld [c!"g", c!"f"]).get? id = some pm → PlainNames pm := by
  have hmod : ∀ (pm : PyMod), (∀ x ∈ pm.attrs, x.2.obj.modPath = [] ∨ x.2.obj.modPath = c!"pkg" ∨ x.2.obj.modPath = c!"pkg.sub") →
      ∀ n a, pm.getattr n = some a → a.obj.modPath = [] ∨
        ∃ ms : List Str, ms ≠ [] ∧ (∀ x ∈ ms, PySegment x) ∧ a.obj.modPath = Str.join c!"." ms := by
    intro pm h n a ha
    obtain ⟨x, hx, rfl⟩ : ∃ x ∈ pm.attrs, x.2 = a := by
      unfold PyMod.getattr at ha
      rw [List.lookup_eq_some_iff] at ha
      obtain ⟨l1, l2, h1, -⟩ := ha
      exact ⟨(n, a), by rw [h1]; simp, rfl⟩
    rcases h x hx with h | h | h
    · exact Or.inl h
    · exact Or.inr ⟨[c!"pkg"], by decide, by unfold PySegment; decide, h⟩
    · exact Or.inr ⟨[c!"pkg", c!"sub"], by decide, by unfold PySegment; decide, h⟩
  intro id pm hg
  match id with
  | 0 =>
    cases hg
    refine ⟨?_, hmod _ (by decide)⟩
    intro n hn
    have : n ∈ [c!"g", c!"f"] ++ [c!"VALUE", c!"crate", c!"f", c!"g", c!"h"] := List.mem_append.mpr hn
    clear hn
    revert n
    decide
  | 1 =>
    cases hg
    refine ⟨?_, hmod _ (by decide)⟩
    intro n hn
    have : n ∈ ([] : List Str) ++ [c!"h"] := List.mem_append.mpr hn
    clear hn
    revert n
    decide
  | k + 2 => cases hg

/-- The index `["g", "f"]`: the prelude exports `g` and `f`. -/
example : OrdinaryWorld (exIndexWorld [c!"g", c!"f"]) ∧ (∀ id pm, (exIndexWorld [c!"g", c!"f"]).get? id = some pm → PlainNames pm) ∧
    ¬ IndexIsPublic (exIndexPkg [c!"g", c!"f"]) ∧ Exported {} (exIndexPkg [c!"g", c!"f"]) c!"pkg" [] c!"f" ∧
    (IsIdent exEnv c!"f" ∧ c!"f" ∉ unspellable) ∧ (IsIdent exEnv c!"g" ∧ c!"g" ∉ unspellable) ∧
    ∃ c items, Built exEnv (exIndexWorld [c!"g", c!"f"]) 5 {} [] c ∧ c.generate exEnv (exIndexWorld [c!"g", c!"f"]) 5 = .ok items ∧
      exExports items = [[c!"g", c!"f"]] := by
  refine ⟨exIndexWorld_ordinary _, exIndex_plain, fun h => ?_, ⟨_, rfl, Or.inr (Or.inl rfl), ?_⟩,
    ⟨isIdent_ascii _ _ (by decide) (by decide), by decide⟩, ⟨isIdent_ascii _ _ (by decide) (by decide), by decide⟩,
    built_run (names := [c!"pkg"]) (by decide +kernel)⟩
  · exact absurd ((h c!"VALUE").mpr ⟨by decide, by decide⟩) (by decide)
  · exact ⟨by decide, by decide, Or.inr ⟨by decide, by decide⟩, by decide, by decide⟩

/-- A name in the index that cannot be spelled in Rust, the function `crate`, suppresses the whole prelude. -/
theorem C62_unspellable_counterexample :
    ((Codegen.new {}).moduleNames exEnv (exIndexWorld [c!"f", c!"crate"]) 5 [c!"pkg"] >>=
      fun c => c.generate exEnv (exIndexWorld [c!"f", c!"crate"]) 5).map exExports = .ok [] ∧
    ((Codegen.new {}).moduleNames exEnv (exIndexWorld [c!"f"]) 5 [c!"pkg"] >>=
      fun c => c.generate exEnv (exIndexWorld [c!"f"]) 5).map exExports = .ok [[c!"f"]] := by
  constructor <;> decide +kernel

/-- Names of the index that the module re-exports (`h`, from a submodule) or that hold a plain value (`VALUE`) are not exported,
though the module binds them: it has a `use` (kind 0) and accessors (kind 5). -/
theorem C62_reexport_counterexample :
    ((Codegen.new {}).moduleNames exEnv (exIndexWorld [c!"f", c!"h", c!"VALUE"]) 5 [c!"pkg"] >>=
      fun c => c.generate exEnv (exIndexWorld [c!"f", c!"h", c!"VALUE"]) 5).map (fun items => (exExports items, exKinds items)) =
      .ok ([[c!"f"]], [(0, 0), (1, 0), (4, 1), (4, 1), (4, 1), (5, 0), (5, 0), (8, 0)]) := by decide +kernel

end Bindgen
