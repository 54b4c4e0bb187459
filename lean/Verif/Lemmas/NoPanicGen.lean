import Verif.Lemmas.NoPanic
/-! # Generation that does not panic -/
namespace Bindgen
open Spec

/-- The paths of the types that signatures can mention are legal. -/
def LegalTypes (E : Env) (lt : LocalTypes) : Prop := ∀ x ∈ lt, x.2.synOk E = true

/-- The names in a type are without `::`, if debug assertions are on. -/
def PlainTy (E : Env) (t : PyTy) : Prop := ∀ n ∈ tyNames t, NoColons E n

theorem PlainTy.sub {E : Env} {t u : PyTy} (h : PlainTy E t) (hs : ∀ n ∈ tyNames u, n ∈ tyNames t) : PlainTy E u :=
  fun n hn => h n (hs n hn)

theorem plain_fromAnn {E : Env} {a : PyAnn} (h : Readable E a) {t : PyTy} (ht : fromAnn E a = .ok t) : PlainTy E t := by
  intro n hn hd hc
  obtain ⟨s, hs, hcs⟩ := C16_names_partial E c!"::" (by decide) (by decide) a t ht n hn hc
  exact h.texts s hs hd hcs

theorem plain_readAnn {E : Env} {a : Option PyAnn} (h : ∀ x, a = some x → Readable E x) {t : PyTy} (ht : readAnn E a = .ok t) :
    PlainTy E t := by
  cases a with
  | none => cases ht; exact fun n hn => by cases hn
  | some a => exact plain_fromAnn (h a rfl) ht

theorem plain_ownType {E : Env} {o : PyObj} (h : Readable E (.cls o.typeBases o.typeRepr)) {t : PyTy} (ht : ownType E o = .ok t) :
    PlainTy E t := plain_fromAnn h (by rw [fromAnn]; exact ht)

theorem beforeChar_prefix (c : Char) (s : Str) : Str.beforeChar c s <+: s := by
  unfold Str.beforeChar
  exact List.takeWhile_prefix _

theorem safe_mapType {E : Env} {lt : LocalTypes} (h : LegalTypes E lt) {s : Str} (hs : NoColons E s) : Safe (mapType E lt s) := by
  unfold mapType
  split
  · exact Only.ok _
  · refine Only.bind (safe_pathCheck_one fun hd hc => hs hd (hc.trans (beforeChar_prefix _ _).isInfix)) fun _ _ => ?_
    split
    · rename_i rel hrel
      have := h _ (List.mem_reverse.mp (lookup_mem hrel))
      rw [if_pos this]
      exact Only.ok _
    · exact Only.ok _

mutual
theorem safe_intoRs {E : Env} {lt : LocalTypes} (h : LegalTypes E lt) (t : PyTy) (ht : PlainTy E t) : Safe (intoRs E lt t) := by
  cases t with
  | other s => simp only [intoRs]; exact safe_mapType h (ht s (by simp [tyNames]))
  | optional t => simp only [intoRs]; exact Only.bind (safe_intoRs h t (ht.sub (by simp +contextual [tyNames]))) fun _ _ => Only.pure _
  | dict k v =>
    simp only [intoRs]
    refine Only.bind (safe_intoRs h v (ht.sub (by simp +contextual [tyNames]))) fun _ _ => ?_
    split
    · exact Only.bind (safe_intoRs h k (ht.sub (by simp +contextual [tyNames]))) fun _ _ => Only.pure _
    · exact Only.pure _
  | frozenSet t =>
    simp only [intoRs]
    split
    · exact Only.bind (safe_intoRs h t (ht.sub (by simp +contextual [tyNames]))) fun _ _ => Only.pure _
    · exact Only.ok _
  | set t =>
    simp only [intoRs]
    split
    · exact Only.bind (safe_intoRs h t (ht.sub (by simp +contextual [tyNames]))) fun _ _ => Only.pure _
    · exact Only.ok _
  | list t => simp only [intoRs]; exact Only.bind (safe_intoRs h t (ht.sub (by simp +contextual [tyNames]))) fun _ _ => Only.pure _
  | tuple ts =>
    match ts with
    | [] => simp only [intoRs]; exact Only.ok _
    | [_] => simp only [intoRs]; exact Only.ok _
    | [t, u] =>
      simp only [intoRs]
      split
      · exact Only.bind (safe_intoRs h t (ht.sub (by simp +contextual [tyNames, tyNamesList]))) fun _ _ => Only.pure _
      · exact Only.bind (safe_intoRs h t (ht.sub (by simp +contextual [tyNames, tyNamesList]))) fun _ _ => Only.bind (safe_intoRs h u (ht.sub (by simp +contextual [tyNames, tyNamesList]))) fun _ _ => Only.pure _
    | t :: u :: w :: ts =>
      simp only [intoRs]
      exact Only.bind (safe_intoRs h t (ht.sub (by simp +contextual [tyNames, tyNamesList]))) fun _ _ => Only.bind (safe_intoRs h u (ht.sub (by simp +contextual [tyNames, tyNamesList]))) fun _ _ =>
        Only.bind (safe_intoRs h w (ht.sub (by simp +contextual [tyNames, tyNamesList]))) fun _ _ => Only.bind (safe_intoRsList h ts fun n hn => ht n (by simp [tyNames, tyNamesList, hn])) fun _ _ => Only.pure _
  | _ => simp only [intoRs]; exact Only.ok _
theorem safe_intoRsList {E : Env} {lt : LocalTypes} (h : LegalTypes E lt) (ts : List PyTy)
    (ht : ∀ n ∈ tyNamesList ts, NoColons E n) : Safe (intoRsList E lt ts) := by
  match ts with
  | [] => simp only [intoRsList]; exact Only.ok _
  | t :: ts =>
    simp only [intoRsList]
    exact Only.bind (safe_intoRs h t (fun n hn => ht n (by simp [tyNamesList, hn]))) fun _ _ => Only.bind (safe_intoRsList h ts fun n hn => ht n (by simp [tyNamesList, hn])) fun _ _ => Only.pure _
end

theorem safe_owned {E : Env} {lt : LocalTypes} (h : LegalTypes E lt) (t : PyTy) (ht : PlainTy E t) : Safe (intoRsOwned E lt t) :=
  Only.bind (safe_intoRs h _ ht) fun _ _ => Only.pure _

theorem safe_borrowed {E : Env} {lt : LocalTypes} (h : LegalTypes E lt) (t : PyTy) (ht : PlainTy E t) : Safe (intoRsBorrowed E lt t) :=
  Only.bind (safe_intoRs h _ ht) fun _ _ => Only.pure _

theorem safe_dictConv {E : Env} {lt : LocalTypes} (h : LegalTypes E lt) {k v : PyTy} (hv : PlainTy E v) :
    Safe (dictNeedsConversion E lt k v) := by
  unfold dictNeedsConversion
  split
  · exact Only.ok _
  · exact Only.bind (safe_intoRs h _ hv) fun _ _ => Only.pure _

theorem safe_preprocess {E : Env} {lt : LocalTypes} (h : LegalTypes E lt) (t : PyTy) (ht : PlainTy E t) : Safe (preprocess E lt t) := by
  cases t with
  | other n =>
    simp only [preprocess]
    split
    · exact Only.ok _
    · exact Only.bind (safe_pathCheck_one (ht n (by simp [tyNames]))) fun _ _ => Only.pure _
  | dict k v => exact Only.bind (safe_dictConv h (ht.sub (by simp +contextual [tyNames]))) fun _ _ => Only.pure _
  | optional t =>
    cases t with
    | dict k v => exact Only.bind (safe_dictConv h (ht.sub (by simp +contextual [tyNames]))) fun _ _ => Only.pure _
    | _ => exact Only.ok _
  | _ => exact Only.ok _

theorem safe_importQuote (imp : Str → Bool) {p : Path} (h : p.segs ≠ []) : Safe (p.importQuote imp) := by
  unfold Path.importQuote Path.root
  split
  · rename_i hr
    split at hr
    · exact absurd ‹_› h
    · cases hr
  · exact Only.ok _

theorem safe_parentQuote (imp : Str → Bool) {p : Path} (h : 1 < p.segs.length) {site : PanicSite} :
    Safe (do (← Res.ofOption site p.parent).importQuote imp) := by
  have hp : p.parent = some ⟨p.leadingColon, p.segs.take (p.segs.length - 1)⟩ := by rw [Path.parent, if_pos h]
  rw [hp]
  refine Only.bind (Only.ok _) fun q hq => ?_
  cases Except.ok.inj hq
  refine safe_importQuote imp fun he => ?_
  rcases List.take_eq_nil_iff.mp he with he | he
  · omega
  · rw [he] at h
    exact absurd h (by simp)

/-- The types of a function can be mapped. -/
def FnPlain (E : Env) (f : Function) : Prop := (∀ p ∈ f.params, PlainTy E p.ann) ∧ PlainTy E f.ret

/-- The names that a function refers to are not too short. -/
def FnOk (f : Function) : Prop :=
  match f.typ with
  | .method c _ => f.name.segs ≠ [] ∧ c.segs ≠ []
  | _ => 1 < f.name.segs.length

theorem FnOk.name {f : Function} (h : FnOk f) : f.name.segs ≠ [] := by
  unfold FnOk at h
  split at h
  · exact h.1
  · intro he; rw [he] at h; exact absurd h (by simp)

theorem safe_dispatcher (imp : Str → Bool) {f : Function} (h : FnOk f) : Safe (dispatcher imp f.name f.typ) := by
  unfold FnOk at h
  split at h
  · rename_i c m ht
    rw [ht]
    cases m <;> simp only [dispatcher] <;> first
      | exact Only.ok _
      | exact Only.bind (safe_importQuote imp h.2) fun _ _ => Only.pure _
  · rename_i hne
    have := safe_parentQuote imp h (site := .unreachable)
    cases ht : f.typ with
    | method c m => exact absurd ht (hne c m)
    | _ =>
      simp only [dispatcher]
      have hp : f.name.parent = some ⟨f.name.leadingColon, f.name.segs.take (f.name.segs.length - 1)⟩ := by
        rw [Path.parent, if_pos h]
      rw [hp] at this ⊢
      exact Only.bind (Only.ok _) fun q hq => Only.bind (by cases Except.ok.inj hq; exact this) fun _ _ => Only.pure _

theorem safe_fresh {E : Env} {b : Str} (hb : IsIdent E b) (l : List Ident) : Safe (fresh E b l) := by
  obtain ⟨i, hi, -⟩ := C28_search E hb l
  rw [hi]
  exact Only.ok _

theorem safe_contract (E : Env) (t : FnType) (i : Str) (tk : List Ident) (ps : List (Str × RsTy)) (r : RsTy) :
    Safe (Function.contract E t i tk ps r) := by
  unfold Function.contract
  split
  · exact Only.ok _
  · exact Only.bind (safe_fresh (isIdent_ascii E _ (by decide) (by decide)) _) fun _ _ => Only.bind (safe_trySyn ..) fun _ _ => Only.pure _
  · exact Only.bind (safe_fresh (isIdent_ascii E _ (by decide) (by decide)) _) fun _ _ => Only.bind (safe_trySyn ..) fun _ _ => Only.pure _
  · exact Only.ok _

theorem safe_paramIdent (E : Env) (p : Param) : Safe (paramIdent E p) := safe_trySyn ..

theorem safe_functionGenerate {E : Env} (cfg : Config) (imp : Str → Bool) (tk : List Ident) {lt : LocalTypes}
    (hlt : LegalTypes E lt) {f : Function} (hf : FnOk f) (ht : FnPlain E f) : Safe (Function.generate E cfg imp tk lt f) := by
  unfold Function.generate
  refine Only.bind (safe_name hf.name) fun n _ => ?_
  split
  · exact Only.pure _
  · refine Only.bind (Only.traverse fun _ _ => safe_paramIdent ..) fun _ _ =>
      Only.bind (Only.traverse fun p hp => safe_preprocess hlt _ (ht.1 p hp)) fun _ _ =>
      Only.bind (Only.traverse fun p hp => safe_borrowed hlt _ (ht.1 p hp)) fun _ _ =>
      Only.bind (safe_owned hlt _ ht.2) fun _ _ => Only.bind (safe_contract ..) fun _ _ =>
      Only.bind (safe_dispatcher imp hf) fun d _ => ?_
    split
    · exact Only.pure _
    · exact Only.bind (Only.bind (Only.traverse fun _ _ => safe_paramIdent ..) fun _ _ => Only.pure _) fun _ _ =>
        Only.bind (Only.bind (Only.traverse fun _ _ => safe_paramIdent ..) fun _ _ => Only.pure _) fun _ _ => Only.pure _

theorem safe_getterIdent (E : Env) (tk : List Ident) (n : Ident) : Safe (getterIdent E tk n) := by
  have h : Safe (getterFallback E tk n) := by
    unfold getterFallback
    simp only
    split
    · exact Only.ok _
    · exact Only.bind (safe_trySyn ..) fun _ _ => Only.pure _
  unfold getterIdent
  split
  · split
    · exact h
    · exact Only.ok _
  · exact h

theorem safe_setterIdent (E : Env) (tk : List Ident) (n : Ident) : Safe (setterIdent E tk n) := by
  unfold setterIdent
  simp only
  split
  · exact Only.ok _
  · exact Only.bind (safe_trySyn ..) fun _ _ => Only.pure _

theorem safe_target (imp : Str → Bool) {p : Property} (h : 1 < p.name.segs.length) : Safe (p.target imp) := by
  unfold Property.target
  split
  · exact safe_parentQuote imp h
  · exact Only.ok _

theorem segs_ne {p : Path} (h : 1 < p.segs.length) : p.segs ≠ [] := by
  intro he; rw [he] at h; exact absurd h (by simp)

theorem safe_propertyGenerate {E : Env} (cfg : Config) (imp : Str → Bool) (tk : List Ident) {lt : LocalTypes}
    (hlt : LegalTypes E lt) {p : Property} (hp : 1 < p.name.segs.length) (ht : PlainTy E p.ann) : Safe (Property.generate E cfg imp tk lt p) := by
  unfold Property.generate
  refine Only.bind ?_ fun _ _ => ?_
  · unfold Property.generateGetter
    refine Only.bind (safe_name (segs_ne hp)) fun _ _ => Only.bind (safe_getterIdent ..) fun o _ => ?_
    split
    · exact Only.pure _
    · exact Only.bind (safe_owned hlt _ ht) fun _ _ => Only.bind (safe_target imp hp) fun _ _ => Only.pure _
  · split
    · refine Only.bind ?_ fun _ _ => Only.pure _
      unfold Property.generateSetter
      refine Only.bind (safe_name (segs_ne hp)) fun _ _ => Only.bind (safe_setterIdent ..) fun o _ => ?_
      split
      · exact Only.pure _
      · exact Only.bind (safe_preprocess hlt _ ht) fun _ _ => Only.bind (safe_borrowed hlt _ ht) fun _ _ =>
          Only.bind (safe_target imp hp) fun _ _ => Only.pure _
    · exact Only.pure _

/-- The names of a class and its members are not too short. -/
structure ClassOk (E : Env) (c : Class) : Prop where
  name : c.name.segs ≠ []
  methods : ∀ f ∈ c.methods, FnOk f ∧ FnPlain E f
  properties : ∀ p ∈ c.properties, 1 < p.name.segs.length ∧ PlainTy E p.ann

theorem safe_classGenerate {E : Env} (cfg : Config) (imp : Str → Bool) {lt : LocalTypes} (hlt : LegalTypes E lt) {c : Class}
    (hc : ClassOk E c) : Safe (Class.generate E cfg imp lt c) := by
  unfold Class.generate
  refine Only.bind (safe_name hc.name) fun n _ => ?_
  split
  · exact Only.pure _
  · exact Only.bind (Only.traverse fun f hf => safe_name (hc.methods f hf).1.name) fun _ _ =>
      Only.bind (Only.traverse fun f hf => safe_functionGenerate cfg imp _ hlt (hc.methods f hf).1 (hc.methods f hf).2) fun _ _ =>
      Only.bind (Only.traverse fun p hp => safe_propertyGenerate cfg imp _ hlt (hc.properties p hp).1 (hc.properties p hp).2) fun _ _ =>
      Only.bind (safe_trySyn ..) fun _ _ => Only.pure _

theorem safe_relativeTo {a b : Path} {f : Bool} (h : f = true → b.segs ≠ []) : Safe (a.relativeTo b f) := by
  unfold Path.relativeTo
  simp only
  split
  · split
    · rename_i hf
      exact Only.bind (safe_name (h hf)) fun _ _ => Only.pure _
    · exact Only.pure _
  · split
    · rename_i hf
      simp only [Bool.and_eq_true] at hf
      exact Only.bind (safe_name (h hf.1)) fun _ _ => Only.pure _
    · exact Only.pure _

/-- The paths of an import are not empty where they are used. -/
structure ImportOk (i : Import) : Prop where
  target : i.target.segs ≠ []
  origin : i.typ = .submoduleReexport → i.origin.segs ≠ []

theorem safe_importGenerate {E : Env} {i : Import} (h : ImportOk i) : Safe (i.generate E) := by
  unfold Import.generate
  split
  · exact Only.ok _
  · rename_i ht
    have ho := h.origin (by simpa using ht)
    split
    · exact Only.ok _
    · refine Only.bind (safe_relativeTo fun _ => ho) fun _ _ => ?_
      split
      · refine Only.bind (safe_name ho) fun _ _ => Only.bind (safe_name h.target) fun _ _ => ?_
        split
        · exact Only.pure _
        · exact Only.bind (safe_trySyn ..) fun _ _ => Only.pure _
      · exact Only.pure _

theorem safe_typeVarGenerate {E : Env} {t : TypeVar} (h : t.name.segs ≠ []) : Safe (t.generate E) :=
  Only.bind (safe_name h) fun _ _ => Only.bind (safe_trySyn ..) fun _ _ => Only.pure _

/-- The path is that of a type with a spellable Python name. -/
def TypePath (E : Env) (p : Path) : Prop :=
  p.segs ≠ [] ∧ (∀ i ∈ p.segs, ∃ t, PyIdent E t ∧ t ∉ unspellable ∧ i = Ident.fromPy E t) ∧ p.leadingColon = false

theorem TypePath.toPy {E : Env} {p : Path} (h : TypePath E p) : ∃ segs : List Str, segs ≠ [] ∧ (∀ s ∈ segs, PyIdent E s) ∧
    p.toPy = Str.join c!"." segs := by
  obtain ⟨hne, hall, -⟩ := h
  have : ∃ segs : List Str, p.segs = segs.map (Ident.fromPy E) ∧ ∀ s ∈ segs, PyIdent E s := by
    clear hne
    revert hall
    generalize p.segs = l
    intro hall
    induction l with
    | nil => exact ⟨[], rfl, by simp⟩
    | cons i l ih =>
      obtain ⟨t, ht, -, rfl⟩ := hall i (by simp)
      obtain ⟨segs, rfl, hs⟩ := ih fun j hj => hall j (by simp [hj])
      exact ⟨t :: segs, rfl, by simpa [ht] using hs⟩
  obtain ⟨segs, h1, h2⟩ := this
  have hs : segs ≠ [] := by rintro rfl; exact hne h1
  refine ⟨segs, hs, h2, ?_⟩
  rw [← faithful_toPy E hs h2, ← h1]
  rfl

theorem join_getLast {segs : List Str} (hne : segs ≠ []) (h : ∀ s ∈ segs, s ≠ [] ∧ '.' ∉ s) (x : Str) :
    Str.join c!"." segs ≠ x ++ c!"." := by
  induction segs generalizing x with
  | nil => exact absurd rfl hne
  | cons a l ih =>
    cases l with
    | nil =>
      intro he
      refine (h a (by simp)).2 ?_
      rw [show a = x ++ c!"." from he]
      simp
    | cons b l =>
      intro he
      rw [Str.join_cons_cons] at he
      have h1 := congrArg List.getLast? he
      rw [List.getLast?_append, List.getLast?_append (l := x)] at h1
      have hb : Str.join c!"." (b :: l) ≠ [] := by
        cases l with
        | nil => exact (h b (by simp)).1
        | cons c l => rw [Str.join_cons_cons]; simp [(h b (by simp)).1]
      have h2 := List.dropLast_append_getLast hb
      rw [List.getLast?_eq_some_getLast hb] at h1
      simp only [Option.some_or, List.getLast?_singleton, Option.some.injEq] at h1
      rw [h1] at h2
      exact ih (by simp) (fun s hs => h s (by simp [hs])) _ h2.symm

theorem fromPy_segs_ne (E : Env) {s : Str} (h : s ≠ []) : (Path.fromPy E s).segs ≠ [] := by
  unfold Path.fromPy
  rw [if_neg h]
  cases s with
  | nil => exact absurd rfl h
  | cons c s =>
    by_cases hc : c = '.'
    · subst hc
      intro he
      simp at he
    · have : ∃ p rest, Str.splitChar '.' (c :: s) = (c :: p) :: rest := by
        rw [Str.splitChar_cons_ne hc]
        cases hs : Str.splitChar '.' s with
        | nil => exact absurd hs (Str.splitChar_ne_nil _ _)
        | cons p rest => exact ⟨p, rest, rfl⟩
      obtain ⟨p, rest, hp⟩ := this
      intro he
      rw [hp] at he
      simp at he

theorem safe_importedPath {E : Env} {i : Import} {p : Path} (hi : i.target.segs ≠ []) (hp : TypePath E p) :
    Safe (importedPath E i p) := by
  unfold importedPath
  split
  · rename_i stripped hs
    have hne : stripped ≠ [] := by
      rintro rfl
      obtain ⟨segs, h1, h2, h3⟩ := hp.toPy
      have := Str.stripPrefix_eq_some.mp hs
      rw [List.append_nil, h3] at this
      exact join_getLast h1 (fun s hs => ⟨(h2 s hs).1.1, (h2 s hs).1.2.1⟩) _ this
    refine Only.bind (safe_pathCheck_one fun _ => noColons_of_colon fun hm => ?_) fun _ _ => ?_
    · obtain ⟨segs, h1, h2, h3⟩ := hp.toPy
      have h4 := Str.stripPrefix_eq_some.mp hs
      refine idents_colon (E := E) (fun s hs => (h2 s hs).2) (?_ : ':' ∈ Str.join c!"." segs)
      rw [← h3, h4]
      exact List.mem_append_right _ hm
    split
    · rename_i hs
      exact absurd hs (fromPy_segs_ne E hne)
    · exact Only.bind (safe_name hi) fun _ _ => Only.pure _
  · exact Only.bind (safe_name hi) fun _ _ => Only.pure _

theorem safe_localTypes {E : Env} {ts : List Path} (hts : ∀ p ∈ ts, TypePath E p) (n : Path) {is : List Import}
    (his : ∀ i ∈ is, ImportOk i) : Safe (Module.localTypes E ts n is) :=
  Only.bind (Only.traverse fun _ _ => Only.bind (safe_relativeTo nofun) fun _ _ => Only.pure _) fun _ _ =>
    Only.bind (Only.traverse fun i hi => Only.traverse fun p hp => Only.bind
      (safe_importedPath (his i hi).target (hts p (List.mem_of_mem_filter hp))) fun _ _ =>
      Only.bind (safe_relativeTo nofun) fun _ _ => Only.pure _) fun _ _ => Only.pure _

/-- Everything a module refers to by its path has one. -/
structure ModuleOk (E : Env) (m : Module) : Prop where
  name : m.name.segs ≠ []
  colon : m.name.leadingColon = false
  imports : ∀ i ∈ m.imports, ImportOk i
  classes : ∀ c ∈ m.classes, ClassOk E c
  typeVars : ∀ t ∈ m.typeVars, t.name.segs ≠ []
  functions : ∀ f ∈ m.functions, FnOk f ∧ Free f ∧ FnPlain E f
  properties : ∀ p ∈ m.properties, 1 < p.name.segs.length ∧ p.owner = .module ∧ PlainTy E p.ann
  submodules : ∀ s ∈ m.submodules, s.name.segs ≠ []

theorem ModuleOk.immediate {E : Env} {m : Module} (h : ModuleOk E m) (b : Bool) : ∀ p ∈ m.immediateNames b, p.segs ≠ [] := by
  intro p hp
  unfold Module.immediateNames at hp
  simp only [List.mem_append, List.mem_map] at hp
  rcases hp with ((((hp | ⟨x, hx, rfl⟩) | ⟨x, hx, rfl⟩) | ⟨x, hx, rfl⟩) | ⟨x, hx, rfl⟩) | ⟨x, hx, rfl⟩
  · split at hp
    · obtain ⟨x, hx, rfl⟩ := List.mem_map.mp hp
      exact (h.imports x hx).target
    · cases hp
  · exact h.submodules x hx
  · exact (h.classes x hx).name
  · exact (h.functions x hx).1.name
  · exact h.typeVars x hx
  · exact segs_ne (h.properties x hx).1

theorem safe_anyName (i : Ident) {l : List Path} (h : ∀ p ∈ l, p.segs ≠ []) : Safe (anyName i l) := by
  induction l with
  | nil => exact Only.ok _
  | cons p l ih =>
    unfold anyName
    refine Only.bind (safe_name (h p (by simp))) fun _ _ => ?_
    split
    · exact Only.pure _
    · exact ih fun q hq => h q (by simp [hq])

theorem safe_preludeExports (E : Env) {m : Module} (h : ModuleOk E m) (l : List Ident) : Safe (m.preludeExports E l) := by
  induction l with
  | nil => exact Only.ok _
  | cons i l ih =>
    unfold Module.preludeExports
    refine Only.bind (safe_anyName i (h.immediate false)) fun _ _ => ?_
    split
    · exact Only.bind (safe_trySyn ..) fun _ _ => Only.bind ih fun _ _ => Only.pure _
    · exact ih

theorem safe_prelude (E : Env) {m : Module} (h : ModuleOk E m) : Safe (m.generatePrelude E) := by
  unfold Module.generatePrelude
  split
  · exact Only.ok _
  · refine Only.bind (safe_preludeExports E h _) fun _ _ => ?_
    split
    · exact Only.pure _
    · exact Only.bind (Only.traverse fun p hp => safe_name (h.immediate true p hp)) fun _ _ =>
        Only.bind (safe_fresh (isIdent_ascii E _ (by decide) (by decide)) _) fun _ _ =>
        Only.bind (safe_trySyn ..) fun _ _ => Only.pure _

theorem legal_relative {E : Env} {n p r : Path} (hn : n.leadingColon = false) (hp : TypePath E p) (h : n.relativeTo p false = .ok r) : r.synOk E = true := by
  have hmem := relativeTo_mem n p false r h
  have hne : r.segs ≠ [] := by
    unfold Path.relativeTo at h
    split at h
    · cases h; simp
    · rename_i hd
      simp only [Bool.false_and, Bool.false_eq_true, if_false] at h
      cases h
      intro he
      refine hd ?_
      simp only [Path.relativeSegs, Bool.false_eq_true, if_false] at he
      split at he
      · rename_i hlt
        have := congrArg List.length he
        simp at this
        omega
      · rename_i hlt
        have h1 := commonPrefixLen_take n.segs p.segs
        rw [List.take_of_length_le (by omega), List.take_of_length_le (by simpa using he)] at h1
        cases n; cases p
        simp only at h1 hn
        have := hp.2.2
        simp only at this
        rw [h1, hn, this]
  unfold Path.synOk
  rw [Bool.and_eq_true]
  refine ⟨by simpa using hne, List.all_eq_true.mpr fun i hi => ?_⟩
  unfold Path.synSegOk
  rcases hmem i hi with h | h | h
  · rw [h]; simp
  · rw [h]; simp
  · obtain ⟨t, ht, hu, rfl⟩ := hp.2.1 i h
    rw [toSyn_ident ht.2, if_neg hu]
    split <;> rfl

theorem legal_localTypes {E : Env} {ts : List Path} (hts : ∀ p ∈ ts, TypePath E p) {n : Path} (hn : n.leadingColon = false) {is : List Import} {lt : LocalTypes}
    (h : Module.localTypes E ts n is = .ok lt) : LegalTypes E lt := by
  intro x hx
  unfold Module.localTypes at h
  obtain ⟨own, h1, h⟩ := Res.bind_ok h
  obtain ⟨imported, h2, h⟩ := Res.bind_ok h
  have h := Except.ok.inj h
  rw [← h] at hx
  rcases List.mem_append.mp hx with hx | hx
  · obtain ⟨p, hp, hx⟩ := traverse_mem h1 hx
    obtain ⟨r, hr, hx⟩ := Res.bind_ok hx
    cases Except.ok.inj hx
    exact legal_relative hn (hts p hp) hr
  · obtain ⟨l, hl, hx⟩ := List.mem_flatten.mp hx
    obtain ⟨i, hi, hl⟩ := traverse_mem h2 hl
    obtain ⟨p, hp, hx⟩ := traverse_mem hl hx
    obtain ⟨q, -, hx⟩ := Res.bind_ok hx
    obtain ⟨r, hr, hx⟩ := Res.bind_ok hx
    cases Except.ok.inj hx
    exact legal_relative hn (hts p (List.mem_of_mem_filter hp)) hr

theorem safe_moduleFns {E : Env} {cfg : Config} {imp : Str → Bool} {tk : List Ident} {lt : LocalTypes} {f : Function} {r : FnImpl}
    (hf : Free f) (h : Function.generate E cfg imp tk lt f = .ok r) : Safe (moduleFns r) := by
  unfold Function.generate at h
  obtain ⟨n, -, h⟩ := Res.bind_ok h
  split at h
  · cases Except.ok.inj h; exact Only.ok _
  · obtain ⟨_, -, h⟩ := Res.bind_ok h
    obtain ⟨_, -, h⟩ := Res.bind_ok h
    obtain ⟨_, -, h⟩ := Res.bind_ok h
    obtain ⟨_, -, h⟩ := Res.bind_ok h
    obtain ⟨sig, hsig, h⟩ := Res.bind_ok h
    obtain ⟨d, hd, h⟩ := Res.bind_ok h
    have hrecv : sig.recv = .py := by
      rcases hf with hf | hf <;> rw [hf] at hsig <;> cases hsig <;> rfl
    split at h
    · exfalso
      rcases hf with hf | hf <;> rw [hf] at hd <;> simp only [dispatcher] at hd <;> obtain ⟨_, -, hd⟩ := Res.bind_ok hd <;>
        obtain ⟨_, -, hd⟩ := Res.bind_ok hd <;> cases hd
    · obtain ⟨_, -, h⟩ := Res.bind_ok h
      obtain ⟨_, -, h⟩ := Res.bind_ok h
      have h := Except.ok.inj h
      rw [hrecv] at h
      rw [← h]
      exact Only.ok _

theorem safe_content {E : Env} (cfg : Config) (imp : Str → Bool) (tops : List Module) {ts : List Path}
    (hts : ∀ p ∈ ts, TypePath E p) {m : Module} (h : ModuleOk E m) : Safe (m.content E cfg imp tops ts) := by
  unfold Module.content
  refine Only.bind (Only.traverse fun f hf => safe_name (h.functions f hf).1.name) fun _ _ =>
    Only.bind (safe_localTypes hts _ h.imports) fun lt hlt => ?_
  have hlt := legal_localTypes hts h.colon hlt
  refine Only.bind (only_ifOn (Only.traverse fun i hi => safe_importGenerate (h.imports i (List.mem_of_mem_filter hi)))) fun _ _ =>
    Only.bind (only_ifOn (safe_okOrDrop (safe_prelude E h))) fun _ _ =>
    Only.bind (only_ifOn (Only.traverse fun t ht => safe_typeVarGenerate (h.typeVars t ht))) fun _ _ =>
    Only.bind (only_ifOn (Only.traverse fun c hc => safe_classGenerate cfg imp hlt (h.classes c hc))) fun _ _ =>
    Only.bind (only_ifOn (Only.traverse fun f hf => Only.bind (safe_functionGenerate cfg imp _ hlt (h.functions f hf).1 (h.functions f hf).2.2) fun r hr =>
      safe_moduleFns (h.functions f hf).2.1 hr)) fun _ _ =>
    Only.bind (only_ifOn (Only.traverse fun p hp => Only.bind (safe_propertyGenerate cfg imp _ hlt (h.properties p hp).1 (h.properties p hp).2.2) fun _ _ => ?_))
      fun _ _ => Only.pure _
  rw [(h.properties p hp).2.1]
  exact Only.ok _

mutual
theorem safe_generate {E : Env} (cfg : Config) (imp : Str → Bool) (tops : List Module) {ts : List Path}
    (hts : ∀ p ∈ ts, TypePath E p) (m : Module) (h : ∀ x, InTree x [m] → ModuleOk E x) :
    Safe (Module.generate E cfg imp tops ts m) := by
  match m with
  | ⟨name, prelude, imports, subs, cs, tvs, fs, ps, doc, pkg, src⟩ =>
    simp only [Module.generate]
    have hm := h _ (.top (List.mem_singleton.mpr rfl))
    exact Only.bind (safe_content cfg imp tops hts hm) fun _ _ =>
      Only.bind (only_ifOn (safe_generateList cfg imp tops hts subs fun x hx => h x (.sub (List.mem_singleton.mpr rfl) hx))) fun _ _ =>
      Only.bind (safe_name hm.name) fun _ _ => Only.bind safe_orErr fun _ _ => Only.pure _
theorem safe_generateList {E : Env} (cfg : Config) (imp : Str → Bool) (tops : List Module) {ts : List Path}
    (hts : ∀ p ∈ ts, TypePath E p) (l : List Module) (h : ∀ x, InTree x l → ModuleOk E x) :
    Safe (Module.generateList E cfg imp tops ts l) := by
  match l with
  | [] => simp only [Module.generateList]; exact Only.ok _
  | m :: l =>
    simp only [Module.generateList]
    exact Only.bind (safe_generate cfg imp tops hts m fun x hx => h x (inTree_mono (by simp) hx)) fun _ _ =>
      Only.bind (safe_generateList cfg imp tops hts l fun x hx => h x (inTree_mono (fun y hy => by simp [hy]) hx)) fun _ _ => Only.pure _
end

end Bindgen
