import Verif.Spec.AnnObj
import Verif.Props.Annotations
import Verif.Props.Types
/-!
# C60: annotation objects keep their structure
-/
namespace Bindgen
open Spec

theorem fromClass_builtin (E : Env) {b : PyBase} (h : b ≠ .dateTime) (r : Str) :
    fromClass E (ancestors b) r = .ok (classType b) := by
  cases b <;> first | exact absurd rfl h | rfl

theorem fromStr_classRepr (E : Env) {s : Str} (h : '|' ∉ s) : fromStr E (classRepr s) = fromStr E s := by
  rw [fromStr_unfold]
  have hb : '|' ∉ classRepr s := by
    simp only [classRepr, List.mem_append, not_or]
    exact ⟨⟨by decide, h⟩, by decide⟩
  have hh : (classRepr s).head? = some '<' := rfl
  have hp : primTable.lookup (classRepr s) = none := by
    apply lookup_none_of
    intro e he heq
    have : e.1.head? = some '<' := heq ▸ hh
    clear heq
    revert this
    revert e
    decide
  have hn : nameTable.lookup (classRepr s) = none := by
    apply lookup_none_of
    intro e he heq
    have : e.1.head? = some '<' := heq ▸ hh
    clear heq
    revert this
    revert e
    decide
  have hw := wrap_get' (pre := c!"<class '") (suf := c!"'>") (i := s) (w := .inner) rfl (by decide)
  have hc : (classRepr s).count '|' = 0 := List.count_eq_zero.mpr hb
  unfold fromStrStep
  rw [hp, hn]
  have hw' : matchWrap (classRepr s) wrapTable = some (.inner, .ok s) := hw
  simp only [hc, hw', List.contains_eq_mem, hb]
  rfl

theorem strLookup_mem {α : Type} {l : List (Str × α)} {s : Str} {t : α} (h : l.lookup s = some t) : (s, t) ∈ l := by
  induction l with
  | nil => simp at h
  | cons e l ih =>
    obtain ⟨k, v⟩ := e
    rw [List.lookup_cons] at h
    split at h
    · rename_i hk
      rw [beq_iff_eq] at hk
      injection h with h
      subst hk h
      exact List.mem_cons_self
    · exact List.mem_cons_of_mem _ (ih h)

theorem nameType_none {s : Str} (h : nameType s = .none) : s = [] ∨ s = c!"None" ∨ s = c!"NoneType" := by
  unfold nameType at h
  split at h
  · rename_i t ht
    subst h
    have hm := strLookup_mem ht
    have : ∀ e ∈ builtins, e.2 = PyTy.none → e.1 = [] ∨ e.1 = c!"None" ∨ e.1 = c!"NoneType" := by decide
    exact this _ hm rfl
  · split at h <;> cases h

theorem denote_none {o : AnnObj} (hv : o.Valid) : o.denote = .none ↔ o.isNone = true := by
  cases o with
  | builtin b =>
    simp only [AnnObj.denote, AnnObj.isNone]
    cases b <;> simp [classType]
  | noneType => simp [AnnObj.denote, AnnObj.isNone]
  | user s =>
    simp only [AnnObj.Valid] at hv
    simp only [AnnObj.denote, AnnObj.isNone, Bool.false_eq_true, iff_false]
    intro h
    rcases nameType_none h with h | h | h
    · exact hv.1.1 h
    · exact hv.2.1 h
    · exact hv.2.2 h
  | plain s =>
    simp only [AnnObj.Valid] at hv
    simp only [AnnObj.denote, AnnObj.isNone, Bool.false_eq_true, iff_false]
    intro h
    rcases nameType_none h with h | h | h
    · exact hv.1.1 h
    · exact hv.2.1 h
    · exact hv.2.2 h
  | derived b bs s => simp only [AnnObj.Valid] at hv
  | union a b l =>
    simp only [AnnObj.isNone, Bool.false_eq_true, iff_false]
    cases l with
    | nil => simp only [AnnObj.denote]; split <;> [skip; split] <;> simp
    | cons c l => simp [AnnObj.denote]
  | _ => simp [AnnObj.denote, AnnObj.isNone]

theorem pyList_append (l : List AnnObj) (r : AnnObj) : AnnObj.pyList l ++ [r.py] = AnnObj.pyList (l ++ [r]) := by
  induction l with
  | nil => rfl
  | cons a l ih => simp [AnnObj.pyList, ih]

theorem denoteList_append (l : List AnnObj) (r : AnnObj) :
    AnnObj.denoteList (l ++ [r]) = AnnObj.denoteList l ++ [r.denote] := by
  induction l with
  | nil => rfl
  | cons a l ih => simp [AnnObj.denoteList, ih]

theorem mkFunction_append (l : List PyTy) (r : PyTy) : mkFunction (l ++ [r]) = .ok (.function l r) := by
  unfold mkFunction
  rw [List.getLast?_append]
  simp only [List.getLast?_singleton, Option.some_or, List.dropLast_concat]
  split
  · rename_i h
    have : l = [] := by
      cases l with
      | nil => rfl
      | cons a l => simp at h
    rw [this]
  · rfl

theorem fromAnns_append (E : Env) {l : List PyAnn} {ts : List PyTy} {a : PyAnn} {t : PyTy}
    (hl : fromAnns E l = .ok ts) (ha : fromAnn E a = .ok t) : fromAnns E (l ++ [a]) = .ok (ts ++ [t]) := by
  induction l generalizing ts with
  | nil =>
    rw [fromAnns] at hl
    injection hl with hl
    subst hl
    simp only [List.nil_append, fromAnns, ha]
    rfl
  | cons x l ih =>
    rw [fromAnns] at hl
    obtain ⟨y, hy, hl⟩ := Res.bind_ok hl
    obtain ⟨ys, hys, hl⟩ := Res.bind_ok hl
    injection hl with hl
    subst hl
    simp only [List.cons_append, fromAnns, hy, ih hys]
    rfl

mutual
theorem fromAnn_obj (E : Env) : ∀ o : AnnObj, o.Valid → fromAnn E o.py = .ok o.denote
  | .builtin b, h => by
    simp only [AnnObj.Valid] at h
    simp only [AnnObj.py, fromAnn, AnnObj.denote]
    exact fromClass_builtin E h _
  | .noneType, _ => by
    simp only [AnnObj.py, fromAnn, AnnObj.denote]
    rfl
  | .user s, h => by
    simp only [AnnObj.Valid] at h
    simp only [AnnObj.py, fromAnn, AnnObj.denote]
    change fromStr E (classRepr s) = _
    rw [fromStr_classRepr E (bar_of_name h.1), fromStr_name E h.1]
  | .any, _ => by simp only [AnnObj.py, fromAnn, AnnObj.denote]; rfl
  | .ellipsis, _ => by simp only [AnnObj.py, fromAnn, AnnObj.denote]; rfl
  | .list a, h => by
    simp only [AnnObj.Valid] at h
    simp only [AnnObj.py, fromAnn, fromAnns, AnnObj.denote, fromAnn_obj E a h]
    rfl
  | .set a, h => by
    simp only [AnnObj.Valid] at h
    simp only [AnnObj.py, fromAnn, fromAnns, AnnObj.denote, fromAnn_obj E a h]
    rfl
  | .frozenset a, h => by
    simp only [AnnObj.Valid] at h
    simp only [AnnObj.py, fromAnn, fromAnns, AnnObj.denote, fromAnn_obj E a h]
    rfl
  | .abstract g a, h => by
    simp only [AnnObj.Valid] at h
    simp only [AnnObj.py, fromAnn, fromAnns, AnnObj.denote, fromAnn_obj E a h]
    cases g <;> rfl
  | .dict k v, h => by
    simp only [AnnObj.Valid] at h
    simp only [AnnObj.py, fromAnn, fromAnns, AnnObj.denote, fromAnn_obj E k h.1, fromAnn_obj E v h.2]
    rfl
  | .mapping k v, h => by
    simp only [AnnObj.Valid] at h
    simp only [AnnObj.py, fromAnn, fromAnns, AnnObj.denote, fromAnn_obj E k h.1, fromAnn_obj E v h.2]
    rfl
  | .tuple as, h => by
    simp only [AnnObj.Valid] at h
    simp only [AnnObj.py, fromAnn, AnnObj.denote, fromAnns_obj E as h]
    rfl
  | .callable ps r, h => by
    simp only [AnnObj.Valid] at h
    simp only [AnnObj.py, fromAnn, AnnObj.denote, fromAnns_append E (fromAnns_obj E ps h.1) (fromAnn_obj E r h.2)]
    exact mkFunction_append _ _
  | .union a b l, h => by
    simp only [AnnObj.Valid] at h
    simp only [AnnObj.py, fromAnn, fromAnns, fromAnn_obj E a h.1, fromAnn_obj E b h.2.1, fromAnns_obj E l h.2.2.1]
    have ha := denote_none h.1
    have hb := denote_none h.2.1
    change applyArgs (.union [.unknown]) (a.denote :: b.denote :: AnnObj.denoteList l) = _
    cases l with
    | nil =>
      simp only [AnnObj.denote, AnnObj.denoteList, applyArgs, List.length_cons, List.length_nil, List.contains_cons,
        List.contains_nil, Bool.or_false]
      by_cases hb' : b.isNone = true
      · have ha' : a.denote ≠ .none := fun e => h.2.2.2 ⟨ha.mp e, hb'⟩
        simp [hb', hb.mpr hb', ha']
      · have hb2 : b.denote ≠ .none := fun e => hb' (hb.mp e)
        by_cases ha' : a.isNone = true
        · simp [hb', ha', ha.mpr ha', hb2]
        · have ha2 : a.denote ≠ .none := fun e => ha' (ha.mp e)
          simp [hb', ha', ha2.symm, hb2.symm]
    | cons c l => simp [AnnObj.denote, AnnObj.denoteList, applyArgs]
  | .derived b bs s, h => by simp only [AnnObj.Valid] at h
  | .plain s, h => by
    simp only [AnnObj.Valid] at h
    simp only [AnnObj.py, fromAnn, AnnObj.denote]
    exact fromStr_name E h.1
  | .type a, h => by simp only [AnnObj.Valid] at h
theorem fromAnns_obj (E : Env) : ∀ l : List AnnObj, AnnObj.ValidList l → fromAnns E (AnnObj.pyList l) = .ok (AnnObj.denoteList l)
  | [], _ => by simp only [AnnObj.pyList, fromAnns, AnnObj.denoteList]
  | a :: l, h => by
    simp only [AnnObj.ValidList] at h
    simp only [AnnObj.pyList, fromAnns, AnnObj.denoteList, fromAnn_obj E a h.1, fromAnns_obj E l h.2]
    rfl
end

/-- **C60** An annotation that is a Python object is read as the type with the same nesting: builtin classes as
their own type, other classes by their name, generics of `typing` as the container of the types of their
arguments, `Union` with `None` as an optional. What is missing from the full claim: the class `datetime.datetime`
(see `C60_datetime_counterexample`), `Type[T]` (see `C60_type_counterexample`) and classes that derive from a builtin class
(see `C60_subclass`). -/
theorem C60_structure_partial (E : Env) (o : AnnObj) (h : o.Valid) : fromAnn E o.py = .ok o.denote := fromAnn_obj E o h

/-- `Callable[[Dict[str, Tuple[int, ...]], m.C], Optional[Sequence[bool]]]`. -/
def exObj : AnnObj :=
  .callable [.dict (.builtin .string) (.tuple [.builtin .long, .ellipsis]), .user c!"m.C"]
    (.union (.abstract .sequence (.builtin .bool)) .noneType [])

example : exObj.Valid ∧ exObj.denote = .function [.dict .string (.tuple [.long, .ellipsis]), .other c!"m.C"]
    (.optional (.list .bool)) := by
  refine ⟨?_, by decide⟩
  simp only [exObj, AnnObj.Valid, AnnObj.ValidList, AnnObj.isNone]
  exact ⟨⟨⟨by decide, by decide, trivial, trivial⟩, ⟨isName_of_check (by decide), by decide, by decide⟩, trivial⟩,
    by decide, trivial, trivial, by decide⟩

/-- A class that derives from builtin classes is read as one of them, whatever its own name is. -/
theorem C60_subclass (E : Env) (supers : List PyBase) (r : Str) (h : supers ≠ []) :
    ∃ b ∈ supers, fromAnn E (.cls supers r) = .ok (classType b) := by
  rw [fromAnn, fromClass]
  cases hf : baseTable.find? (fun e => supers.contains e.1) with
  | none =>
    exfalso
    obtain ⟨b, hb⟩ := List.exists_mem_of_ne_nil _ h
    rw [List.find?_eq_none] at hf
    have hall : ∃ e ∈ baseTable, e.1 = b := by cases b <;> decide
    obtain ⟨e, he, rfl⟩ := hall
    exact hf e he (by simpa using hb)
  | some e =>
    have h1 := List.find?_some hf
    have h2 := List.mem_of_find?_eq_some hf
    refine ⟨e.1, by simpa using h1, ?_⟩
    have hty : ∀ e ∈ baseTable, e.2 = classType e.1 := by decide
    rw [← hty e h2]

/-- **C60** (a class and its name) A builtin class is read as the same type whether the annotation is the class
itself or its name as text. What is missing from the full claim: the five classes left out here (see
`C60_text_counterexample`). -/
theorem C60_text_partial (E : Env) (b : PyBase) (s : Str) (hs : className b = some s)
    (hb : b ≠ .dateTime ∧ b ≠ .set ∧ b ≠ .frozenSet ∧ b ≠ .delta ∧ b ≠ .type) :
    fromAnn E (.str s) = fromAnn E (AnnObj.builtin b).py := by
  rw [C60_structure_partial E (.builtin b) (by simpa only [AnnObj.Valid] using hb.1)]
  cases b <;> first
    | (exfalso; revert hb; decide)
    | (cases hs; done)
    | (injection hs with hs; subst hs; rw [fromAnn]; rfl)

example : className .tzInfo = some c!"datetime.tzinfo" ∧ PyBase.tzInfo ≠ .dateTime ∧ PyBase.tzInfo ≠ .set ∧
    PyBase.tzInfo ≠ .frozenSet ∧ PyBase.tzInfo ≠ .delta ∧ PyBase.tzInfo ≠ .type := by decide

/-- The class `datetime.datetime` is read as a date: it derives from `datetime.date`, which is tested first
(from_py.rs:79-82). Its name as text is read as a date with time. -/
theorem C60_datetime_counterexample (E : Env) :
    fromAnn E (AnnObj.builtin .dateTime).py = .ok .date ∧ fromAnn E (.str c!"datetime.datetime") = .ok .dateTime :=
  ⟨by rw [AnnObj.py, fromAnn]; rfl, by rw [fromAnn]; rfl⟩

/-- The names `set`, `frozenset`, `datetime.timedelta` and `type` as text are read as unknown classes. -/
theorem C60_text_counterexample (E : Env) (b : PyBase) (hb : b = .set ∨ b = .frozenSet ∨ b = .delta ∨ b = .type) :
    ∃ s, className b = some s ∧ fromAnn E (.str s) = .ok (.other s) ∧
      fromAnn E (AnnObj.builtin b).py = .ok (classType b) := by
  rcases hb with rfl | rfl | rfl | rfl <;>
    exact ⟨_, rfl, by rw [fromAnn]; rfl, by rw [AnnObj.py, fromAnn]; rfl⟩

/-- `Type[int]`, the annotation of a parameter that takes a class, is read as `int`. -/
theorem C60_type_counterexample (E : Env) :
    fromAnn E (AnnObj.type (.builtin .long)).py = .ok .long ∧ (AnnObj.type (.builtin .long)).denote = .type := by
  refine ⟨?_, rfl⟩
  simp only [AnnObj.py, fromAnn, fromAnns]
  rfl

/-- The name of a class written in quotes inside a generic, `List["C"]`, is read as a class of another name. -/
theorem C60_forward_counterexample (E : Env) :
    fromAnn E (.typingArgs (.cls [.list] (classRepr c!"list")) [.typingPlain c!"ForwardRef('C')"]) =
      .ok (.list (.other c!"ForwardRef('C')")) := by
  simp only [fromAnn, fromAnns]
  rfl

/-- **C20** (the class itself as annotation) If bindings are generated for a class, then an annotation that is the class
becomes, in every module `M`, a path that resolves there to the type. Missing: classes that derive from a builtin class
(`C20_builtin_subclass_counterexample`), and modules with an import that binds the first segment of the name. -/
theorem C20_object_partial (E : Env) (ts : List Path) (M : Path) (imports : List Import) (lt : LocalTypes)
    (h : Module.localTypes E ts M imports = .ok lt) (hM : M.leadingColon = false) (n : Str) (hn : IsName n)
    (hb : n ∉ builtins.map Prod.fst) (ho : n ∉ opaqueNames) (hp : Path.fromPy E n ∈ ts)
    (hsp : Spellable E (Path.fromPy E n))
    (hk : ∀ i ∈ imports, i.target.segs.getLast? ≠ (Path.fromPy E n).segs.head?) (hnum : ¬ NumpyArray E n) :
    ∃ rel, (fromAnn E (AnnObj.user n).py >>= intoRs E lt) = .ok (.boundLocal rel, .ref (.boundLocal rel)) ∧
      resolve (M.segs.map Ident.rs) (rel.segs.map Ident.rs) = some ((Path.fromPy E n).segs.map Ident.rs) := by
  have hty : nameType n = .other n := by
    unfold nameType
    have hl : builtins.lookup n = none := by
      apply lookup_none_of
      intro e he heq
      exact hb (List.mem_map.mpr ⟨e, he, heq⟩)
    rw [hl]
    simp only [ho, if_false]
  have hf : fromAnn E (AnnObj.user n).py = .ok (.other n) := by
    rw [AnnObj.py, fromAnn]
    change fromStr E (classRepr n) = _
    rw [fromStr_classRepr E (bar_of_name hn), fromStr_name E hn, hty]
  obtain ⟨rel, h1, h2⟩ := C20_own_partial E ts M imports lt h hM _ hp hsp hk n [] (fun hc => (hn.2.1 _ hc).1 rfl) rfl
    (Or.inl rfl) (by rw [List.append_nil]; exact hnum)
  rw [List.append_nil] at h1
  refine ⟨rel, ?_, h2⟩
  rw [hf]
  exact h1

/-- The class `pkg.sub.C` used in `app`. -/
example : IsName c!"pkg.sub.C" ∧ c!"pkg.sub.C" ∉ builtins.map Prod.fst ∧ c!"pkg.sub.C" ∉ opaqueNames ∧
    Spellable exEnv (Path.fromPy exEnv c!"pkg.sub.C") ∧ ¬ NumpyArray exEnv c!"pkg.sub.C" ∧
    (∃ lt, Module.localTypes exEnv [exPath c!"pkg.sub.C"] (exPath c!"app") [] = .ok lt) ∧
    Path.fromPy exEnv c!"pkg.sub.C" ∈ [exPath c!"pkg.sub.C"] :=
  ⟨isName_of_check (by decide), by decide, by decide, exSpellable rfl (by decide) (by decide), (fun h => nomatch h.1),
    ⟨_, rfl⟩, by decide⟩

/-- **C20** is false for classes that derive from a builtin class, such as named tuples and integer enumerations: the class
itself as annotation becomes the builtin type, although bindings are generated for it. -/
theorem C20_builtin_subclass_counterexample :
    (Module.localTypes exEnv [exPath c!"app.Point"] (exPath c!"app") [] >>= fun lt =>
      fromAnn exEnv (.cls [.tuple] (classRepr c!"app.Point")) >>= intoRs exEnv lt) ≠
    (Module.localTypes exEnv [exPath c!"app.Point"] (exPath c!"app") [] >>= fun lt =>
      fromAnn exEnv (.cls [] (classRepr c!"app.Point")) >>= intoRs exEnv lt) ∧
    (Module.localTypes exEnv [exPath c!"app.Point"] (exPath c!"app") [] >>= fun lt =>
      fromAnn exEnv (.cls [.tuple] (classRepr c!"app.Point")) >>= intoRs exEnv lt) =
      .ok (.bound c!"PyTuple", .implIntoPy c!"PyTuple") := by
  refine ⟨by decide +kernel, by decide +kernel⟩

/-- **C16** is false for the generics of `typing` as text (as with `from __future__ import annotations`): they are read as
unknown classes, although the same annotations as objects are understood. -/
theorem C16_typing_counterexample (E : Env) :
    fromAnn E (.str c!"List[int]") = .ok (.other c!"List[int]") ∧
    fromAnn E (AnnObj.list (.builtin .long)).py = .ok (.list .long) ∧
    fromAnn E (.str c!"typing.Optional[int]") = .ok (.other c!"Optional[int]") ∧
    fromAnn E (AnnObj.union (.builtin .long) .noneType []).py = .ok (.optional .long) := by
  refine ⟨?_, C60_structure_partial E _ ?_, ?_, C60_structure_partial E _ ?_⟩
  · rw [fromAnn]; rfl
  · simp only [AnnObj.Valid]; decide
  · rw [fromAnn]; rfl
  · simp only [AnnObj.Valid, AnnObj.ValidList, AnnObj.isNone]; decide

end Bindgen
