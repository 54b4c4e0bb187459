import Verif.Props.Passed
import Verif.Props.Accessors
/-!
# C79, C80: which values can be passed, and reading what has been stored
-/
namespace Bindgen
open Spec

theorem passableList_iff {ts : List PyTy} : PassableList ts ↔ ∀ t ∈ ts, Passable t := by
  induction ts with
  | nil => simp [PassableList]
  | cons t ts ih => simp [PassableList, ih]

/-- Choosing an equal value for each element. -/
theorem choose_equal {α β : Type} {P : α → β → Prop} {l : List α} (h : ∀ x ∈ l, ∃ y, P x y) :
    ∃ m, l.length = m.length ∧ ∀ p ∈ l.zip m, P p.1 p.2 := by
  induction l with
  | nil => exact ⟨[], rfl, by simp⟩
  | cons x l ih =>
    obtain ⟨y, hy⟩ := h x (by simp)
    obtain ⟨m, hm, hp⟩ := ih fun x hx => h x (List.mem_cons_of_mem _ hx)
    refine ⟨y :: m, by simp [hm], fun p hp' => ?_⟩
    rw [List.zip_cons_cons] at hp'
    rcases List.mem_cons.mp hp' with rfl | hp'
    · exact hy
    · exact hp p hp'

/-- Every element of the second of two lists of the same length is beside one of the first. -/
theorem beside {α β : Type} {l : List α} {m : List β} (h : l.length = m.length) {y : β} (hy : y ∈ m) : ∃ x ∈ l, (x, y) ∈ l.zip m := by
  obtain ⟨i, hi⟩ := List.mem_iff_getElem?.mp hy
  have hlt : i < l.length := by have := (List.getElem?_eq_some_iff.mp hi).1; omega
  exact ⟨l[i], List.getElem_mem hlt, List.mem_of_getElem? (List.getElem?_zip_eq_some.mpr ⟨List.getElem?_eq_getElem hlt, hi⟩)⟩

theorem sendableAll_iff {A : PyTy → Prop} {ts : List PyTy} : SendableAll A ts ↔ ∀ t ∈ ts, Sendable A t := by
  induction ts with
  | nil => simp [SendableAll]
  | cons t ts ih => simp [SendableAll, ih]

/-- What is passable is sendable. -/
theorem passable_sendable {A : PyTy → Prop} {t : PyTy} (h : Passable t) : Sendable A t := by
  induction t using PyTy.ind with
  | step t ih =>
    cases t <;> simp only [Passable] at h <;> simp only [Sendable]
    case optional t => exact ih t (by simp [PyTy.kids]) h
    case list t => exact ih t (by simp [PyTy.kids]) h
    case set t => exact h.imp_right (ih t (by simp [PyTy.kids]))
    case frozenSet t => exact h.imp_right (ih t (by simp [PyTy.kids]))
    case dict k v => exact h.imp_right fun h => Or.inr ⟨ih k (by simp [PyTy.kids]) h.1, ih v (by simp [PyTy.kids]) h.2⟩
    case tuple ts =>
      refine h.imp_right fun h => ⟨h.1, sendableAll_iff.mpr fun t ht => ih t (by simpa [PyTy.kids] using ht) (passableList_iff.mp h.2 t ht)⟩

/-- The Rust type of the annotation has an arbitrary object in it. -/
def Spec.AnyInside (E : Env) (lt : LocalTypes) (t : PyTy) : Prop := ∃ o b, intoRs E lt t = .ok (o, b) ∧ o.mentionsPyAny = true

/-- For every value of a sendable annotation a Rust caller can pass one that arrives as an equal value. -/
theorem sendable_passed (E : Env) (lt : LocalTypes) (t : PyTy) (o b : RsTy) (h : intoRs E lt t = .ok (o, b)) (ht : Sendable (AnyInside E lt) t) (v : Val)
    (hv : HasTy (NumpyArray E) t v) : (∃ w, Equals v w ∧ Passed o w) ∧ ∃ w, Equals v w ∧ Passed b w := by
  induction t using PyTy.ind generalizing o b v with
  | step t ih =>
    have own : ∀ {s : PyTy} {p : RsTy × RsTy}, s ∈ t.kids → intoRs E lt s = .ok p → Sendable (AnyInside E lt) s →
        ∀ v, HasTy (NumpyArray E) s v → ∃ w, Equals v w ∧ Passed p.1 w := fun hs hp ht v hv => (ih _ hs _ _ hp ht v hv).1
    have same : ∀ {r : RsTy} {v : Val}, (∃ w, Equals v w ∧ Passed r w) → (∃ w, Equals v w ∧ Passed r w) ∧ ∃ w, Equals v w ∧ Passed r w :=
      fun h => ⟨h, h⟩
    have ref : ∀ {r : RsTy} {v : Val}, (∃ w, Equals v w ∧ Passed r w) →
        (∃ w, Equals v w ∧ Passed r w) ∧ ∃ w, Equals v w ∧ Passed (.ref r) w := by
      rintro r v ⟨w, h1, h2⟩
      exact ⟨⟨w, h1, h2⟩, w, h1, .ref _ _ h2⟩
    have any : ∀ v, (∃ w, Equals v w ∧ Passed (.bound c!"PyAny") w) ∧ ∃ w, Equals v w ∧ Passed (.implIntoPy c!"PyAny") w :=
      fun v => ⟨⟨v, .refl _, .any _⟩, v, .refl _, .intoAny _⟩
    have inst : ∀ {n}, intoRs E lt t = .ok (boundOut n) → instClass t = some n → n ∉ [c!"PyDict", c!"PySet", c!"PyFrozenSet", c!"PyTuple"] →
        ∀ {m cs}, instClass t = some m → m ∈ cs →
        (∃ w, Equals (.inst cs) w ∧ Passed o w) ∧ ∃ w, Equals (.inst cs) w ∧ Passed b w := by
      intro n h1 h2 h3 m cs h4 h5
      rw [h1] at h
      rw [h2] at h4
      cases h4
      cases h
      exact ref ⟨_, .refl _, .inst _ _ h5 h3⟩
    cases hv with
    | any => rw [intoRs] at h; cases h; exact any _
    | unknown => rw [intoRs] at h; cases h; exact any _
    | other n _ hn =>
      rw [intoRs] at h
      rcases mapType_ok h with ⟨h1, h⟩ | ⟨h1, rel, h2, _, h⟩ | ⟨h1, h2, h⟩
      · exact absurd ((isNdarray_iff E _).mp h1) hn
      · cases h; exact ref ⟨v, .refl _, .boundLocal _ _⟩
      · cases h; exact any _
    | ndarray n cs hn hc =>
      rw [intoRs] at h
      rcases mapType_ok h with ⟨h1, h⟩ | ⟨h1, rel, h2, _, h⟩ | ⟨h1, h2, h⟩
      · cases h; exact ref ⟨_, .refl _, .ndarray _ hc⟩
      · rw [(isNdarray_iff E n).mpr hn] at h1; cases h1
      · rw [(isNdarray_iff E n).mpr hn] at h1; cases h1
    | bool => rw [intoRs] at h; cases h; exact same ⟨_, .refl _, .bool _⟩
    | byteArray => exact ht.elim
    | bytes => exact ht.elim
    | float => rw [intoRs] at h; cases h; exact same ⟨_, .refl _, .f64⟩
    | floatInt i hi => rw [intoRs] at h; cases h; exact same ⟨_, .intFloat _, .f64⟩
    | long i hi => rw [intoRs] at h; cases h; exact same ⟨_, .refl _, .i64 _ hi⟩
    | longBool x =>
      rw [intoRs] at h; cases h
      exact same ⟨_, .boolInt _, .i64 _ (by cases x <;> simp [FitsI64])⟩
    | string => rw [intoRs] at h; cases h; exact ⟨⟨_, .refl _, .string⟩, _, .refl _, .strRef⟩
    | optNone t =>
      rw [intoRs] at h
      obtain ⟨p, hp, h⟩ := Res.bind_ok h
      cases h
      exact same ⟨_, .refl _, .optNone _⟩
    | optSome t _ hv =>
      rw [intoRs] at h
      obtain ⟨p, hp, h⟩ := Res.bind_ok h
      cases h
      obtain ⟨w, h1, h2⟩ := own (by simp [PyTy.kids]) hp ht _ hv
      exact same ⟨w, h1, .optSome _ _ h2⟩
    | union => rw [intoRs] at h; cases h; exact any _
    | none => rw [intoRs] at h; cases h; exact any _
    | dict k u l h1 h2 =>
      rw [intoRs] at h
      obtain ⟨p, hp, h⟩ := Res.bind_ok h
      split at h
      · rename_i hc
        obtain ⟨q, hq, h⟩ := Res.bind_ok h
        cases h
        have hh : k.isHashable = true := by simp only [Bool.and_eq_true] at hc; exact hc.1
        rcases ht with ht | ⟨_, _, ht, hm⟩ | ⟨t1, t2⟩
        · rw [hh] at ht; cases ht
        · rw [hp] at ht
          cases ht
          rw [hm] at hc
          simp at hc
        · obtain ⟨m, hm, hall⟩ := choose_equal (l := l)
            (P := fun x (y : Val × Val) => (Equals x.1 y.1 ∧ Equals x.2 y.2) ∧ Passed q.1 y.1 ∧ Passed p.1 y.2) fun x hx => by
              obtain ⟨w1, a1, a2⟩ := own (by simp [PyTy.kids]) hq t1 _ (h1 x hx)
              obtain ⟨w2, b1, b2⟩ := own (by simp [PyTy.kids]) hp t2 _ (h2 x hx)
              exact ⟨(w1, w2), ⟨a1, b1⟩, a2, b2⟩
          refine ref ⟨.dict m, .dict _ _ hm (fun x hx => (hall x hx).1.1) (fun x hx => (hall x hx).1.2), .hashMap _ _ _ (fun y hy => ?_) (fun y hy => ?_)⟩
          · obtain ⟨x, -, hx⟩ := beside hm hy; exact (hall _ hx).2.1
          · obtain ⟨x, -, hx⟩ := beside hm hy; exact (hall _ hx).2.2
      · cases h
        exact ⟨⟨_, .refl _, .dict _⟩, _, .refl _, .intoDict _⟩
    | frozenSet t l hl =>
      rw [intoRs] at h
      obtain hc | hc := Bool.eq_false_or_eq_true t.isHashable
      · rw [hc] at h
        obtain ⟨p, hp, h⟩ := Res.bind_ok h
        cases h
        rcases ht with ht | ht
        · rw [hc] at ht; cases ht
        · obtain ⟨m, hm, hall⟩ := choose_equal (l := l) (P := fun x y => Equals x y ∧ Passed p.1 y) fun x hx =>
            own (by simp [PyTy.kids]) hp ht _ (hl x hx)
          refine ref ⟨.set m, .frozenSetSet _ _ hm fun x hx => (hall x hx).1, .hashSet _ _ fun y hy => ?_⟩
          obtain ⟨x, -, hx⟩ := beside hm hy; exact (hall _ hx).2
      · rw [hc] at h
        cases h
        exact ref ⟨_, .refl _, .frozenSet _⟩
    | set t l hl =>
      rw [intoRs] at h
      obtain hc | hc := Bool.eq_false_or_eq_true t.isHashable
      · rw [hc] at h
        obtain ⟨p, hp, h⟩ := Res.bind_ok h
        cases h
        rcases ht with ht | ht
        · rw [hc] at ht; cases ht
        · obtain ⟨m, hm, hall⟩ := choose_equal (l := l) (P := fun x y => Equals x y ∧ Passed p.1 y) fun x hx =>
            own (by simp [PyTy.kids]) hp ht _ (hl x hx)
          refine ref ⟨.set m, .set _ _ hm fun x hx => (hall x hx).1, .hashSet _ _ fun y hy => ?_⟩
          obtain ⟨x, -, hx⟩ := beside hm hy; exact (hall _ hx).2
      · rw [hc] at h
        cases h
        exact ref ⟨_, .refl _, .set _⟩
    | list t l hl =>
      rw [intoRs] at h
      obtain ⟨p, hp, h⟩ := Res.bind_ok h
      cases h
      obtain ⟨m, hm, hall⟩ := choose_equal (l := l) (P := fun x y => Equals x y ∧ Passed p.1 y) fun x hx =>
        own (by simp [PyTy.kids]) hp ht _ (hl x hx)
      have key : ∀ y ∈ m, Passed p.1 y := fun y hy => by obtain ⟨x, -, hx⟩ := beside hm hy; exact (hall _ hx).2
      have he : Equals (.list l) (.list m) := .list _ _ hm fun x hx => (hall x hx).1
      exact ⟨⟨_, he, .vec _ _ key⟩, _, he, .slice _ _ key⟩
    | tuple ts l hlen hell hall =>
      rcases tuple_cases ts with hl | ⟨t, rfl⟩ | ⟨h2, he⟩
      · rw [intoRs_tuple_short E lt hl] at h
        cases h
        exact ⟨⟨_, .refl _, .pyTuple _⟩, _, .refl _, .intoTuple _⟩
      · exact absurd (by simp) (hell rfl)
      · rw [intoRs_tuple E lt h2 he] at h
        obtain ⟨rs, hrs, h⟩ := Res.bind_ok h
        cases h
        rcases ht with ht | ⟨-, ht⟩
        · omega
        rw [sendableAll_iff] at ht
        have hrl := Res.traverse_length hrs
        obtain ⟨m, hm, hP⟩ := choose_equal (l := rs.zip l) (P := fun x y => Equals x.2 y ∧ Passed x.1 y) fun x hx => by
          obtain ⟨i, hi⟩ := List.mem_iff_getElem?.mp hx
          rw [List.getElem?_zip_eq_some] at hi
          have hlt : i < ts.length := by have := (List.getElem?_eq_some_iff.mp hi.1).1; omega
          have hs : ts[i]? = some ts[i] := List.getElem?_eq_getElem hlt
          have hsr := traverse_zip hrs (ts[i], x.1) (List.mem_of_getElem? (List.getElem?_zip_eq_some.mpr ⟨hs, hi.1⟩))
          obtain ⟨b, hb⟩ := intoRsOwned_ok hsr
          have hmem : ts[i] ∈ ts := List.getElem_mem hlt
          exact own (p := (x.1, b)) (by simp [PyTy.kids]) hb (ht _ hmem) _
            (hall (ts[i], x.2) (List.mem_of_getElem? (List.getElem?_zip_eq_some.mpr ⟨hs, hi.2⟩)))
        have hzl : (rs.zip l).length = rs.length := by rw [List.length_zip]; omega
        have at_ : ∀ {i : Nat} {r : RsTy} {w x : Val}, rs[i]? = some r → l[i]? = some x → m[i]? = some w → Equals x w ∧ Passed r w := by
          intro i r w x h1 h2 h3
          exact hP ((r, x), w) (List.mem_of_getElem? (List.getElem?_zip_eq_some.mpr ⟨List.getElem?_zip_eq_some.mpr ⟨h1, h2⟩, h3⟩))
        refine same ⟨.tuple m, .tuple _ _ (by omega) fun x hx => ?_, .tuple _ _ (by omega) fun x hx => ?_⟩
        · obtain ⟨i, hi⟩ := List.mem_iff_getElem?.mp hx
          rw [List.getElem?_zip_eq_some] at hi
          have hlt : i < rs.length := by have := (List.getElem?_eq_some_iff.mp hi.1).1; omega
          exact (at_ (List.getElem?_eq_getElem hlt) hi.1 hi.2).1
        · obtain ⟨i, hi⟩ := List.mem_iff_getElem?.mp hx
          rw [List.getElem?_zip_eq_some] at hi
          have hlt : i < l.length := by have := (List.getElem?_eq_some_iff.mp hi.1).1; omega
          exact (at_ hi.1 (List.getElem?_eq_getElem hlt) hi.2).2
    | tupleOf t l hl =>
      rcases ht with ht | ⟨ht, -⟩
      · simp at ht
      · exact absurd (by simp) (ht rfl)
    | anyTuple l =>
      rw [intoRs] at h
      cases h
      exact ⟨⟨_, .refl _, .pyTuple _⟩, _, .refl _, .intoTuple _⟩
    | path => exact ht.elim
    | delta => rw [intoRs] at h; cases h; exact any _
    | ellipsis => rw [intoRs] at h; cases h; exact any _
    | inst _ n cs hn hc =>
      have hn' : n ∉ [c!"PyDict", c!"PySet", c!"PyFrozenSet", c!"PyTuple"] := by
        cases t <;> simp only [instClass, Option.some.injEq, reduceCtorEq] at hn <;> (subst hn; decide)
      exact inst (instClass_intoRs hn) hn hn' hn hc

/-- **C79** (partial): for every value of the type of the annotation a Rust caller can pass one that arrives as an equal value; `o` are the types of
parts, `b` those of parameters.

Missing: bytes, paths and tuples of any length: no value of these types can be passed (`C79_exact`). -/
theorem C79_passable_partial (E : Env) (lt : LocalTypes) (t : PyTy) (o b : RsTy) (h : intoRs E lt t = .ok (o, b)) (ht : Passable t) (v : Val)
    (hv : HasTy (NumpyArray E) t v) : (∃ w, Equals v w ∧ Passed o w) ∧ ∃ w, Equals v w ∧ Passed b w :=
  sendable_passed E lt t o b h (passable_sendable ht) v hv

/-- Every value of `dict[str, list[tuple[int, Optional[float]]]]` can be passed: for `{"a": [(True, None)]}` there is `{"a": [(1, None)]}`. -/
example (E : Env) : Passable (.dict .string (.list (.tuple [.long, .optional .float]))) ∧
    HasTy (NumpyArray E) (.dict .string (.list (.tuple [.long, .optional .float]))) (.dict [(.str true, .list [.tuple [.bool true, .none]])]) ∧
    ∃ w, Equals (.dict [(.str true, .list [.tuple [.bool true, .none]])]) w ∧
      Passed (.ref (.hashMap .string (.vec (.tuple [.i64, .option .f64])))) w := by
  have h1 : Passable (.dict .string (.list (.tuple [.long, .optional .float]))) := by simp [Passable, PassableList]
  have h2 : HasTy (NumpyArray E) (.dict .string (.list (.tuple [.long, .optional .float])))
      (.dict [(.str true, .list [.tuple [.bool true, .none]])]) := by
    refine .dict _ _ _ ?_ ?_
    · simp only [List.mem_singleton, forall_eq]; exact .string
    · simp only [List.mem_singleton, forall_eq]
      refine .list _ _ ?_
      simp only [List.mem_singleton, forall_eq]
      refine .tuple _ _ rfl (by simp) ?_
      simp only [List.zip_cons_cons, List.zip_nil_right, List.mem_cons, List.not_mem_nil, or_false, forall_eq_or_imp, forall_eq]
      exact ⟨.longBool _, .optNone _⟩
  exact ⟨h1, h2, (C79_passable_partial E [] _ _ _ rfl h1 _ h2).2⟩

/-- **C80** Whatever has been passed for an annotation can be extracted as its Rust type. -/
theorem C80_back (E : Env) (lt : LocalTypes) (t : PyTy) (o b : RsTy) (h : intoRs E lt t = .ok (o, b)) (v : Val)
    (hv : Passed o v ∨ Passed b v) : Extracts v o := by
  induction t using PyTy.ind generalizing o b v with
  | step t ih =>
    have own : ∀ {s : PyTy} {p : RsTy × RsTy} {v : Val}, s ∈ t.kids → intoRs E lt s = .ok p → Passed p.1 v → Extracts v p.1 :=
      fun hs hp hv => ih _ hs _ _ hp _ (Or.inl hv)
    have any : ∀ {v}, Extracts v (.bound c!"PyAny") := .any _
    have seq : ∀ {r v}, (∀ v, Passed r v → Extracts v r) → Passed (.vec r) v ∨ Passed (.slice r) v → Extracts v (.vec r) := by
      intro r v hr hv
      rcases hv with hv | hv
      · cases hv with | vec _ l hl => exact .vecList _ _ fun v hm => hr _ (hl v hm)
      · cases hv with | slice _ l hl => exact .vecList _ _ fun v hm => hr _ (hl v hm)
    have ref : ∀ {r v}, Passed r v ∨ Passed (.ref r) v → Passed r v := by
      intro r v hv
      rcases hv with hv | hv
      · exact hv
      · cases hv; assumption
    have bound : ∀ {n v}, Passed (.bound n) v → Extracts v (.bound n) := by
      intro n v hv
      cases hv with
      | any => exact .any _
      | dict => exact .dict _
      | set => exact .set _
      | frozenSet => exact .frozenSet _
      | pyTuple => exact .pyTuple _
      | inst _ _ h1 _ => exact .inst _ _ h1
    have hset : ∀ {s : PyTy} {p : RsTy × RsTy} {v : Val}, s ∈ t.kids → intoRs E lt s = .ok p → Passed (.hashSet p.1) v →
        Extracts v (.hashSet p.1) := by
      intro s p v hs hp hv
      cases hv with | hashSet _ l hl => exact .hashSet _ _ fun x hx => own hs hp (hl x hx)
    by_cases hi : ∃ n, instClass t = some n
    · obtain ⟨n, hn⟩ := hi
      rw [instClass_intoRs hn] at h
      cases h
      exact bound (ref hv)
    cases t
    case any => rw [intoRs] at h; cases h; exact any
    case unknown => rw [intoRs] at h; cases h; exact any
    case union => rw [intoRs] at h; cases h; exact any
    case none => rw [intoRs] at h; cases h; exact any
    case delta => rw [intoRs] at h; cases h; exact any
    case ellipsis => rw [intoRs] at h; cases h; exact any
    case other n =>
      rw [intoRs] at h
      rcases mapType_ok h with ⟨h1, h⟩ | ⟨h1, rel, h2, _, h⟩ | ⟨h1, h2, h⟩
      · cases h
        have hv := ref hv
        cases hv; exact .ndarray _ ‹_›
      · cases h; exact .boundLocal _ _
      · cases h; exact any
    case bool => rw [intoRs] at h; cases h; rcases hv with hv | hv <;> cases hv <;> exact .bool _
    case long => rw [intoRs] at h; cases h; rcases hv with hv | hv <;> cases hv <;> exact .int _ ‹_›
    case float => rw [intoRs] at h; cases h; rcases hv with hv | hv <;> cases hv <;> exact .float
    case string => rw [intoRs] at h; cases h; rcases hv with hv | hv <;> cases hv <;> exact .str
    case bytes => rw [intoRs] at h; cases h; exact seq (fun v hv => by cases hv; exact .u8 _ ‹_› ‹_›) hv
    case byteArray => rw [intoRs] at h; cases h; exact seq (fun v hv => by cases hv; exact .u8 _ ‹_› ‹_›) hv
    case path =>
      rw [intoRs] at h; cases h
      rcases hv with hv | hv
      · cases hv; exact .pathStr
      · cases hv with | ref _ _ hv => cases hv; exact .pathStr
    case ipV4 => rw [intoRs] at h; cases h; rcases hv with hv | hv <;> cases hv
    case ipV6 => rw [intoRs] at h; cases h; rcases hv with hv | hv <;> cases hv
    case optional t =>
      rw [intoRs] at h
      obtain ⟨p, hp, h⟩ := Res.bind_ok h
      cases h
      have hv : Passed (.option p.1) v := by rcases hv with hv | hv <;> exact hv
      cases hv
      · exact .optNone _
      · exact .optSome _ _ (own (by simp [PyTy.kids]) hp ‹_›)
    case list t =>
      rw [intoRs] at h
      obtain ⟨p, hp, h⟩ := Res.bind_ok h
      cases h
      exact seq (fun v hv => own (by simp [PyTy.kids]) hp hv) hv
    case dict k u =>
      rw [intoRs] at h
      obtain ⟨p, hp, h⟩ := Res.bind_ok h
      split at h
      · obtain ⟨q, hq, h⟩ := Res.bind_ok h
        cases h
        have hv := ref hv
        cases hv with
        | hashMap _ _ l h1 h2 =>
          exact .hashMap _ _ _ (fun x hx => own (by simp [PyTy.kids]) hq (h1 x hx)) (fun x hx => own (by simp [PyTy.kids]) hp (h2 x hx))
      · cases h
        rcases hv with hv | hv
        · exact bound hv
        · cases hv; exact .dict _
    case set t =>
      rw [intoRs] at h
      split at h
      · obtain ⟨p, hp, h⟩ := Res.bind_ok h
        cases h
        exact hset (by simp [PyTy.kids]) hp (ref hv)
      · cases h; exact bound (ref hv)
    case frozenSet t =>
      rw [intoRs] at h
      split at h
      · obtain ⟨p, hp, h⟩ := Res.bind_ok h
        cases h
        exact hset (by simp [PyTy.kids]) hp (ref hv)
      · cases h; exact bound (ref hv)
    case tuple ts =>
      rcases tuple_cases ts with hl | ⟨t, rfl⟩ | ⟨h2, he⟩
      · rw [intoRs_tuple_short E lt hl] at h
        cases h
        rcases hv with hv | hv
        · exact bound hv
        · cases hv; exact .pyTuple _
      · rw [intoRs_tuple_ellipsis, intoRs] at h
        obtain ⟨p, hp, h⟩ := Res.bind_ok h
        cases h
        exact seq (fun v hv => own (by simp [PyTy.kids]) hp hv) hv
      · rw [intoRs_tuple E lt h2 he] at h
        obtain ⟨rs, hrs, h⟩ := Res.bind_ok h
        cases h
        have hv : Passed (.tuple rs) v := by rcases hv with hv | hv <;> exact hv
        cases hv with
        | tuple _ l hlen hall =>
          refine .tuple _ _ hlen fun x hx => ?_
          obtain ⟨i, hi⟩ := List.mem_iff_getElem?.mp hx
          rw [List.getElem?_zip_eq_some] at hi
          have hm : x.2 ∈ rs := List.mem_of_getElem? hi.2
          obtain ⟨s, hs, hsr⟩ := traverse_mem hrs hm
          obtain ⟨b, hb⟩ := intoRsOwned_ok hsr
          exact own (p := (x.2, b)) (by simpa [PyTy.kids] using hs) hb
            (hall (x.2, x.1) (List.mem_of_getElem? (List.getElem?_zip_eq_some.mpr ⟨hi.2, hi.1⟩)))
    all_goals exact absurd ⟨_, rfl⟩ hi

/-- **C80** (accessors): the getter of an attribute extracts whatever the setter of the attribute lets a caller store, also the empty
dictionary that it stores for `None` (C30). -/
theorem C80_accessors {E : Env} {cfg : Config} {imp : Str → Bool} {taken : List Ident} {lt : LocalTypes} {p : Property} {g s : Fn}
    (h : p.generate E cfg imp taken lt = .ok [some g, some s]) :
    ∃ t rt, s.sig.params = [(c!"p_value", t)] ∧ g.sig.ret = .ty rt ∧ (∀ v, Passed t v → Extracts v rt) ∧
      ∀ k w, p.ann = .optional (.dict k w) → Extracts (.dict []) rt := by
  obtain ⟨g', hg, h⟩ := accessors_of h
  rcases h with ⟨-, s', hs, h⟩ | ⟨-, h⟩
  · cases h
    obtain ⟨_, _, rt, _, _, _, h1, _, rfl⟩ := getter_fn hg
    obtain ⟨_, _, _, t, _, _, _, _, h2, _, rfl⟩ := setter_fn hs
    refine ⟨t, rt, rfl, rfl, fun v hv => ?_, fun k w hk => ?_⟩
    · unfold intoRsOwned at h1
      unfold intoRsBorrowed at h2
      obtain ⟨⟨o, b⟩, h3, h1⟩ := Res.bind_ok h1
      rw [h3] at h2
      cases h1
      cases h2
      exact C80_back E lt _ _ _ h3 v (Or.inr hv)
    · obtain ⟨b, h3⟩ := intoRsOwned_ok h1
      rw [hk] at h3
      exact C21_extract_partial E lt _ _ _ b h3 (.optSome _ _ (.dict _ _ _ (fun x hx => nomatch hx) (fun x hx => nomatch hx)))
  · cases h

/-- The accessors of an attribute of the type `bytes`: what arrives in the attribute is a list (C78), and the getter reads it as bytes again. -/
example : ∃ g s, Property.generate (Env.ascii true false) {} (fun s => s = c!"m") [] []
      ⟨Path.fromPy (Env.ascii true false) c!"m.x", .module, true, .bytes, .unknown, none, none⟩ = .ok [some g, some s] ∧
    s.sig.params = [(c!"p_value", .slice .u8)] ∧ g.sig.ret = .ty (.vec .u8) ∧
    Passed (.slice .u8) (.list [.int 104, .int 105]) ∧ Extracts (.list [.int 104, .int 105]) (.vec .u8) := by
  have hp : Passed (.slice .u8) (.list [.int 104, .int 105]) := .slice _ _ fun v hv => by
    simp only [List.mem_cons, List.not_mem_nil, or_false] at hv
    rcases hv with rfl | rfl <;> exact .u8 _ (by decide) (by decide)
  refine ⟨_, _, rfl, rfl, rfl, hp, ?_⟩
  exact C80_back (Env.ascii true false) [] .bytes _ _ rfl _ (Or.inr hp)

end Bindgen
