import Verif.Spec.Passed
import Verif.Props.Hashing
/-!
# C78: arguments and results have the annotated types
-/
namespace Bindgen
open Spec

theorem solidList_iff {ts : List PyTy} : SolidList ts ↔ ∀ t ∈ ts, Solid t := by
  induction ts with
  | nil => simp [SolidList]
  | cons t ts ih => simp [SolidList, ih]

theorem tightList_iff {A : Str → Prop} {ts : List PyTy} : TightList A ts ↔ ∀ t ∈ ts, Tight A t := by
  induction ts with
  | nil => simp [TightList]
  | cons t ts ih => simp [TightList, ih]

theorem scalar_solid {t : PyTy} (h : scalar t = true) : Solid t := by
  cases t <;> simp [scalar] at h <;> simp [Solid]

theorem scalar_hashable {t : PyTy} (h : scalar t = true) : t.isHashable = true := by
  cases t <;> simp [scalar] at h <;> rfl

/-- Annotations that admit every value do. -/
theorem loose_hasTy {A : Str → Prop} {t : PyTy} (h : Loose A t) (v : Val) : HasTy A t v := by
  cases t <;> simp only [Loose] at h
  · exact .any _
  · exact .other _ _ h
  · exact .unknown _
  · exact .ellipsis _

theorem loose_not_hashable {A : Str → Prop} {t : PyTy} (h : Loose A t) : t.isHashable = false := by
  cases t <;> simp only [Loose] at h <;> rfl

theorem anyMentions_iff {l : List RsTy} : RsTy.anyMentionsPyAny l = false ↔ ∀ r ∈ l, r.mentionsPyAny = false := by
  induction l with
  | nil => simp [RsTy.anyMentionsPyAny]
  | cons t l ih => simp [RsTy.anyMentionsPyAny, ih]

/-- The types of builtin objects: parameters are references to objects of the class. -/
theorem instClass_intoRs {E : Env} {lt : LocalTypes} {t : PyTy} {n : Str} (h : instClass t = some n) :
    intoRs E lt t = .ok (boundOut n) := by
  cases t <;> simp only [instClass, Option.some.injEq, reduceCtorEq] at h <;> (rw [intoRs, h])

/-- Nothing solid mentions arbitrary objects. -/
theorem solid_no_any {E : Env} {lt : LocalTypes} {t : PyTy} {o b : RsTy} (h : intoRs E lt t = .ok (o, b)) (hs : Solid t) :
    o.mentionsPyAny = false := by
  induction t using PyTy.ind generalizing o b with
  | step t ih =>
    have own : ∀ {s : PyTy} {p : RsTy × RsTy}, s ∈ t.kids → intoRs E lt s = .ok p → Solid s → p.1.mentionsPyAny = false :=
      fun hs hp => ih _ hs hp
    cases t <;> simp only [Solid] at hs
    case optional t =>
      rw [intoRs] at h
      obtain ⟨p, hp, h⟩ := Res.bind_ok h
      cases h
      simpa [RsTy.mentionsPyAny] using own (by simp [PyTy.kids]) hp hs
    case list t =>
      rw [intoRs] at h
      obtain ⟨p, hp, h⟩ := Res.bind_ok h
      cases h
      simpa [RsTy.mentionsPyAny] using own (by simp [PyTy.kids]) hp hs
    case dict k v =>
      rw [intoRs] at h
      obtain ⟨p, hp, h⟩ := Res.bind_ok h
      have hv := own (by simp [PyTy.kids]) hp hs.2
      rw [hv, scalar_hashable hs.1] at h
      obtain ⟨q, hq, h⟩ := Res.bind_ok h
      cases h
      simpa [RsTy.mentionsPyAny, hv] using own (by simp [PyTy.kids]) hq (scalar_solid hs.1)
    case set t =>
      rw [intoRs, scalar_hashable hs] at h
      obtain ⟨p, hp, h⟩ := Res.bind_ok h
      cases h
      simpa [RsTy.mentionsPyAny] using own (by simp [PyTy.kids]) hp (scalar_solid hs)
    case tuple ts =>
      rw [solidList_iff] at hs
      rcases tuple_cases ts with hl | ⟨t, rfl⟩ | ⟨h2, he⟩
      · omega
      · exact absurd (hs.2 .ellipsis (by simp)) (by simp [Solid])
      · rw [intoRs_tuple E lt h2 he] at h
        obtain ⟨rs, hrs, h⟩ := Res.bind_ok h
        cases h
        rw [RsTy.mentionsPyAny, anyMentions_iff]
        intro r hr
        obtain ⟨s, hm, hsr⟩ := traverse_mem hrs hr
        obtain ⟨b, hb⟩ := intoRsOwned_ok hsr
        exact own (p := (r, b)) (by simpa [PyTy.kids] using hm) hb (hs.2 s hm)
    all_goals (rw [intoRs] at h; cases h; decide)

/-- What is solid is tight. -/
theorem solid_tight {A : Str → Prop} {t : PyTy} (hs : Solid t) : Tight A t := by
  induction t using PyTy.ind with
  | step t ih =>
    cases t <;> simp only [Solid] at hs <;> simp only [Tight]
    case optional t => exact ih t (by simp [PyTy.kids]) hs
    case list t => exact ih t (by simp [PyTy.kids]) hs
    case dict k v => exact Or.inl hs
    case set t => exact Or.inl hs
    case tuple ts =>
      rw [solidList_iff] at hs
      refine Or.inr ⟨hs.1, fun _ he => ?_, ?_⟩
      · exact absurd (hs.2 _ he) (by simp [Solid])
      · rw [tightList_iff]
        exact fun s hm => ih s (by simpa [PyTy.kids] using hm) (hs.2 s hm)

/-- A scalar arrives as what it is. -/
theorem scalar_arrives {E : Env} {lt : LocalTypes} {A : Str → Prop} {t : PyTy} {p : RsTy × RsTy} {v : Val} (ht : scalar t = true)
    (h : intoRs E lt t = .ok p) (hv : Passed p.1 v) : HasTy A t v := by
  cases t <;> simp only [scalar, Bool.false_eq_true] at ht <;> (rw [intoRs] at h; cases h; cases hv)
  · exact .bool _
  · exact .long _ ‹_›
  · exact .string

/-- **C78** (arguments, partial): whatever a Rust caller passes for a parameter arrives in Python as a value of the type of the
annotation, for every annotation that is tight; `o` are the types of parts (as in `Option<o>`), `b` those of parameters.

Missing: bytes, byte arrays, paths, frozen sets of plain values and tuples of any length, for which no argument at all arrives as annotated
(`C78_never`), and annotations whose parameters are any object, any dictionary or any tuple (`C78_loose_counterexample`). -/
theorem C78_arguments_partial (E : Env) (lt : LocalTypes) (t : PyTy) (o b : RsTy) (h : intoRs E lt t = .ok (o, b))
    (ht : Tight (NumpyArray E) t) (v : Val) (hv : Passed o v ∨ Passed b v) : HasTy (NumpyArray E) t v := by
  induction t using PyTy.ind generalizing o b v with
  | step t ih =>
    have own : ∀ {s : PyTy} {p : RsTy × RsTy} {v : Val}, s ∈ t.kids → intoRs E lt s = .ok p → Tight (NumpyArray E) s → Passed p.1 v →
        HasTy (NumpyArray E) s v := fun hs hp ht hv => ih _ hs _ _ hp ht _ (Or.inl hv)
    cases t <;> simp only [Tight] at ht
    case other n =>
      by_cases hn : NumpyArray E n
      · rw [intoRs] at h
        rcases mapType_ok h with ⟨h1, h⟩ | ⟨h1, rel, h2, _, h⟩ | ⟨h1, h2, h⟩
        · cases h
          rcases hv with hv | hv
          · cases hv; exact .ndarray _ _ hn ‹_›
          · cases hv with | ref _ _ hv => cases hv; exact .ndarray _ _ hn ‹_›
        · rw [(isNdarray_iff E n).mpr hn] at h1; cases h1
        · rw [(isNdarray_iff E n).mpr hn] at h1; cases h1
      · exact .other _ _ hn
    case any => exact .any _
    case unknown => exact .unknown _
    case ellipsis => exact .ellipsis _
    case delta => exact .delta _
    case bool => rw [intoRs] at h; cases h; rcases hv with hv | hv <;> cases hv <;> exact .bool _
    case long => rw [intoRs] at h; cases h; rcases hv with hv | hv <;> cases hv <;> exact .long _ ‹_›
    case string => rw [intoRs] at h; cases h; rcases hv with hv | hv <;> cases hv <;> exact .string
    case float => rw [intoRs] at h; cases h; rcases hv with hv | hv <;> cases hv <;> exact .float
    case optional t =>
      rw [intoRs] at h
      obtain ⟨p, hp, h⟩ := Res.bind_ok h
      cases h
      rcases hv with hv | hv <;> cases hv
      · exact .optNone _
      · exact .optSome _ _ (own (by simp [PyTy.kids]) hp ht ‹_›)
      · exact .optNone _
      · exact .optSome _ _ (own (by simp [PyTy.kids]) hp ht ‹_›)
    case list t =>
      rw [intoRs] at h
      obtain ⟨p, hp, h⟩ := Res.bind_ok h
      cases h
      rcases hv with hv | hv
      · cases hv with | vec _ l hl => exact .list _ _ (fun v hm => own (by simp [PyTy.kids]) hp ht (hl v hm))
      · cases hv with | slice _ l hl => exact .list _ _ (fun v hm => own (by simp [PyTy.kids]) hp ht (hl v hm))
    case dict k v' =>
      rw [intoRs] at h
      obtain ⟨p, hp, h⟩ := Res.bind_ok h
      rcases ht with ⟨hk, hs⟩ | ⟨hk, hl⟩
      · rw [solid_no_any (o := p.1) (b := p.2) hp hs, scalar_hashable hk] at h
        obtain ⟨q, hq, h⟩ := Res.bind_ok h
        cases h
        have key : ∀ {v}, Passed (.hashMap q.1 p.1) v → HasTy (NumpyArray E) (.dict k v') v := by
          intro v hv
          cases hv with
          | hashMap _ _ l h1 h2 =>
            exact .dict _ _ _ (fun x hx => scalar_arrives hk hq (h1 x hx))
              (fun x hx => own (by simp [PyTy.kids]) hp (solid_tight hs) (h2 x hx))
        rcases hv with hv | hv
        · exact key hv
        · cases hv with | ref _ _ hv => exact key hv
      · rw [loose_not_hashable hk] at h
        cases h
        have : ∀ l, HasTy (NumpyArray E) (.dict k v') (.dict l) := fun l =>
          .dict _ _ _ (fun x _ => loose_hasTy hk _) (fun x _ => loose_hasTy hl _)
        rcases hv with hv | hv
        · cases hv with
          | dict l => exact this l
          | inst cs n hm hn => exact absurd (by simp) hn
        · cases hv with | intoDict l => exact this l
    case set t =>
      rw [intoRs] at h
      rcases ht with ht | ht
      · rw [scalar_hashable ht] at h
        obtain ⟨p, hp, h⟩ := Res.bind_ok h
        cases h
        rcases hv with hv | hv
        · cases hv with | hashSet _ l hl => exact .set _ _ (fun x hx => scalar_arrives ht hp (hl x hx))
        · cases hv with | ref _ _ hv => cases hv with | hashSet _ l hl => exact .set _ _ (fun x hx => scalar_arrives ht hp (hl x hx))
      · rw [loose_not_hashable ht] at h
        cases h
        have key : ∀ {v}, Passed (.bound c!"PySet") v → HasTy (NumpyArray E) (.set t) v := by
          intro v hv
          cases hv with
          | set l => exact .set _ _ (fun x _ => loose_hasTy ht _)
          | inst cs n hm hn => exact absurd (by simp) hn
        rcases hv with hv | hv
        · exact key hv
        · cases hv with | ref _ _ hv => exact key hv
    case frozenSet t =>
      rw [intoRs, loose_not_hashable ht] at h
      cases h
      have key : ∀ {v}, Passed (.bound c!"PyFrozenSet") v → HasTy (NumpyArray E) (.frozenSet t) v := by
        intro v hv
        cases hv with
        | frozenSet l => exact .frozenSet _ _ (fun x _ => loose_hasTy ht _)
        | inst cs n hm hn => exact absurd (by simp) hn
      rcases hv with hv | hv
      · exact key hv
      · cases hv with | ref _ _ hv => exact key hv
    case tuple ts =>
      rcases ht with rfl | ⟨h2, hell, ht⟩
      · rw [intoRs] at h
        cases h
        rcases hv with hv | hv
        · cases hv with
          | pyTuple l => exact .anyTuple _
          | inst cs n hm hn => exact absurd (by simp) hn
        · cases hv with | intoTuple l => exact .anyTuple _
      · rw [tightList_iff] at ht
        rcases tuple_cases ts with hl | ⟨t, rfl⟩ | ⟨h2, he⟩
        · omega
        · exact absurd (by simp) (hell rfl)
        · rw [intoRs_tuple E lt h2 he] at h
          obtain ⟨rs, hrs, h⟩ := Res.bind_ok h
          cases h
          have hv : Passed (.tuple rs) v := by rcases hv with hv | hv <;> exact hv
          cases hv with
          | tuple _ l hlen hall =>
            have hrl := Res.traverse_length hrs
            refine .tuple _ _ (by omega) hell fun x hx => ?_
            obtain ⟨i, hi⟩ := List.mem_iff_getElem?.mp hx
            rw [List.getElem?_zip_eq_some] at hi
            have hlt : i < rs.length := by
              have := (List.getElem?_eq_some_iff.mp hi.1).1
              omega
            have hr : rs[i]? = some rs[i] := List.getElem?_eq_getElem hlt
            have hsr := traverse_zip hrs (x.1, rs[i]) (List.mem_of_getElem? (List.getElem?_zip_eq_some.mpr ⟨hi.1, hr⟩))
            obtain ⟨b, hb⟩ := intoRsOwned_ok hsr
            have hm : x.1 ∈ ts := List.mem_of_getElem? hi.1
            exact own (p := (rs[i], b)) (by simpa [PyTy.kids] using hm) hb (ht _ hm)
              (hall (rs[i], x.2) (List.mem_of_getElem? (List.getElem?_zip_eq_some.mpr ⟨hr, hi.2⟩)))
    all_goals
      rw [instClass_intoRs rfl] at h
      cases h
      rcases hv with hv | hv
      · cases hv with | inst cs n hm hn => exact .inst _ _ _ rfl hm
      · cases hv with | ref _ _ hv => cases hv with | inst cs n hm hn => exact .inst _ _ _ rfl hm

/-- Tight annotations: `dict[str, list[tuple[int, Optional[float]]]]`, and `tuple[int, Any]`. -/
example (E : Env) : Tight (NumpyArray E) (.dict .string (.list (.tuple [.long, .optional .float]))) ∧
    Tight (NumpyArray E) (.tuple [.long, .any]) ∧
    intoRs E [] (.dict .string (.list .long)) = .ok (.hashMap .string (.vec .i64), .ref (.hashMap .string (.vec .i64))) ∧
    Passed (.ref (.hashMap .string (.vec .i64))) (.dict [(.str true, .list [.int 1, .int 2])]) := by
  refine ⟨by simp [Tight, Solid, SolidList, scalar], by simp [Tight, TightList], rfl, ?_⟩
  refine .ref _ _ (.hashMap _ _ _ ?_ ?_)
  · simp only [List.mem_singleton, forall_eq]; exact .string
  · simp only [List.mem_singleton, forall_eq]
    refine .vec _ _ fun v hv => ?_
    simp only [List.mem_cons, List.not_mem_nil, or_false] at hv
    rcases hv with rfl | rfl <;> exact .i64 _ (by simp [FitsI64])

/-- **C78** fails for bytes, byte arrays, paths, frozen sets of plain values and tuples of any length: whatever the caller passes, what
arrives is not of the type of the annotation, but a list, a string or a set. -/
theorem C78_never (E : Env) (lt : LocalTypes) (t : PyTy) (o b : RsTy) (h : intoRs E lt t = .ok (o, b))
    (ht : t = .bytes ∨ t = .byteArray ∨ t = .path ∨ (∃ u, t = .frozenSet u ∧ plainKey u = true) ∨ ∃ u, t = .tuple [u, .ellipsis])
    (v : Val) (hv : Passed b v) : ¬ HasTy (NumpyArray E) t v := by
  rcases ht with rfl | rfl | rfl | ⟨u, rfl, hu⟩ | ⟨u, rfl⟩
  · rw [intoRs] at h; cases h; cases hv
    intro hc; cases hc
  · rw [intoRs] at h; cases h; cases hv
    intro hc; cases hc
  · rw [intoRs] at h; cases h
    cases hv with | ref _ _ hv => cases hv; intro hc; cases hc
  · rw [intoRs, isHashable_eq, hu] at h
    obtain ⟨p, hp, h⟩ := Res.bind_ok h
    cases h
    cases hv with | ref _ _ hv => cases hv; intro hc; cases hc
  · rw [intoRs_tuple_ellipsis, intoRs] at h
    obtain ⟨p, hp, h⟩ := Res.bind_ok h
    cases h
    cases hv
    intro hc; cases hc

/-- The parameter of `bytes` is `&[u8]`, and `&[104, 105]` arrives as the list `[104, 105]`; of `tuple[int, ...]` it is `&[i64]`, of
`frozenset[str]` a hash set. -/
example (E : Env) : intoRs E [] .bytes = .ok (.vec .u8, .slice .u8) ∧ Passed (.slice .u8) (.list [.int 104, .int 105]) ∧
    intoRs E [] (.tuple [.long, .ellipsis]) = .ok (.vec .i64, .slice .i64) ∧
    intoRs E [] (.frozenSet .string) = .ok (.hashSet .string, .ref (.hashSet .string)) ∧
    Passed (.ref (.hashSet .string)) (.set [.str true]) := by
  refine ⟨rfl, .slice _ _ fun v hv => ?_, ?_, rfl, .ref _ _ (.hashSet _ _ fun v hv => ?_)⟩
  · simp only [List.mem_cons, List.not_mem_nil, or_false] at hv
    rcases hv with rfl | rfl <;> exact .u8 _ (by decide) (by decide)
  · simp [intoRs]; rfl
  · simp only [List.mem_singleton] at hv; subst hv; exact .string

/-- **C78** fails for annotations that are wider than the Rust types can say: a number can be passed for `str | bytes`, a dictionary with
any keys for `dict[str, Any]`, a pair for `tuple[int]`, and anything for `None`. -/
theorem C78_loose_counterexample (E : Env) :
    (∃ o b v, intoRs E [] (.union [.string, .bytes]) = .ok (o, b) ∧ Passed b v ∧ ¬ HasTy (NumpyArray E) (.union [.string, .bytes]) v) ∧
    (∃ o b v, intoRs E [] (.dict .string .any) = .ok (o, b) ∧ Passed b v ∧ ¬ HasTy (NumpyArray E) (.dict .string .any) v) ∧
    (∃ o b v, intoRs E [] (.tuple [.long]) = .ok (o, b) ∧ Passed b v ∧ ¬ HasTy (NumpyArray E) (.tuple [.long]) v) ∧
    (∃ o b v, intoRs E [] .none = .ok (o, b) ∧ Passed b v ∧ ¬ HasTy (NumpyArray E) .none v) := by
  refine ⟨⟨_, _, .int 1, rfl, .intoAny _, ?_⟩, ⟨_, _, .dict [(.int 1, .none)], rfl, .intoDict _, ?_⟩,
    ⟨_, _, .tuple [.int 1, .int 2], rfl, .intoTuple _, ?_⟩, ⟨_, _, .int 1, rfl, .intoAny _, ?_⟩⟩
  · intro hc
    cases hc with
    | union _ t _ hm hc =>
      simp only [List.mem_cons, List.not_mem_nil, or_false] at hm
      rcases hm with rfl | rfl <;> cases hc
  · intro hc
    cases hc with | dict _ _ _ h1 h2 => have := h1 (.int 1, .none) (by simp); cases this
  · intro hc
    cases hc with | tuple _ _ hl _ _ => simp at hl
  · intro hc; cases hc

end Bindgen
