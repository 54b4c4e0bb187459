import Verif.Lemmas.Numpy
import Verif.Lemmas.Checks
import Verif.Lemmas.IntoRs
import Verif.Model.FromPy
/-!
# C18–C21, C23: from Python types to Rust types
-/
namespace Bindgen
open Spec

theorem ownedList_iff {ts : List RsTy} : OwnedList ts ↔ ∀ t ∈ ts, Owned t := by
  induction ts with
  | nil => simp [OwnedList]
  | cons t ts ih => simp [OwnedList, ih]

theorem hashOkList_iff {ts : List RsTy} : HashOkList ts ↔ ∀ t ∈ ts, HashOk t := by
  induction ts with
  | nil => simp [HashOkList]
  | cons t ts ih => simp [HashOkList, ih]

/-- Case analysis on tuples. -/
theorem tuple_cases (ts : List PyTy) :
    ts.length < 2 ∨ (∃ t, ts = [t, .ellipsis]) ∨ (2 ≤ ts.length ∧ ∀ t, ts ≠ [t, .ellipsis]) := by
  by_cases h : ts.length < 2
  · exact Or.inl h
  · by_cases h' : ∃ t, ts = [t, .ellipsis]
    · exact Or.inr (Or.inl h')
    · exact Or.inr (Or.inr ⟨by omega, fun t e => h' ⟨t, e⟩⟩)

theorem intoRs_tuple_short (E : Env) (lt : LocalTypes) {ts : List PyTy} (h : ts.length < 2) :
    intoRs E lt (.tuple ts) = .ok (.bound c!"PyTuple", .implIntoPy c!"PyTuple") := by
  match ts, h with
  | [], _ => rw [intoRs]
  | [_], _ => rw [intoRs]

theorem intoRs_tuple_ellipsis (E : Env) (lt : LocalTypes) (t : PyTy) :
    intoRs E lt (.tuple [t, .ellipsis]) = intoRs E lt (.list t) := by
  rw [intoRs, intoRs]; simp

theorem mapType_ok {E : Env} {lt : LocalTypes} {n : Str} {o : RsTy × RsTy} (h : mapType E lt n = .ok o) :
    (isNdarray E n = true ∧ o = (.boundNumpy, .ref .boundNumpy)) ∨
    (isNdarray E n = false ∧ ∃ rel, lt.get (Path.fromPy E (Str.beforeChar '[' n)) = some rel ∧ rel.synOk E = true ∧
      o = (.boundLocal rel, .ref (.boundLocal rel))) ∨
    (isNdarray E n = false ∧ lt.get (Path.fromPy E (Str.beforeChar '[' n)) = none ∧ o = anyOut) := by
  unfold mapType at h
  split at h
  · rename_i h1; cases h; exact Or.inl ⟨h1, rfl⟩
  · rename_i h1
    have h1 : isNdarray E n = false := by simpa using h1
    obtain ⟨_, -, h⟩ := Res.bind_ok h
    split at h
    · rename_i rel hrel
      split at h
      · rename_i hok; cases h; exact Or.inr (Or.inl ⟨h1, rel, hrel, hok, rfl⟩)
      · cases h
    · rename_i hrel; cases h; exact Or.inr (Or.inr ⟨h1, hrel, rfl⟩)

theorem mapType_check {E : Env} {lt : LocalTypes} {n : Str} {o : RsTy × RsTy} (h : mapType E lt n = .ok o)
    (hn : isNdarray E n = false) : Path.checkPy E [Str.beforeChar '[' n] = .ok () := by
  unfold mapType at h
  rw [hn, if_neg (by decide)] at h
  obtain ⟨_, hc, -⟩ := Res.bind_ok h
  exact hc

/-! ## C18 -/

/-- **C18** The type emitted for return values contains no `impl Trait`, no reference and no unsized type at any
depth; the type emitted for parameters has at most one outermost reference or `impl Trait`. -/
theorem C18_types_legal (E : Env) (lt : LocalTypes) (t : PyTy) (o b : RsTy) (h : intoRs E lt t = .ok (o, b)) :
    Owned o ∧ ParamLegal b := by
  induction t using PyTy.ind generalizing o b with
  | step t ih =>
    have own : ∀ {s : PyTy} {p : RsTy × RsTy}, s ∈ t.kids → intoRs E lt s = .ok p → Owned p.1 := fun hs hp => (ih _ hs _ _ hp).1
    cases t
    case other n =>
      rw [intoRs] at h
      rcases mapType_ok h with ⟨_, h⟩ | ⟨_, rel, _, _, h⟩ | ⟨_, _, h⟩ <;> cases h <;> simp [Owned, ParamLegal]
    case optional t =>
      rw [intoRs] at h
      obtain ⟨p, hp, h⟩ := Res.bind_ok h
      cases h
      have := own (by simp [PyTy.kids]) hp
      exact ⟨by simpa [Owned] using this, by simpa [ParamLegal, Owned] using this⟩
    case list t =>
      rw [intoRs] at h
      obtain ⟨p, hp, h⟩ := Res.bind_ok h
      cases h
      have := own (by simp [PyTy.kids]) hp
      exact ⟨by simpa [Owned] using this, by simpa [ParamLegal] using this⟩
    case dict k v =>
      rw [intoRs] at h
      obtain ⟨p, hp, h⟩ := Res.bind_ok h
      split at h
      · obtain ⟨q, hq, h⟩ := Res.bind_ok h
        cases h
        have h1 := own (by simp [PyTy.kids]) hp
        have h2 := own (by simp [PyTy.kids]) hq
        exact ⟨by simp [Owned, h1, h2], by simp [ParamLegal, Owned, h1, h2]⟩
      · cases h; exact ⟨trivial, trivial⟩
    case frozenSet t =>
      rw [intoRs] at h
      split at h
      · obtain ⟨p, hp, h⟩ := Res.bind_ok h
        cases h
        have := own (by simp [PyTy.kids]) hp
        exact ⟨by simpa [Owned] using this, by simpa [ParamLegal, Owned] using this⟩
      · cases h; simp [Owned, ParamLegal]
    case set t =>
      rw [intoRs] at h
      split at h
      · obtain ⟨p, hp, h⟩ := Res.bind_ok h
        cases h
        have := own (by simp [PyTy.kids]) hp
        exact ⟨by simpa [Owned] using this, by simpa [ParamLegal, Owned] using this⟩
      · cases h; simp [Owned, ParamLegal]
    case tuple ts =>
      rcases tuple_cases ts with hs | ⟨t, rfl⟩ | ⟨h2, he⟩
      · rw [intoRs_tuple_short E lt hs] at h; cases h; simp [Owned, ParamLegal]
      · rw [intoRs_tuple_ellipsis, intoRs] at h
        obtain ⟨p, hp, h⟩ := Res.bind_ok h
        cases h
        have := own (by simp [PyTy.kids]) hp
        exact ⟨by simpa [Owned] using this, by simpa [ParamLegal] using this⟩
      · rw [intoRs_tuple E lt h2 he] at h
        obtain ⟨rs, hrs, h⟩ := Res.bind_ok h
        cases h
        have : OwnedList rs := by
          rw [ownedList_iff]
          intro r hr
          obtain ⟨s, hs, hsr⟩ := traverse_mem hrs hr
          obtain ⟨b, hb⟩ := intoRsOwned_ok hsr
          exact own (p := (r, b)) (by simpa [PyTy.kids] using hs) hb
        exact ⟨by simpa [Owned] using this, by simpa [ParamLegal, Owned] using this⟩
    all_goals (rw [intoRs] at h; cases h; simp [Owned, ParamLegal])

example : intoRs (Env.ascii true false) [] (.dict .string (.list (.tuple [.long, .optional .bytes]))) =
    .ok (.hashMap .string (.vec (.tuple [.i64, .option (.vec .u8)])),
      .ref (.hashMap .string (.vec (.tuple [.i64, .option (.vec .u8)])))) := by decide

/-! ## C19 -/

/-- The dictionary test of `preprocess` and of `intoRs` agree. -/
theorem dictNeedsConversion_agrees {E : Env} {lt : LocalTypes} {k v : PyTy} {o b : RsTy}
    (h : intoRs E lt (.dict k v) = .ok (o, b)) :
    (dictNeedsConversion E lt k v = .ok true ∧ o = .bound c!"PyDict" ∧ b = .implIntoPyDict) ∨
    (dictNeedsConversion E lt k v = .ok false ∧ ∃ k' v', o = .hashMap k' v' ∧ b = .ref (.hashMap k' v')) := by
  rw [intoRs] at h
  obtain ⟨p, hp, h⟩ := Res.bind_ok h
  unfold dictNeedsConversion
  cases hk : k.isHashable
  · rw [hk] at h
    cases h
    left
    exact ⟨by simp, rfl, rfl⟩
  · rw [hk] at h
    simp only [Bool.not_true, Bool.false_eq_true, if_false, hp, Res.ok_bind, Bool.true_and] at h ⊢
    cases hm : p.1.mentionsPyAny
    · rw [hm] at h
      simp only [Bool.not_false, if_true] at h
      obtain ⟨q, hq, h⟩ := Res.bind_ok h
      cases h
      right
      exact ⟨rfl, _, _, rfl, rfl⟩
    · rw [hm] at h
      simp only [Bool.not_true, Bool.false_eq_true, if_false] at h
      cases h
      left
      exact ⟨rfl, rfl, rfl⟩

/-- **C19** The conversion emitted for a parameter is the one its type needs, for every type except an opaque name
with a bracket and an optional dictionary. Missing for the full claim: those two, see the counterexamples. -/
theorem C19_conversion_partial (E : Env) (lt : LocalTypes) (t : PyTy) (o b : RsTy) (h : intoRs E lt t = .ok (o, b))
    (hn : ∀ n, t = .other n → '[' ∉ n) (ho : ∀ k v, t ≠ .optional (.dict k v)) :
    preprocess E lt t = .ok (conversionFor b) := by
  cases t
  case other n =>
    have hb : Str.beforeChar '[' n = n := Str.beforeChar_of_not_mem (hn n rfl)
    rw [intoRs] at h
    unfold preprocess
    have hc := mapType_check h
    rw [hb] at hc
    rcases mapType_ok h with ⟨h1, h⟩ | ⟨h1, rel, h2, _, h⟩ | ⟨h1, h2, h⟩ <;> cases h
    · simp [h1, conversionFor]
    · rw [hb] at h2; simp [h1, h2, hc h1, conversionFor, Res.ok_bind, Res.pure_eq]
    · rw [hb] at h2; simp [h1, h2, hc h1, conversionFor, Res.ok_bind, Res.pure_eq]
  case optional t =>
    rw [intoRs] at h
    obtain ⟨p, hp, h⟩ := Res.bind_ok h
    cases h
    cases t
    case dict k v => exact absurd rfl (ho k v)
    all_goals rfl
  case dict k v =>
    simp only [preprocess]
    rcases dictNeedsConversion_agrees h with ⟨h1, -, rfl⟩ | ⟨h1, k', v', -, rfl⟩
    · rw [h1]; rfl
    · rw [h1]; rfl
  case tuple ts =>
    unfold preprocess
    rcases tuple_cases ts with hs | ⟨t, rfl⟩ | ⟨h2, he⟩
    · rw [intoRs_tuple_short E lt hs] at h; cases h; simp [hs, conversionFor]
    · rw [intoRs_tuple_ellipsis, intoRs] at h
      obtain ⟨p, hp, h⟩ := Res.bind_ok h
      cases h
      simp [conversionFor]
    · rw [intoRs_tuple E lt h2 he] at h
      obtain ⟨rs, hrs, h⟩ := Res.bind_ok h
      cases h
      have : ¬ ts.length < 2 := by omega
      simp [this, conversionFor]
  case frozenSet t =>
    rw [intoRs] at h
    split at h
    · obtain ⟨p, hp, h⟩ := Res.bind_ok h; cases h; rfl
    · cases h; rfl
  case set t =>
    rw [intoRs] at h
    split at h
    · obtain ⟨p, hp, h⟩ := Res.bind_ok h; cases h; rfl
    · cases h; rfl
  case list t =>
    rw [intoRs] at h
    obtain ⟨p, hp, h⟩ := Res.bind_ok h; cases h; rfl
  all_goals (rw [intoRs] at h; cases h; simp [preprocess, conversionFor])

example : intoRs (Env.ascii true false) [] (.dict .string .any) = .ok (.bound c!"PyDict", .implIntoPyDict) ∧
    preprocess (Env.ascii true false) [] (.dict .string .any) = .ok .intoDict := by decide

/-- The exception for optional dictionaries: the parameter type is `Option<Bound<PyDict>>`, yet a conversion is
emitted, which turns `None` into an empty dictionary. -/
theorem C19_optional_dict_counterexample :
    intoRs (Env.ascii true false) [] (.optional (.dict .string .any)) =
        .ok (.option (.bound c!"PyDict"), .option (.bound c!"PyDict")) ∧
      preprocess (Env.ascii true false) [] (.optional (.dict .string .any)) = .ok .optDict := by decide

/-- The exception for generic local classes: the parameter type is the class, but the object conversion is emitted. -/
theorem C19_generic_counterexample :
    let lt : LocalTypes := [(Path.fromPy (Env.ascii true false) c!"m.C", Path.fromRs c!"C")]
    intoRs (Env.ascii true false) lt (.other c!"m.C[int]") =
        .ok (.boundLocal (Path.fromRs c!"C"), .ref (.boundLocal (Path.fromRs c!"C"))) ∧
      preprocess (Env.ascii true false) lt (.other c!"m.C[int]") = .ok .intoAny := by decide

/-! ## C20 -/

/-- **C20** (known type) An opaque annotation `n` or `n[…]` whose name is a known type becomes a reference to that
type by its relative path (in a debug build if the name does not contain `::`). -/
theorem C20_known (E : Env) (lt : LocalTypes) (n rest : Str) (rel : Path) (hn : '[' ∉ n)
    (hcol : E.debug = true → ¬ c!"::" <:+: n) (hrest : rest = [] ∨ rest.head? = some '[') (hnum : ¬ NumpyArray E (n ++ rest))
    (hl : lt.get (Path.fromPy E n) = some rel) (hok : rel.synOk E = true) :
    intoRs E lt (.other (n ++ rest)) = .ok (.boundLocal rel, .ref (.boundLocal rel)) := by
  have hb : Str.beforeChar '[' (n ++ rest) = n := by
    rcases hrest with rfl | h
    · rw [List.append_nil]; exact Str.beforeChar_of_not_mem hn
    · cases rest with
      | nil => cases h
      | cons c r =>
        simp only [List.head?_cons, Option.some.injEq] at h
        subst h
        exact Str.beforeChar_append hn
  rw [intoRs]
  unfold mapType
  simp [isNdarray_false hnum, hb, hl, hok, noColons_check hcol, Res.ok_bind]

/-- **C20** (unknown type) An opaque annotation whose name is not known becomes an arbitrary Python object, and the
parameter is converted to one (in a debug build if the name does not contain `::`). -/
theorem C20_unknown (E : Env) (lt : LocalTypes) (n : Str) (hn : '[' ∉ n) (hcol : E.debug = true → ¬ c!"::" <:+: n) (hnum : ¬ NumpyArray E n)
    (hl : lt.get (Path.fromPy E n) = none) :
    intoRs E lt (.other n) = .ok (.bound c!"PyAny", .implIntoPy c!"PyAny") ∧
      preprocess E lt (.other n) = .ok .intoAny := by
  constructor
  · rw [intoRs]; unfold mapType; simp [isNdarray_false hnum, Str.beforeChar_of_not_mem hn, hl, anyOut, noColons_check hcol, Res.ok_bind]
  · unfold preprocess; simp [isNdarray_false hnum, hl, noColons_check hcol, Res.ok_bind, Res.pure_eq]

/-- **C20** (the exception) In a debug build an opaque annotation whose name contains `::` makes the generator panic, be it known
or not. -/
theorem C20_colons_panic (E : Env) (lt : LocalTypes) (n : Str) (hn : '[' ∉ n) (hd : E.debug = true) (hcol : c!"::" <:+: n)
    (hnum : ¬ NumpyArray E n) :
    intoRs E lt (.other n) = .error (.panic .assertion) ∧ preprocess E lt (.other n) = .error (.panic .assertion) := by
  have hc : Path.checkPy E [n] = .error (.panic .assertion) := (pathCheck_panics E [n]).mpr ⟨hd, n, by simp, hcol⟩
  constructor
  · rw [intoRs]; unfold mapType; simp [isNdarray_false hnum, Str.beforeChar_of_not_mem hn, hc, error_bind]
  · unfold preprocess; simp [isNdarray_false hnum, hc]

/-- The text `"std::vector"` is read as an opaque annotation. -/
example : fromStr (Env.ascii true false) c!"std::vector" = .ok (.other c!"std::vector") ∧ '[' ∉ c!"std::vector" ∧
    (Env.ascii true false).debug = true ∧ c!"::" <:+: c!"std::vector" ∧ ¬ NumpyArray (Env.ascii true false) c!"std::vector" :=
  ⟨by decide, by decide, rfl, ⟨c!"std", c!"vector", rfl⟩, fun h => nomatch h.1⟩

/-- Without debug assertions it becomes an arbitrary object. -/
example : intoRs (Env.ascii false false) [] (.other c!"std::vector") = .ok anyOut := by decide

/-- **C20** (numpy) With the feature `numpy`, and only then, the opaque annotation `ndarray` (qualified or not, with or without
arguments) becomes the array type of the crate `numpy`, which is passed as it is. -/
theorem C20_numpy (E : Env) (lt : LocalTypes) (n : Str) :
    (intoRs E lt (.other n) = .ok (.boundNumpy, .ref .boundNumpy) ↔ NumpyArray E n) ∧
    (NumpyArray E n → preprocess E lt (.other n) = .ok .none) := by
  refine ⟨⟨fun h => ?_, fun h => ?_⟩, fun h => ?_⟩
  · rw [intoRs] at h
    rcases mapType_ok h with ⟨h1, -⟩ | ⟨-, rel, -, -, h1⟩ | ⟨-, -, h1⟩
    · exact (isNdarray_iff E n).mp h1
    · cases h1
    · cases h1
  · rw [intoRs]; unfold mapType; rw [(isNdarray_iff E n).mpr h]; rfl
  · unfold preprocess; simp [(isNdarray_iff E n).mpr h]

/-- The condition of `C20_numpy`. -/
example : NumpyArray (Env.ascii true true) c!"numpy.NDArray[int]" ∧ ¬ NumpyArray (Env.ascii true false) c!"numpy.NDArray[int]" :=
  ⟨⟨rfl, c!"numpy.", c!"NDArray", c!"[int]", rfl, by simp [Letters], Or.inr rfl, by decide, Or.inr rfl⟩, fun h => nomatch h.1⟩

/-- A known type whose relative path is not a legal Rust path makes the generator panic. -/
theorem C20_illegal_path_panics (E : Env) (lt : LocalTypes) (n : Str) (rel : Path) (hn : '[' ∉ n)
    (hnum : ¬ NumpyArray E n) (hl : lt.get (Path.fromPy E n) = some rel) (hok : rel.synOk E = false) :
    (intoRs E lt (.other n)).Panics := by
  rw [intoRs]; unfold mapType
  rcases pathCheck_cases E [n] with hc | hc
  · exact ⟨.unwrap, by simp [isNdarray_false hnum, Str.beforeChar_of_not_mem hn, hl, hok, hc, Res.ok_bind]⟩
  · exact ⟨.assertion, by simp [isNdarray_false hnum, Str.beforeChar_of_not_mem hn, hc, error_bind]⟩

example : let E := Env.ascii true false
    let lt : LocalTypes := [(Path.fromPy E c!"m.C", Path.fromRs c!"super::C")]
    fromStr E c!"m.C" = .ok (.other c!"m.C") ∧
    intoRs E lt (.other c!"m.C") = .ok (.boundLocal (Path.fromRs c!"super::C"), .ref (.boundLocal (Path.fromRs c!"super::C"))) ∧
    intoRs E lt (.other c!"m.D") = .ok anyOut := by decide

/-! ## C21 -/

/-- **C21** A Python value of the (concrete) type is accepted when it is extracted into the emitted return type.
Missing for the full claim: annotations that are read as a narrower type than they mean (`C21_counterexamples`) and
IP addresses (`C21_ip_counterexample`). -/
theorem C21_extract_partial (E : Env) (lt : LocalTypes) (t : PyTy) (v : Val) (o b : RsTy)
    (h : intoRs E lt t = .ok (o, b)) (hv : HasTy (NumpyArray E) t v) : Extracts v o := by
  induction hv generalizing o b with
  | any v => rw [intoRs] at h; cases h; exact .any _
  | unknown v => rw [intoRs] at h; cases h; exact .any _
  | other n v hn =>
    rw [intoRs] at h
    rcases mapType_ok h with ⟨h1, h⟩ | ⟨h1, rel, h2, _, h⟩ | ⟨h1, h2, h⟩
    · exact absurd ((isNdarray_iff E _).mp h1) hn
    · cases h; exact .boundLocal _ _
    · cases h; exact .any _
  | ndarray n cs hn hc =>
    rw [intoRs] at h
    rcases mapType_ok h with ⟨h1, h⟩ | ⟨h1, rel, h2, _, h⟩ | ⟨h1, h2, h⟩
    · cases h; exact .ndarray _ hc
    · cases h; exact .boundLocal _ _
    · cases h; exact .any _
  | bool b => rw [intoRs] at h; cases h; exact .bool _
  | byteArray n => rw [intoRs] at h; cases h; exact .byteArray _
  | bytes n => rw [intoRs] at h; cases h; exact .bytes _
  | float => rw [intoRs] at h; cases h; exact .float
  | floatInt i hi => rw [intoRs] at h; cases h; exact .floatInt _ hi
  | long i hi => rw [intoRs] at h; cases h; exact .int _ hi
  | longBool b => rw [intoRs] at h; cases h; exact .intBool _
  | string => rw [intoRs] at h; cases h; exact .str
  | optNone t =>
    rw [intoRs] at h
    obtain ⟨p, hp, h⟩ := Res.bind_ok h
    cases h; exact .optNone _
  | optSome t v _ ih =>
    rw [intoRs] at h
    obtain ⟨p, hp, h⟩ := Res.bind_ok h
    cases h; exact .optSome _ _ (ih _ _ hp)
  | union ts t v _ _ _ => rw [intoRs] at h; cases h; exact .any _
  | none => rw [intoRs] at h; cases h; exact .any _
  | dict k t l hk ht ihk iht =>
    rw [intoRs] at h
    obtain ⟨p, hp, h⟩ := Res.bind_ok h
    split at h
    · obtain ⟨q, hq, h⟩ := Res.bind_ok h
      cases h
      exact .hashMap _ _ _ (fun x hx => ihk x hx _ _ hq) (fun x hx => iht x hx _ _ hp)
    · cases h; exact .dict _
  | frozenSet t l _ ih =>
    rw [intoRs] at h
    split at h
    · obtain ⟨p, hp, h⟩ := Res.bind_ok h
      cases h
      exact .hashFrozen _ _ (fun x hx => ih x hx _ _ hp)
    · cases h; exact .frozenSet _
  | set t l _ ih =>
    rw [intoRs] at h
    split at h
    · obtain ⟨p, hp, h⟩ := Res.bind_ok h
      cases h
      exact .hashSet _ _ (fun x hx => ih x hx _ _ hp)
    · cases h; exact .set _
  | list t l _ ih =>
    rw [intoRs] at h
    obtain ⟨p, hp, h⟩ := Res.bind_ok h
    cases h
    exact .vecList _ _ (fun x hx => ih x hx _ _ hp)
  | tuple ts l hlen hell _ ih =>
    rcases tuple_cases ts with hs | ⟨t, rfl⟩ | ⟨h2, he⟩
    · rw [intoRs_tuple_short E lt hs] at h; cases h; exact .pyTuple _
    · exact absurd (by simp) (hell rfl)
    · rw [intoRs_tuple E lt h2 he] at h
      obtain ⟨rs, hrs, h⟩ := Res.bind_ok h
      cases h
      have hz := traverse_zip hrs
      have hrl := Res.traverse_length hrs
      refine .tuple _ _ (by omega) ?_
      intro p hp
      obtain ⟨i, hi, rfl⟩ := List.mem_iff_getElem.mp hp
      rw [List.length_zip] at hi
      rw [List.getElem_zip]
      have h1 : (ts[i]'(by omega), rs[i]'(by omega)) ∈ ts.zip rs :=
        List.mem_iff_getElem.mpr ⟨i, by rw [List.length_zip]; omega, by rw [List.getElem_zip]⟩
      have h2 : (ts[i]'(by omega), l[i]'(by omega)) ∈ ts.zip l :=
        List.mem_iff_getElem.mpr ⟨i, by rw [List.length_zip]; omega, by rw [List.getElem_zip]⟩
      obtain ⟨b', hb'⟩ := intoRsOwned_ok (hz _ h1)
      exact ih _ h2 _ _ hb'
  | tupleOf t l _ ih =>
    rw [intoRs_tuple_ellipsis, intoRs] at h
    obtain ⟨p, hp, h⟩ := Res.bind_ok h
    cases h
    exact .vecTuple _ _ (fun x hx => ih x hx _ _ hp)
  | anyTuple l => rw [intoRs_tuple_short E lt (by simp)] at h; cases h; exact .pyTuple _
  | path => rw [intoRs] at h; cases h; exact .path
  | delta v => rw [intoRs] at h; cases h; exact .any _
  | ellipsis v => rw [intoRs] at h; cases h; exact .any _
  | inst t n cs ht hn =>
    cases t
    all_goals first
      | (simp only [instClass, Option.some.injEq] at ht; subst ht; rw [intoRs] at h; cases h; exact .inst _ _ hn)
      | (simp only [instClass] at ht; cases ht)

example : HasTy (fun _ => False) (.dict .string (.list (.optional .long)))
    (.dict [(.str true, .list [.int 7, .none])]) := by
  refine .dict _ _ _ ?_ ?_
  · intro p hp; simp only [List.mem_singleton] at hp; subst hp; exact .string
  · intro p hp
    simp only [List.mem_singleton] at hp
    subst hp
    refine .list _ _ ?_
    intro v hv
    simp only [List.mem_cons, List.not_mem_nil, or_false] at hv
    rcases hv with rfl | rfl
    · exact .optSome _ _ (.long _ (by constructor <;> decide))
    · exact .optNone _

/-- Abstract annotations are read as concrete types: values that Python accepts for the annotation are rejected. A
generator is an `Iterable[int]` and an `Iterator[int]`, the builtin `len` is a `Callable[[str], int]`, the class
`int` is a `type[int]`, and `2 ** 63` is an `int`. -/
theorem C21_counterexamples (b : Bool) :
    let E := Env.ascii b false
    (fromStr E c!"Iterable[int]" = .ok (.list .long) ∧ fromStr E c!"Iterator[int]" = .ok (.list .long) ∧
      intoRsOwned E [] (.list .long) = .ok (.vec .i64) ∧ ∀ cs, ¬ Extracts (.inst cs) (.vec .i64)) ∧
    (fromStr E c!"Callable[str, int]" = .ok (.function [.string] .long) ∧
      intoRsOwned E [] (.function [.string] .long) = .ok (.bound c!"PyFunction") ∧
      ¬ Extracts (.inst [c!"PyCFunction"]) (.bound c!"PyFunction")) ∧
    (fromStr E c!"type[int]" = .ok .long ∧ intoRsOwned E [] .long = .ok .i64 ∧
      ¬ Extracts (.inst [c!"PyType"]) .i64) ∧
    ¬ Extracts (.int 9223372036854775808) .i64 := by
  refine ⟨⟨?_, ?_, ?_, ?_⟩, ⟨?_, ?_, ?_⟩, ⟨?_, ?_, ?_⟩, ?_⟩
  · cases b <;> decide
  · cases b <;> decide
  · cases b <;> decide
  · intro cs h; cases h
  · cases b <;> decide
  · cases b <;> decide
  · intro h; cases h with | inst _ _ h => simp at h
  · cases b <;> decide
  · cases b <;> decide
  · intro h; cases h
  · intro h; cases h with | int _ h => exact absurd h.2 (by decide)

/-- IP addresses get the Rust type names `::std::net::IpV4Addr` and `::std::net::IpV6Addr`; Rust has `Ipv4Addr` and
`Ipv6Addr`. -/
theorem C21_ip_counterexample (b : Bool) :
    intoRsOwned (Env.ascii b false) [] .ipV4 = .ok (.stdNet c!"IpV4Addr") ∧
      intoRsOwned (Env.ascii b false) [] .ipV6 = .ok (.stdNet c!"IpV6Addr") ∧
      ∀ v n, ¬ Extracts v (.stdNet n) := by
  refine ⟨by cases b <;> decide, by cases b <;> decide, ?_⟩
  intro v n h; cases h

/-! ## C23 -/

/-- Types that count as hashable for the generator although their Rust type does not implement `Hash`. -/
def Spec.falseHashable : PyTy → Bool
  | .dict _ _ | .set _ | .frozenSet _ | .delta => true
  | _ => false

mutual
/-- No dictionary key and no set element is one of those. -/
def Spec.KeysFine : PyTy → Prop
  | .dict k v => Spec.falseHashable k = false ∧ Spec.KeysFine k ∧ Spec.KeysFine v
  | .set t | .frozenSet t => Spec.falseHashable t = false ∧ Spec.KeysFine t
  | .optional t | .list t => Spec.KeysFine t
  | .tuple ts => Spec.KeysFineList ts
  | _ => True
/-- The same on lists. -/
def Spec.KeysFineList : List PyTy → Prop
  | [] => True
  | t :: ts => Spec.KeysFine t ∧ Spec.KeysFineList ts
end

theorem keysFineList_iff {ts : List PyTy} : Spec.KeysFineList ts ↔ ∀ t ∈ ts, Spec.KeysFine t := by
  induction ts with
  | nil => simp [Spec.KeysFineList]
  | cons t ts ih => simp [Spec.KeysFineList, ih]

/-- A hashable type that is not one of the false ones has a Rust type that implements `Hash`. -/
theorem implHash_of_hashable {E : Env} {lt : LocalTypes} {t : PyTy} {p : RsTy × RsTy} (h : intoRs E lt t = .ok p)
    (hh : t.isHashable = true) (hf : Spec.falseHashable t = false) : ImplHash p.1 := by
  cases t <;> simp [PyTy.isHashable, Spec.falseHashable] at hh hf <;> (rw [intoRs] at h; cases h; simp [sameOut, ImplHash])

/-- **C23** Every `HashMap` key and `HashSet` element type implements `Hash`, if no dictionary key or set element of
the Python type is itself a dictionary, set, frozen set or time delta. Missing for the full claim: those, for which
it is false (`C23_exact_set`). -/
theorem C23_hashable_partial (E : Env) (lt : LocalTypes) (t : PyTy) (o b : RsTy) (h : intoRs E lt t = .ok (o, b))
    (hk : Spec.KeysFine t) : HashOk o ∧ HashOk b := by
  induction t using PyTy.ind generalizing o b with
  | step t ih =>
    have own : ∀ {s : PyTy} {p : RsTy × RsTy}, s ∈ t.kids → Spec.KeysFine s → intoRs E lt s = .ok p → HashOk p.1 :=
      fun hs hf hp => (ih _ hs _ _ hp hf).1
    cases t
    case other n =>
      rw [intoRs] at h
      rcases mapType_ok h with ⟨_, h⟩ | ⟨_, rel, _, _, h⟩ | ⟨_, _, h⟩ <;> cases h <;> simp [HashOk]
    case optional t =>
      rw [intoRs] at h
      obtain ⟨p, hp, h⟩ := Res.bind_ok h
      cases h
      have := own (by simp [PyTy.kids]) (by simpa [Spec.KeysFine] using hk) hp
      exact ⟨by simpa [HashOk] using this, by simpa [HashOk] using this⟩
    case list t =>
      rw [intoRs] at h
      obtain ⟨p, hp, h⟩ := Res.bind_ok h
      cases h
      have := own (by simp [PyTy.kids]) (by simpa [Spec.KeysFine] using hk) hp
      exact ⟨by simpa [HashOk] using this, by simpa [HashOk] using this⟩
    case dict k v =>
      rw [Spec.KeysFine] at hk
      rw [intoRs] at h
      obtain ⟨p, hp, h⟩ := Res.bind_ok h
      split at h
      · rename_i hc
        simp only [Bool.and_eq_true] at hc
        obtain ⟨q, hq, h⟩ := Res.bind_ok h
        cases h
        have h1 := own (by simp [PyTy.kids]) hk.2.2 hp
        have h2 := own (by simp [PyTy.kids]) hk.2.1 hq
        have h3 := implHash_of_hashable hq hc.1 hk.1
        exact ⟨by simp [HashOk, h1, h2, h3], by simp [HashOk, h1, h2, h3]⟩
      · cases h; simp [HashOk]
    case frozenSet t =>
      rw [Spec.KeysFine] at hk
      rw [intoRs] at h
      split at h
      · rename_i hc
        obtain ⟨p, hp, h⟩ := Res.bind_ok h
        cases h
        have h1 := own (by simp [PyTy.kids]) hk.2 hp
        have h3 := implHash_of_hashable hp hc hk.1
        exact ⟨by simp [HashOk, h1, h3], by simp [HashOk, h1, h3]⟩
      · cases h; simp [HashOk]
    case set t =>
      rw [Spec.KeysFine] at hk
      rw [intoRs] at h
      split at h
      · rename_i hc
        obtain ⟨p, hp, h⟩ := Res.bind_ok h
        cases h
        have h1 := own (by simp [PyTy.kids]) hk.2 hp
        have h3 := implHash_of_hashable hp hc hk.1
        exact ⟨by simp [HashOk, h1, h3], by simp [HashOk, h1, h3]⟩
      · cases h; simp [HashOk]
    case tuple ts =>
      rw [Spec.KeysFine, keysFineList_iff] at hk
      rcases tuple_cases ts with hs | ⟨t, rfl⟩ | ⟨h2, he⟩
      · rw [intoRs_tuple_short E lt hs] at h; cases h; simp [HashOk]
      · rw [intoRs_tuple_ellipsis, intoRs] at h
        obtain ⟨p, hp, h⟩ := Res.bind_ok h
        cases h
        have := own (by simp [PyTy.kids]) (hk t (by simp)) hp
        exact ⟨by simpa [HashOk] using this, by simpa [HashOk] using this⟩
      · rw [intoRs_tuple E lt h2 he] at h
        obtain ⟨rs, hrs, h⟩ := Res.bind_ok h
        cases h
        have : HashOkList rs := by
          rw [hashOkList_iff]
          intro r hr
          obtain ⟨s, hs, hsr⟩ := traverse_mem hrs hr
          obtain ⟨b, hb⟩ := intoRsOwned_ok hsr
          exact own (p := (r, b)) (by simpa [PyTy.kids] using hs) (hk s hs) hb
        exact ⟨by simpa [HashOk] using this, by simpa [HashOk] using this⟩
    all_goals (rw [intoRs] at h; cases h; simp [HashOk])

example : Spec.KeysFine (.dict .string (.set (.optional .long))) ∧
    intoRsOwned (Env.ascii true false) [] (.dict .string (.set .long)) = .ok (.hashMap .string (.hashSet .i64)) := by
  refine ⟨by simp [Spec.KeysFine, Spec.falseHashable], by decide⟩

/-- **C23** (the condition is exact for sets) A set of false-hashable elements never yields a type that compiles. -/
theorem C23_exact_set (E : Env) (lt : LocalTypes) (t : PyTy) (o b : RsTy) (h : intoRs E lt (.set t) = .ok (o, b))
    (hf : Spec.falseHashable t = true) : ¬ HashOk o := by
  have hh : t.isHashable = true := by cases t <;> simp [Spec.falseHashable] at hf <;> rfl
  rw [intoRs, if_pos hh] at h
  obtain ⟨p, hp, h⟩ := Res.bind_ok h
  cases h
  rw [HashOk]
  rintro ⟨h1, -⟩
  cases t <;> simp [Spec.falseHashable] at hf
  case dict k v =>
    rcases dictNeedsConversion_agrees (o := p.1) (b := p.2) hp with ⟨-, h, -⟩ | ⟨-, k', v', h, -⟩ <;>
      (rw [h] at h1; simp [ImplHash] at h1)
  case set u =>
    rw [intoRs] at hp
    split at hp
    · obtain ⟨q, hq, hp⟩ := Res.bind_ok hp; cases hp; simp [ImplHash] at h1
    · cases hp; simp [boundOut, ImplHash] at h1
  case frozenSet u =>
    rw [intoRs] at hp
    split at hp
    · obtain ⟨q, hq, hp⟩ := Res.bind_ok hp; cases hp; simp [ImplHash] at h1
    · cases hp; simp [boundOut, ImplHash] at h1
  case delta =>
    rw [intoRs] at hp; cases hp; simp [anyOut, ImplHash] at h1

/-- `set[frozenset[int]]` and `dict[frozenset[str], int]`, as Python prints them. -/
theorem C23_counterexample (b : Bool) :
    let E := Env.ascii b false
    fromStr E c!"set[frozenset[int]]" = .ok (.set (.frozenSet .long)) ∧
      intoRsOwned E [] (.set (.frozenSet .long)) = .ok (.hashSet (.hashSet .i64)) ∧
      ¬ HashOk (.hashSet (.hashSet .i64)) ∧
      fromStr E c!"dict[frozenset[str], int]" = .ok (.dict (.frozenSet .string) .long) ∧
      intoRsOwned E [] (.dict (.frozenSet .string) .long) = .ok (.hashMap (.hashSet .string) .i64) ∧
      ¬ HashOk (.hashMap (.hashSet .string) .i64) := by
  refine ⟨by cases b <;> decide, by cases b <;> decide, by simp [HashOk, ImplHash], by cases b <;> decide,
    by cases b <;> decide, by simp [HashOk, ImplHash]⟩

end Bindgen
