import Verif.Props.RoundTrip
/-!
# C78, C79: for which annotations arguments arrive with the annotated type, and for which all values can be passed
-/
namespace Bindgen
open Spec

mutual
/-- The annotation admits every value. `array` says which opaque names are numpy arrays. -/
def Spec.Full (array : Str → Prop) : PyTy → Prop
  | .any | .unknown | .ellipsis | .delta => True
  | .other n => ¬ array n
  | .optional t => Spec.Full array t
  | .union ts => Spec.FullSome array ts
  | _ => False
/-- One of the annotations admits every value. -/
def Spec.FullSome (array : Str → Prop) : List PyTy → Prop
  | [] => False
  | t :: ts => Spec.Full array t ∨ Spec.FullSome array ts
end

mutual
/-- The annotations for which every argument arrives with the annotated type. `any v`: the Rust type of `v` has an arbitrary object in it
(such values make a dictionary a Python object). -/
def Spec.Arrives (array : Str → Prop) (any : PyTy → Prop) : PyTy → Prop
  | .any | .unknown | .ellipsis | .delta | .other _ | .bool | .long | .string | .float => True
  | .slice | .complex | .date | .dateTime | .time | .tzInfo | .capsule | .cFunction | .code | .frame | .function _ _ | .module
  | .super | .traceback | .type => True
  | .union ts => Spec.FullSome array ts
  | .optional t | .list t => Spec.Arrives array any t
  | .set t => scalar t = true ∨ Spec.Full array t
  | .frozenSet t => Spec.Full array t
  | .dict k v => (scalar k = true ∧ ¬ any v ∧ Spec.Arrives array any v) ∨ (Spec.Full array k ∧ Spec.Full array v)
  | .tuple ts => ts = [.unknown] ∨ (2 ≤ ts.length ∧ (ts.length = 2 → .ellipsis ∉ ts) ∧ Spec.ArrivesAll array any ts)
  | .bytes | .byteArray | .path | .none | .ipV4 | .ipV6 => False
/-- The same on lists. -/
def Spec.ArrivesAll (array : Str → Prop) (any : PyTy → Prop) : List PyTy → Prop
  | [] => True
  | t :: ts => Spec.Arrives array any t ∧ Spec.ArrivesAll array any ts
end

mutual
/-- The Rust type can be compiled: no IP addresses (C71), and keys that can be hashed (C23). -/
def Spec.Compilable : RsTy → Prop
  | .stdNet _ => False
  | .option t | .vec t => Spec.Compilable t
  | .hashSet t => ImplHash t ∧ Spec.Compilable t
  | .hashMap k v => ImplHash k ∧ Spec.Compilable k ∧ Spec.Compilable v
  | .tuple ts => Spec.CompilableAll ts
  | _ => True
/-- The same on lists. -/
def Spec.CompilableAll : List RsTy → Prop
  | [] => True
  | t :: ts => Spec.Compilable t ∧ Spec.CompilableAll ts
end

theorem compilableAll_iff {ts : List RsTy} : CompilableAll ts ↔ ∀ t ∈ ts, Compilable t := by
  induction ts with
  | nil => simp [CompilableAll]
  | cons t ts ih => simp [CompilableAll, ih]

theorem arrivesAll_iff {A : Str → Prop} {B : PyTy → Prop} {ts : List PyTy} : ArrivesAll A B ts ↔ ∀ t ∈ ts, Arrives A B t := by
  induction ts with
  | nil => simp [ArrivesAll]
  | cons t ts ih => simp [ArrivesAll, ih]

theorem fullSome_iff {A : Str → Prop} {ts : List PyTy} : FullSome A ts ↔ ∃ t ∈ ts, Full A t := by
  induction ts with
  | nil => simp [FullSome]
  | cons t ts ih => simp [FullSome, ih]

/-- A full annotation admits every value. -/
theorem full_hasTy {A : Str → Prop} {t : PyTy} (h : Full A t) (v : Val) : HasTy A t v := by
  induction t using PyTy.ind with
  | step t ih =>
    cases t <;> simp only [Full] at h
    case any => exact .any _
    case other => exact .other _ _ h
    case unknown => exact .unknown _
    case delta => exact .delta _
    case ellipsis => exact .ellipsis _
    case optional t => exact .optSome _ _ (ih t (by simp [PyTy.kids]) h)
    case union ts =>
      obtain ⟨t, hm, ht⟩ := fullSome_iff.mp h
      exact .union _ _ _ hm (ih t (by simpa [PyTy.kids] using hm) ht)

/-- Only full annotations admit an object of no known class. -/
theorem full_of_bare {A : Str → Prop} {t : PyTy} (h : HasTy A t (.inst [])) : Full A t := by
  induction t using PyTy.ind with
  | step t ih =>
    cases h
    case any => simp [Full]
    case unknown => simp [Full]
    case other n hn => exact hn
    case ndarray n hn hc => cases hc
    case optSome t hv => exact ih t (by simp [PyTy.kids]) hv
    case union ts t hm hv => exact fullSome_iff.mpr ⟨t, hm, ih t (by simpa [PyTy.kids] using hm) hv⟩
    case delta => simp [Full]
    case ellipsis => simp [Full]
    case inst n hn hc => cases hc

/-- Parameters and parts of parameters pass the same values. -/
theorem passed_same {E : Env} {lt : LocalTypes} {t : PyTy} {o b : RsTy} (h : intoRs E lt t = .ok (o, b)) (v : Val) : Passed o v ↔ Passed b v := by
  have ref : ∀ {r v}, Passed r v ↔ Passed (.ref r) v := fun {r v} => ⟨.ref _ _, fun h => by cases h; assumption⟩
  have any : Passed (.bound c!"PyAny") v ↔ Passed (.implIntoPy c!"PyAny") v := ⟨fun _ => .intoAny _, fun _ => .any _⟩
  have seq : ∀ {r}, Passed (.vec r) v ↔ Passed (.slice r) v := fun {r} =>
    ⟨fun h => by cases h; exact .slice _ _ ‹_›, fun h => by cases h; exact .vec _ _ ‹_›⟩
  by_cases hi : ∃ n, instClass t = some n
  · obtain ⟨n, hn⟩ := hi
    rw [instClass_intoRs hn] at h
    cases h
    exact ref
  cases t
  case any => rw [intoRs] at h; cases h; exact any
  case unknown => rw [intoRs] at h; cases h; exact any
  case union => rw [intoRs] at h; cases h; exact any
  case none => rw [intoRs] at h; cases h; exact any
  case delta => rw [intoRs] at h; cases h; exact any
  case ellipsis => rw [intoRs] at h; cases h; exact any
  case other n =>
    rw [intoRs] at h
    rcases mapType_ok h with ⟨h1, h⟩ | ⟨h1, rel, h2, _, h⟩ | ⟨h1, h2, h⟩
    · cases h; exact ref
    · cases h; exact ref
    · cases h; exact any
  case bool => rw [intoRs] at h; cases h; exact Iff.rfl
  case long => rw [intoRs] at h; cases h; exact Iff.rfl
  case float => rw [intoRs] at h; cases h; exact Iff.rfl
  case ipV4 => rw [intoRs] at h; cases h; exact Iff.rfl
  case ipV6 => rw [intoRs] at h; cases h; exact Iff.rfl
  case string => rw [intoRs] at h; cases h; exact ⟨fun h => by cases h; exact .strRef, fun h => by cases h; exact .string⟩
  case bytes => rw [intoRs] at h; cases h; exact seq
  case byteArray => rw [intoRs] at h; cases h; exact seq
  case path =>
    rw [intoRs] at h; cases h
    exact ⟨fun h => by cases h; exact .ref _ _ .path, fun h => by cases h with | ref _ _ h => cases h; exact .pathBuf⟩
  case optional t =>
    rw [intoRs] at h
    obtain ⟨p, hp, h⟩ := Res.bind_ok h
    cases h; exact Iff.rfl
  case list t =>
    rw [intoRs] at h
    obtain ⟨p, hp, h⟩ := Res.bind_ok h
    cases h; exact seq
  case dict k u =>
    rw [intoRs] at h
    obtain ⟨p, hp, h⟩ := Res.bind_ok h
    split at h
    · obtain ⟨q, hq, h⟩ := Res.bind_ok h
      cases h; exact ref
    · cases h
      refine ⟨fun h => ?_, fun h => by cases h; exact .dict _⟩
      cases h with
      | dict => exact .intoDict _
      | inst cs n hm hn => exact absurd (by simp) hn
  case set t =>
    rw [intoRs] at h
    split at h
    · obtain ⟨p, hp, h⟩ := Res.bind_ok h
      cases h; exact ref
    · cases h; exact ref
  case frozenSet t =>
    rw [intoRs] at h
    split at h
    · obtain ⟨p, hp, h⟩ := Res.bind_ok h
      cases h; exact ref
    · cases h; exact ref
  case tuple ts =>
    rcases tuple_cases ts with hl | ⟨t, rfl⟩ | ⟨h2, he⟩
    · rw [intoRs_tuple_short E lt hl] at h
      cases h
      refine ⟨fun h => ?_, fun h => by cases h; exact .pyTuple _⟩
      cases h with
      | pyTuple => exact .intoTuple _
      | inst cs n hm hn => exact absurd (by simp) hn
    · rw [intoRs_tuple_ellipsis, intoRs] at h
      obtain ⟨p, hp, h⟩ := Res.bind_ok h
      cases h; exact seq
    · rw [intoRs_tuple E lt h2 he] at h
      obtain ⟨rs, hrs, h⟩ := Res.bind_ok h
      cases h; exact Iff.rfl
  all_goals exact absurd ⟨_, rfl⟩ hi

theorem inst_ordinary {t : PyTy} {n : Str} (hn : instClass t = some n) : n ∉ [c!"PyDict", c!"PySet", c!"PyFrozenSet", c!"PyTuple"] := by
  cases t <;> simp only [instClass, Option.some.injEq, reduceCtorEq] at hn <;> (subst hn; decide)

/-- There is something to pass, unless there are IP addresses. -/
theorem passed_some {E : Env} {lt : LocalTypes} {t : PyTy} {o b : RsTy} (h : intoRs E lt t = .ok (o, b)) (hs : Compilable o) : ∃ v, Passed o v := by
  induction t using PyTy.ind generalizing o b with
  | step t ih =>
  by_cases hi : ∃ n, instClass t = some n
  · obtain ⟨n, hn⟩ := hi
    rw [instClass_intoRs hn] at h
    cases h
    exact ⟨.inst [n], .inst _ _ (by simp) (inst_ordinary hn)⟩
  cases t
  case any => rw [intoRs] at h; cases h; exact ⟨.none, .any _⟩
  case unknown => rw [intoRs] at h; cases h; exact ⟨.none, .any _⟩
  case union => rw [intoRs] at h; cases h; exact ⟨.none, .any _⟩
  case none => rw [intoRs] at h; cases h; exact ⟨.none, .any _⟩
  case delta => rw [intoRs] at h; cases h; exact ⟨.none, .any _⟩
  case ellipsis => rw [intoRs] at h; cases h; exact ⟨.none, .any _⟩
  case other n =>
    rw [intoRs] at h
    rcases mapType_ok h with ⟨h1, h⟩ | ⟨h1, rel, h2, _, h⟩ | ⟨h1, h2, h⟩
    · cases h; exact ⟨.inst [c!"PyArray"], .ndarray _ (by simp)⟩
    · cases h; exact ⟨.none, .boundLocal _ _⟩
    · cases h; exact ⟨.none, .any _⟩
  case bool => rw [intoRs] at h; cases h; exact ⟨_, .bool true⟩
  case long => rw [intoRs] at h; cases h; exact ⟨_, .i64 0 (by simp [FitsI64])⟩
  case float => rw [intoRs] at h; cases h; exact ⟨_, .f64⟩
  case string => rw [intoRs] at h; cases h; exact ⟨_, .string⟩
  case path => rw [intoRs] at h; cases h; exact ⟨_, .pathBuf⟩
  case ipV4 => rw [intoRs] at h; cases h; exact hs.elim
  case ipV6 => rw [intoRs] at h; cases h; exact hs.elim
  case bytes => rw [intoRs] at h; cases h; exact ⟨.list [], .vec _ _ (by simp)⟩
  case byteArray => rw [intoRs] at h; cases h; exact ⟨.list [], .vec _ _ (by simp)⟩
  case optional t =>
    rw [intoRs] at h
    obtain ⟨p, hp, h⟩ := Res.bind_ok h
    cases h; exact ⟨_, .optNone _⟩
  case list t =>
    rw [intoRs] at h
    obtain ⟨p, hp, h⟩ := Res.bind_ok h
    cases h; exact ⟨.list [], .vec _ _ (by simp)⟩
  case dict k u =>
    rw [intoRs] at h
    obtain ⟨p, hp, h⟩ := Res.bind_ok h
    split at h
    · obtain ⟨q, hq, h⟩ := Res.bind_ok h
      cases h; exact ⟨.dict [], .hashMap _ _ _ (by simp) (by simp)⟩
    · cases h; exact ⟨_, .dict []⟩
  case set t =>
    rw [intoRs] at h
    split at h
    · obtain ⟨p, hp, h⟩ := Res.bind_ok h
      cases h; exact ⟨.set [], .hashSet _ _ (by simp)⟩
    · cases h; exact ⟨_, .set []⟩
  case frozenSet t =>
    rw [intoRs] at h
    split at h
    · obtain ⟨p, hp, h⟩ := Res.bind_ok h
      cases h; exact ⟨.set [], .hashSet _ _ (by simp)⟩
    · cases h; exact ⟨_, .frozenSet []⟩
  case tuple ts =>
    rcases tuple_cases ts with hl | ⟨t, rfl⟩ | ⟨h2, he⟩
    · rw [intoRs_tuple_short E lt hl] at h
      cases h; exact ⟨_, .pyTuple []⟩
    · rw [intoRs_tuple_ellipsis, intoRs] at h
      obtain ⟨p, hp, h⟩ := Res.bind_ok h
      cases h; exact ⟨.list [], .vec _ _ (by simp)⟩
    · rw [intoRs_tuple E lt h2 he] at h
      obtain ⟨rs, hrs, h⟩ := Res.bind_ok h
      cases h
      have hs := compilableAll_iff.mp hs
      obtain ⟨m, hm, hP⟩ := choose_equal (l := rs) (P := fun r v => Passed r v) fun r hr => by
        obtain ⟨s, hm, hsr⟩ := traverse_mem hrs hr
        obtain ⟨b, hb⟩ := intoRsOwned_ok hsr
        exact ih s (by simpa [PyTy.kids] using hm) hb (hs r hr)
      exact ⟨.tuple m, .tuple _ _ hm.symm hP⟩
  all_goals exact absurd ⟨_, rfl⟩ hi

/-- The keys that can be hashed are scalars and paths. -/
theorem key_cases {E : Env} {lt : LocalTypes} {k : PyTy} {q : RsTy × RsTy} (hq : intoRs E lt k = .ok q) (hh : k.isHashable = true)
    (hi : ImplHash q.1) (he : Compilable q.1) : scalar k = true ∨ k = .path := by
  rw [isHashable_eq, Bool.or_eq_true] at hh
  rcases hh with hh | hh
  · cases k <;> simp only [plainKey, Bool.false_eq_true] at hh <;> simp [scalar]
    all_goals (rw [intoRs] at hq; cases hq; exact he)
  · exact absurd hi (false_hash hq hh)

theorem scalar_not_full {A : Str → Prop} {k : PyTy} (h : scalar k = true ∨ k = .path) : ¬ Full A k := by
  rcases h with h | rfl
  · cases k <;> simp [scalar] at h <;> simp [Full]
  · simp [Full]

/-- Both directions, on the types of parts; what does not have the type can be chosen different from `None`. -/
theorem arrives_both (E : Env) (lt : LocalTypes) (t : PyTy) (o b : RsTy) (h : intoRs E lt t = .ok (o, b)) (hs : Compilable o) :
    (Arrives (NumpyArray E) (AnyInside E lt) t → ∀ v, Passed o v → HasTy (NumpyArray E) t v) ∧
    (¬ Arrives (NumpyArray E) (AnyInside E lt) t → ∃ v, v ≠ .none ∧ Passed o v ∧ ¬ HasTy (NumpyArray E) t v) := by
  induction t using PyTy.ind generalizing o b with
  | step t ih =>
  have bare : ∀ {t}, ¬ Full (NumpyArray E) t → ¬ HasTy (NumpyArray E) t (.inst []) := fun hn hc => hn (full_of_bare hc)
  by_cases hi : ∃ n, instClass t = some n
  · obtain ⟨n, hn⟩ := hi
    have hn' := inst_ordinary hn
    have ha : Arrives (NumpyArray E) (AnyInside E lt) t := by
      cases t <;> simp only [instClass, reduceCtorEq] at hn <;> simp [Arrives]
    rw [instClass_intoRs hn] at h
    cases h
    refine ⟨fun _ v hv => ?_, fun hx => absurd ha hx⟩
    cases hv with
    | inst cs n hm _ => exact .inst _ _ _ hn hm
    | any => cases t <;> simp [instClass] at hn
    | dict => simp at hn'
    | set => simp at hn'
    | frozenSet => simp at hn'
    | pyTuple => simp at hn'
  cases t
  case any => exact ⟨fun _ v _ => .any _, fun hx => absurd trivial hx⟩
  case unknown => exact ⟨fun _ v _ => .unknown _, fun hx => absurd trivial hx⟩
  case delta => exact ⟨fun _ v _ => .delta _, fun hx => absurd trivial hx⟩
  case ellipsis => exact ⟨fun _ v _ => .ellipsis _, fun hx => absurd trivial hx⟩
  case other n =>
    refine ⟨fun _ v hv => ?_, fun hx => absurd trivial hx⟩
    exact C78_arguments_partial E lt _ o b h trivial v (Or.inl hv)
  case bool => exact ⟨fun _ v hv => C78_arguments_partial E lt _ o b h trivial v (Or.inl hv), fun hx => absurd trivial hx⟩
  case long => exact ⟨fun _ v hv => C78_arguments_partial E lt _ o b h trivial v (Or.inl hv), fun hx => absurd trivial hx⟩
  case float => exact ⟨fun _ v hv => C78_arguments_partial E lt _ o b h trivial v (Or.inl hv), fun hx => absurd trivial hx⟩
  case string => exact ⟨fun _ v hv => C78_arguments_partial E lt _ o b h trivial v (Or.inl hv), fun hx => absurd trivial hx⟩
  case union ts =>
    rw [intoRs] at h
    cases h
    exact ⟨fun ha v _ => full_hasTy (t := .union ts) ha v, fun hx => ⟨.inst [], by simp, .any _, bare (t := .union ts) hx⟩⟩
  case none =>
    rw [intoRs] at h
    cases h
    exact ⟨fun ha => ha.elim, fun _ => ⟨.inst [], by simp, .any _, fun hc => by
      cases hc
      rename_i hn
      cases hn⟩⟩
  case ipV4 => rw [intoRs] at h; cases h; exact hs.elim
  case ipV6 => rw [intoRs] at h; cases h; exact hs.elim
  case bytes =>
    rw [intoRs] at h; cases h
    exact ⟨fun ha => ha.elim, fun _ => ⟨.list [], by simp, .vec _ _ (by simp), fun hc => by cases hc⟩⟩
  case byteArray =>
    rw [intoRs] at h; cases h
    exact ⟨fun ha => ha.elim, fun _ => ⟨.list [], by simp, .vec _ _ (by simp), fun hc => by cases hc⟩⟩
  case path =>
    rw [intoRs] at h; cases h
    exact ⟨fun ha => ha.elim, fun _ => ⟨.str true, by simp, .pathBuf, fun hc => by cases hc⟩⟩
  case optional t =>
    rw [intoRs] at h
    obtain ⟨p, hp, h⟩ := Res.bind_ok h
    cases h
    obtain ⟨g1, g2⟩ := ih t (by simp [PyTy.kids]) _ _ hp hs
    refine ⟨fun ha v hv => ?_, fun hx => ?_⟩
    · cases hv with
      | optNone => exact .optNone _
      | optSome _ _ hv => exact .optSome _ _ (g1 ha _ hv)
    · obtain ⟨v, n1, n2, n3⟩ := g2 hx
      refine ⟨v, n1, .optSome _ _ n2, fun hc => ?_⟩
      cases hc with
      | optNone => exact n1 rfl
      | optSome _ _ hc => exact n3 hc
      | inst _ _ _ hn => cases hn
  case list t =>
    rw [intoRs] at h
    obtain ⟨p, hp, h⟩ := Res.bind_ok h
    cases h
    obtain ⟨g1, g2⟩ := ih t (by simp [PyTy.kids]) _ _ hp hs
    refine ⟨fun ha v hv => ?_, fun hx => ?_⟩
    · cases hv with | vec _ l hl => exact .list _ _ fun x hx => g1 ha _ (hl x hx)
    · obtain ⟨v, n1, n2, n3⟩ := g2 hx
      refine ⟨.list [v], by simp, .vec _ _ (by simpa using n2), fun hc => ?_⟩
      cases hc with | list _ _ hc => exact n3 (hc v (by simp))
  case set t =>
    rw [intoRs] at h
    split at h
    · rename_i hh
      obtain ⟨p, hp, h⟩ := Res.bind_ok h
      cases h
      obtain ⟨s1, s2⟩ := hs
      have hk := key_cases hp hh s1 s2
      refine ⟨fun ha v hv => ?_, fun hx => ?_⟩
      · rcases ha with ha | ha
        · cases hv with | hashSet _ l hl => exact .set _ _ fun x hx => scalar_arrives ha hp (hl x hx)
        · exact absurd ha (scalar_not_full hk)
      · rcases hk with hk | rfl
        · exact absurd (Or.inl hk) hx
        · rw [intoRs] at hp
          cases hp
          refine ⟨.set [.str true], by simp, .hashSet _ _ (by simpa using .pathBuf), fun hc => ?_⟩
          cases hc with | set _ _ hc => have := hc (.str true) (by simp); cases this
    · rename_i hh
      cases h
      refine ⟨fun ha v hv => ?_, fun hx => ?_⟩
      · rcases ha with ha | ha
        · exact absurd (scalar_hashable ha) hh
        · cases hv with
          | set l => exact .set _ _ fun x _ => full_hasTy ha x
          | inst cs n hm hn => exact absurd (by simp) hn
      · refine ⟨.set [.inst []], by simp, .set _, fun hc => ?_⟩
        cases hc with | set _ _ hc => exact hx (Or.inr (full_of_bare (hc _ (by simp))))
  case frozenSet t =>
    rw [intoRs] at h
    split at h
    · rename_i hh
      obtain ⟨p, hp, h⟩ := Res.bind_ok h
      cases h
      obtain ⟨s1, s2⟩ := hs
      have hk := key_cases hp hh s1 s2
      exact ⟨fun ha => absurd ha (scalar_not_full hk), fun _ => ⟨.set [], by simp, .hashSet _ _ (by simp), fun hc => by cases hc⟩⟩
    · cases h
      refine ⟨fun ha v hv => ?_, fun hx => ?_⟩
      · cases hv with
        | frozenSet l => exact .frozenSet _ _ fun x _ => full_hasTy ha x
        | inst cs n hm hn => exact absurd (by simp) hn
      · refine ⟨.frozenSet [.inst []], by simp, .frozenSet _, fun hc => ?_⟩
        cases hc with | frozenSet _ _ hc => exact hx (full_of_bare (hc _ (by simp)))
  case dict k u =>
    rw [intoRs] at h
    obtain ⟨p, hp, h⟩ := Res.bind_ok h
    split at h
    · rename_i hc
      simp only [Bool.and_eq_true, Bool.not_eq_true'] at hc
      obtain ⟨q, hq, h⟩ := Res.bind_ok h
      cases h
      obtain ⟨s1, s2, s3⟩ := hs
      have hk := key_cases hq hc.1 s1 s2
      have hna : ¬ AnyInside E lt u := by
        rintro ⟨o, b, h1, h2⟩
        rw [hp] at h1
        cases h1
        rw [hc.2] at h2
        cases h2
      obtain ⟨g1, g2⟩ := ih u (by simp [PyTy.kids]) _ _ hp s3
      refine ⟨fun ha v hv => ?_, fun hx => ?_⟩
      · rcases ha with ⟨a1, -, a3⟩ | ⟨a1, -⟩
        · cases hv with
          | hashMap _ _ l h1 h2 => exact .dict _ _ _ (fun x hx => scalar_arrives a1 hq (h1 x hx)) (fun x hx => g1 a3 _ (h2 x hx))
        · exact absurd a1 (scalar_not_full hk)
      · rcases hk with hk | rfl
        · obtain ⟨w, n1, n2, n3⟩ := g2 fun ha => hx (Or.inl ⟨hk, hna, ha⟩)
          obtain ⟨x, hx'⟩ := passed_some hq s2
          refine ⟨.dict [(x, w)], by simp, .hashMap _ _ _ (by simpa using hx') (by simpa using n2), fun hc => ?_⟩
          cases hc with | dict _ _ _ _ hc => exact n3 (hc (x, w) (by simp))
        · rw [intoRs] at hq
          cases hq
          obtain ⟨w, hw⟩ := passed_some hp s3
          refine ⟨.dict [(.str true, w)], by simp, .hashMap _ _ _ (by simpa using .pathBuf) (by simpa using hw), fun hc => ?_⟩
          cases hc with | dict _ _ _ hc _ => have := hc (.str true, w) (by simp); cases this
    · rename_i hc
      cases h
      refine ⟨fun ha v hv => ?_, fun hx => ?_⟩
      · rcases ha with ⟨a1, a2, -⟩ | ⟨a1, a2⟩
        · refine absurd ?_ hc
          rw [scalar_hashable a1]
          cases hm : p.1.mentionsPyAny with
          | false => rfl
          | true => exact absurd ⟨_, _, hp, hm⟩ a2
        · cases hv with
          | dict l => exact .dict _ _ _ (fun x _ => full_hasTy a1 _) (fun x _ => full_hasTy a2 _)
          | inst cs n hm hn => exact absurd (by simp) hn
      · refine ⟨.dict [(.inst [], .inst [])], by simp, .dict _, fun hc => ?_⟩
        cases hc with
        | dict _ _ _ h1 h2 => exact hx (Or.inr ⟨full_of_bare (h1 (.inst [], .inst []) (by simp)), full_of_bare (h2 (.inst [], .inst []) (by simp))⟩)
  case tuple ts =>
    rcases tuple_cases ts with hl | ⟨t, rfl⟩ | ⟨h2, he⟩
    · rw [intoRs_tuple_short E lt hl] at h
      cases h
      refine ⟨fun ha v hv => ?_, fun hx => ?_⟩
      · rcases ha with rfl | ⟨h2, -⟩
        · cases hv with
          | pyTuple l => exact .anyTuple _
          | inst cs n hm hn => exact absurd (by simp) hn
        · omega
      · refine ⟨.tuple [.none, .none], by simp, .pyTuple _, fun hc => ?_⟩
        cases hc with
        | tuple _ _ hlen => simp at hlen; omega
        | tupleOf => simp at hl
        | anyTuple => exact hx (Or.inl rfl)
    · rw [intoRs_tuple_ellipsis, intoRs] at h
      obtain ⟨p, hp, h⟩ := Res.bind_ok h
      cases h
      refine ⟨fun ha => ?_, fun _ => ⟨.list [], by simp, .vec _ _ (by simp), fun hc => by cases hc⟩⟩
      rcases ha with ha | ⟨-, ha, -⟩
      · simp at ha
      · exact absurd (by simp) (ha rfl)
    · rw [intoRs_tuple E lt h2 he] at h
      obtain ⟨rs, hrs, h⟩ := Res.bind_ok h
      cases h
      have hs := compilableAll_iff.mp hs
      have hrl := Res.traverse_length hrs
      have part : ∀ {i : Nat} {t : PyTy} {r : RsTy}, ts[i]? = some t → rs[i]? = some r → ∃ b, intoRs E lt t = .ok (r, b) ∧ Compilable r := by
        intro i t r h1 h2
        obtain ⟨b, hb⟩ := intoRsOwned_ok (traverse_zip hrs (t, r) (List.mem_of_getElem? (List.getElem?_zip_eq_some.mpr ⟨h1, h2⟩)))
        exact ⟨b, hb, hs r (List.mem_of_getElem? h2)⟩
      refine ⟨fun ha v hv => ?_, fun hx => ?_⟩
      · rcases ha with rfl | ⟨-, hell, ha⟩
        · simp at h2
        · rw [arrivesAll_iff] at ha
          have hv : Passed (.tuple rs) v := hv
          cases hv with
          | tuple _ l hlen hall =>
            refine .tuple _ _ (by omega) hell fun x hx => ?_
            obtain ⟨i, hi⟩ := List.mem_iff_getElem?.mp hx
            rw [List.getElem?_zip_eq_some] at hi
            have hlt : i < rs.length := by have := (List.getElem?_eq_some_iff.mp hi.1).1; omega
            have hr : rs[i]? = some rs[i] := List.getElem?_eq_getElem hlt
            obtain ⟨b, hb, he⟩ := part hi.1 hr
            have hm : x.1 ∈ ts := List.mem_of_getElem? hi.1
            exact (ih _ (by simpa [PyTy.kids] using hm) _ _ hb he).1 (ha _ hm) _
              (hall (rs[i], x.2) (List.mem_of_getElem? (List.getElem?_zip_eq_some.mpr ⟨hr, hi.2⟩)))
      · obtain ⟨m, hm, hP⟩ := choose_equal (l := rs) (P := fun r v => Passed r v) fun r hr => by
          obtain ⟨s, _, hsr⟩ := traverse_mem hrs hr
          obtain ⟨b, hb⟩ := intoRsOwned_ok hsr
          exact passed_some hb (hs r hr)
        by_cases hell : ts.length = 2 → .ellipsis ∉ ts
        · have : ¬ ∀ t ∈ ts, Arrives (NumpyArray E) (AnyInside E lt) t := fun ha => hx (Or.inr ⟨h2, hell, arrivesAll_iff.mpr ha⟩)
          simp only [not_forall] at this
          obtain ⟨t, ht, hbad⟩ := this
          obtain ⟨i, hi⟩ := List.mem_iff_getElem?.mp ht
          have hlt : i < rs.length := by have := (List.getElem?_eq_some_iff.mp hi).1; omega
          have hr : rs[i]? = some rs[i] := List.getElem?_eq_getElem hlt
          obtain ⟨b, hb, he⟩ := part hi hr
          obtain ⟨w, -, n2, n3⟩ := (ih t (by simpa [PyTy.kids] using ht) _ _ hb he).2 hbad
          have hwi : (m.set i w)[i]? = some w := by
            rw [List.getElem?_set_self (by omega)]
          refine ⟨.tuple (m.set i w), by simp, .tuple _ _ (by simp [hm]) fun x hx => ?_, fun hc => ?_⟩
          · obtain ⟨j, hj⟩ := List.mem_iff_getElem?.mp hx
            rw [List.getElem?_zip_eq_some] at hj
            by_cases hij : i = j
            · subst hij
              rw [hr] at hj
              rw [hwi] at hj
              obtain ⟨x1, x2⟩ := x
              obtain ⟨j1, j2⟩ := hj
              cases j1
              cases j2
              exact n2
            · rw [List.getElem?_set_ne hij] at hj
              exact hP x (List.mem_of_getElem? (List.getElem?_zip_eq_some.mpr hj))
          · cases hc with
            | tuple _ _ _ _ hc => exact n3 (hc (t, w) (List.mem_of_getElem? (List.getElem?_zip_eq_some.mpr ⟨hi, hwi⟩)))
            | tupleOf => exact he _ rfl
            | anyTuple => simp at h2
        · refine ⟨.tuple m, by simp, .tuple _ _ hm.symm hP, fun hc => ?_⟩
          cases hc with
          | tuple _ _ _ h5 => exact hell h5
          | tupleOf => exact he _ rfl
          | anyTuple => simp at h2
  all_goals exact absurd ⟨_, rfl⟩ hi

/-- **C78** (exact): for every annotation whose Rust type can be compiled, all arguments arrive with the annotated type if and only if the
annotation is one of `Arrives`. -/
theorem C78_exact (E : Env) (lt : LocalTypes) (t : PyTy) (o b : RsTy) (h : intoRs E lt t = .ok (o, b)) (hs : Compilable o) :
    (∀ v, Passed b v → HasTy (NumpyArray E) t v) ↔ Arrives (NumpyArray E) (AnyInside E lt) t := by
  obtain ⟨h1, h2⟩ := arrives_both E lt t o b h hs
  refine ⟨fun hv => Classical.byContradiction fun hn => ?_, fun ha v hv => h1 ha v ((passed_same h v).mpr hv)⟩
  obtain ⟨v, -, n2, n3⟩ := h2 hn
  exact n3 (hv v ((passed_same h v).mp n2))

/-- `dict[str, tuple[int, list[float | None]]]` arrives as annotated, `tuple[str, list[frozenset[int]]]` does not; both can be compiled. -/
example (E : Env) (lt : LocalTypes) :
    (∃ o b, intoRs E lt (.dict .string (.tuple [.long, .list (.optional .float)])) = .ok (o, b) ∧ Compilable o ∧
      ∀ v, Passed b v → HasTy (NumpyArray E) (.dict .string (.tuple [.long, .list (.optional .float)])) v) ∧
    ∃ o b, intoRs E lt (.tuple [.string, .list (.frozenSet .long)]) = .ok (o, b) ∧ Compilable o ∧
      ¬ ∀ v, Passed b v → HasTy (NumpyArray E) (.tuple [.string, .list (.frozenSet .long)]) v := by
  have c1 : Compilable (.hashMap .string (.tuple [.i64, .vec (.option .f64)])) := by simp [Compilable, CompilableAll, ImplHash]
  have c2 : Compilable (.tuple [.string, .vec (.hashSet .i64)]) := by simp [Compilable, CompilableAll, ImplHash]
  have e1 : intoRs E lt (.tuple [.long, .list (.optional .float)]) = .ok (.tuple [.i64, .vec (.option .f64)], .tuple [.i64, .vec (.option .f64)]) := rfl
  refine ⟨⟨_, _, rfl, c1, (C78_exact E lt _ _ _ rfl c1).mpr ?_⟩, _, _, rfl, c2, fun h => ?_⟩
  · refine Or.inl ⟨rfl, ?_, by simp [Arrives, ArrivesAll]⟩
    rintro ⟨o, b, h, hm⟩
    rw [e1] at h
    cases h
    cases hm
  · have := (C78_exact E lt _ _ _ rfl c2).mp h
    simp [Arrives, ArrivesAll, Full] at this

/-- A value other than `None` that cannot be passed, of each annotation that is not sendable. -/
theorem not_sendable (E : Env) (lt : LocalTypes) (t : PyTy) (o b : RsTy) (h : intoRs E lt t = .ok (o, b)) (hp : Peopled (NumpyArray E) t)
    (hn : ¬ Sendable (AnyInside E lt) t) :
    ∃ v, v ≠ .none ∧ HasTy (NumpyArray E) t v ∧ ∀ w, Equals v w → ¬ Passed o w := by
  induction t using PyTy.ind generalizing o b with
  | step t ih =>
  obtain ⟨_, v0, hv0, hel⟩ := hp
  cases t
  case bytes =>
    rw [intoRs] at h; cases h
    refine ⟨_, by simp, .bytes 0, fun w he hc => ?_⟩
    cases he; cases hc
  case byteArray =>
    rw [intoRs] at h; cases h
    refine ⟨_, by simp, .byteArray 0, fun w he hc => ?_⟩
    cases he; cases hc
  case path =>
    rw [intoRs] at h; cases h
    refine ⟨_, by simp, .path, fun w he hc => ?_⟩
    cases he; cases hc
  case ipV4 => cases hv0 with | inst _ _ _ hi _ => cases hi
  case ipV6 => cases hv0 with | inst _ _ _ hi _ => cases hi
  case optional t =>
    rw [intoRs] at h
    obtain ⟨p, hp, h⟩ := Res.bind_ok h
    cases h
    obtain ⟨v, n1, n2, n3⟩ := ih t (by simp [PyTy.kids]) _ _ hp (hel t (by simp [elements])) hn
    refine ⟨v, n1, .optSome _ _ n2, fun w he hc => ?_⟩
    cases hc with
    | optNone => cases he; exact n1 rfl
    | optSome _ _ hc => exact n3 w he hc
  case list t =>
    rw [intoRs] at h
    obtain ⟨p, hp, h⟩ := Res.bind_ok h
    cases h
    obtain ⟨v, n1, n2, n3⟩ := ih t (by simp [PyTy.kids]) _ _ hp (hel t (by simp [elements])) hn
    refine ⟨.list [v], by simp, .list _ _ (by simpa using n2), fun w he hc => ?_⟩
    cases hc with
    | vec _ m hm =>
      cases he with
      | refl => exact n3 v (.refl _) (hm v (by simp))
      | list _ _ h1 h2 =>
        obtain ⟨y, rfl⟩ := List.length_eq_one_iff.mp h1.symm
        exact n3 y (h2 (v, y) (by simp)) (hm y (by simp))
  case set t =>
    obtain hc | hc := Bool.eq_false_or_eq_true t.isHashable
    · rw [intoRs, hc] at h
      obtain ⟨p, hp, h⟩ := Res.bind_ok h
      cases h
      obtain ⟨v, n1, n2, n3⟩ := ih t (by simp [PyTy.kids]) _ _ hp (hel t (by simp [elements])) fun hx => hn (Or.inr hx)
      refine ⟨.set [v], by simp, .set _ _ (by simpa using n2), fun w he hc => ?_⟩
      cases hc with
      | hashSet _ m hm =>
        cases he with
        | refl => exact n3 v (.refl _) (hm v (by simp))
        | set _ _ h1 h2 =>
          obtain ⟨y, rfl⟩ := List.length_eq_one_iff.mp h1.symm
          exact n3 y (h2 (v, y) (by simp)) (hm y (by simp))
    · exact absurd (Or.inl hc) hn
  case frozenSet t =>
    obtain hc | hc := Bool.eq_false_or_eq_true t.isHashable
    · rw [intoRs, hc] at h
      obtain ⟨p, hp, h⟩ := Res.bind_ok h
      cases h
      obtain ⟨v, n1, n2, n3⟩ := ih t (by simp [PyTy.kids]) _ _ hp (hel t (by simp [elements])) fun hx => hn (Or.inr hx)
      refine ⟨.frozenSet [v], by simp, .frozenSet _ _ (by simpa using n2), fun w he hc => ?_⟩
      cases hc with
      | hashSet _ m hm =>
        cases he with
        | frozenSetSet _ _ h1 h2 =>
          obtain ⟨y, rfl⟩ := List.length_eq_one_iff.mp h1.symm
          exact n3 y (h2 (v, y) (by simp)) (hm y (by simp))
    · exact absurd (Or.inl hc) hn
  case dict k u =>
    rw [intoRs] at h
    obtain ⟨p, hp, h⟩ := Res.bind_ok h
    have one : ∀ {x y : Val}, HasTy (NumpyArray E) k x → HasTy (NumpyArray E) u y → HasTy (NumpyArray E) (.dict k u) (.dict [(x, y)]) :=
      fun h1 h2 => .dict _ _ _ (by simpa using h1) (by simpa using h2)
    split at h
    · obtain ⟨q, hq, h⟩ := Res.bind_ok h
      cases h
      have pass : ∀ {x y w : Val}, Equals (.dict [(x, y)]) w → Passed (.hashMap q.1 p.1) w →
          (∃ x', Equals x x' ∧ Passed q.1 x') ∧ ∃ y', Equals y y' ∧ Passed p.1 y' := by
        intro x y w he hc
        cases hc with
        | hashMap _ _ m m1 m2 =>
          cases he with
          | refl => exact ⟨⟨x, .refl _, m1 (x, y) (by simp)⟩, y, .refl _, m2 (x, y) (by simp)⟩
          | dict _ _ h1 h2 h3 =>
            obtain ⟨z, rfl⟩ := List.length_eq_one_iff.mp h1.symm
            exact ⟨⟨z.1, h2 ((x, y), z) (by simp), m1 z (by simp)⟩, z.2, h3 ((x, y), z) (by simp), m2 z (by simp)⟩
      by_cases hk : Sendable (AnyInside E lt) k
      · obtain ⟨v, n1, n2, n3⟩ := ih u (by simp [PyTy.kids]) _ _ hp (hel u (by simp [elements])) fun hx => hn (Or.inr (Or.inr ⟨hk, hx⟩))
        obtain ⟨_, x, hx, -⟩ := hel k (by simp [elements])
        refine ⟨_, by simp, one hx n2, fun w he hc => ?_⟩
        obtain ⟨-, y, h1, h2⟩ := pass he hc
        exact n3 y h1 h2
      · obtain ⟨v, n1, n2, n3⟩ := ih k (by simp [PyTy.kids]) _ _ hq (hel k (by simp [elements])) hk
        obtain ⟨_, x, hx, -⟩ := hel u (by simp [elements])
        refine ⟨_, by simp, one n2 hx, fun w he hc => ?_⟩
        obtain ⟨⟨y, h1, h2⟩, -⟩ := pass he hc
        exact n3 y h1 h2
    · rename_i hc
      refine absurd ?_ hn
      cases hh : k.isHashable with
      | false => exact Or.inl hh
      | true =>
        cases hm : p.1.mentionsPyAny with
        | false => simp [hh, hm] at hc
        | true => exact Or.inr (Or.inl ⟨_, _, hp, hm⟩)
  case tuple ts =>
    rcases tuple_cases ts with hl | ⟨t, rfl⟩ | ⟨h2, he⟩
    · exact absurd (Or.inl hl) hn
    · rw [intoRs_tuple_ellipsis, intoRs] at h
      obtain ⟨p, hp, h⟩ := Res.bind_ok h
      cases h
      refine ⟨.tuple [], by simp, .tupleOf _ _ (by simp), fun w he hc => ?_⟩
      cases hc; cases he
    · rw [intoRs_tuple E lt h2 he] at h
      obtain ⟨rs, hrs, h⟩ := Res.bind_ok h
      cases h
      have hrl := Res.traverse_length hrs
      cases hv0 with
      | tupleOf => exact absurd rfl (he _)
      | anyTuple => simp at h2
      | inst _ _ _ hx => cases hx
      | tuple _ l hlen hell hall =>
        have : ¬ ∀ t ∈ ts, Sendable (AnyInside E lt) t := fun ha => hn (Or.inr ⟨hell, sendableAll_iff.mpr ha⟩)
        simp only [not_forall] at this
        obtain ⟨t, ht, hbad⟩ := this
        obtain ⟨i, hi⟩ := List.mem_iff_getElem?.mp ht
        have hlt : i < rs.length := by have := (List.getElem?_eq_some_iff.mp hi).1; omega
        have hr : rs[i]? = some rs[i] := List.getElem?_eq_getElem hlt
        obtain ⟨b, hb⟩ := intoRsOwned_ok (traverse_zip hrs (t, rs[i]) (List.mem_of_getElem? (List.getElem?_zip_eq_some.mpr ⟨hi, hr⟩)))
        obtain ⟨v, -, n2, n3⟩ := ih t (by simpa [PyTy.kids] using ht) _ _ hb (hel t (by simpa [elements] using ht)) hbad
        have hvi : (l.set i v)[i]? = some v := by rw [List.getElem?_set_self (by omega)]
        refine ⟨.tuple (l.set i v), by simp, .tuple _ _ (by simp [hlen]) hell fun x hx => ?_, fun w hq hc => ?_⟩
        · obtain ⟨j, hj⟩ := List.mem_iff_getElem?.mp hx
          rw [List.getElem?_zip_eq_some] at hj
          by_cases hij : i = j
          · subst hij
            rw [hi, hvi] at hj
            obtain ⟨x1, x2⟩ := x
            obtain ⟨j1, j2⟩ := hj
            cases j1
            cases j2
            exact n2
          · rw [List.getElem?_set_ne hij] at hj
            exact hall x (List.mem_of_getElem? (List.getElem?_zip_eq_some.mpr hj))
        · have hc : Passed (.tuple rs) w := hc
          cases hc with
          | tuple _ m m1 m2 =>
            have hmi : m[i]? = some m[i] := List.getElem?_eq_getElem (by omega)
            have hpm := m2 (rs[i], m[i]) (List.mem_of_getElem? (List.getElem?_zip_eq_some.mpr ⟨hr, hmi⟩))
            cases hq with
            | refl => exact n3 v (.refl _) (Option.some.inj (hvi.symm.trans hmi) ▸ hpm)
            | tuple _ _ h1 h2 => exact n3 m[i] (h2 (v, m[i]) (List.mem_of_getElem? (List.getElem?_zip_eq_some.mpr ⟨hvi, hmi⟩))) hpm
  all_goals exact absurd trivial hn

/-- **C79** (exact): for every annotation that has values, as have its parts, a Rust caller can pass all its values if and only if the annotation is one of `Sendable`. -/
theorem C79_exact (E : Env) (lt : LocalTypes) (t : PyTy) (o b : RsTy) (h : intoRs E lt t = .ok (o, b)) (hp : Peopled (NumpyArray E) t) :
    (∀ v, HasTy (NumpyArray E) t v → ∃ w, Equals v w ∧ Passed b w) ↔ Sendable (AnyInside E lt) t := by
  refine ⟨fun hv => Classical.byContradiction fun hn => ?_, fun hs v hv => (sendable_passed E lt t o b h hs v hv).2⟩
  obtain ⟨v, -, n2, n3⟩ := not_sendable E lt t o b h hp hn
  obtain ⟨w, h1, h2⟩ := hv v n2
  exact n3 w h1 ((passed_same h w).mpr h2)

/-- `frozenset[int]` can be passed, as sets; `dict[str, tuple[int, ...]]` cannot. -/
example (E : Env) (lt : LocalTypes) :
    (Peopled (NumpyArray E) (.frozenSet .long) ∧
      ∀ v, HasTy (NumpyArray E) (.frozenSet .long) v → ∃ w, Equals v w ∧ Passed (.ref (.hashSet .i64)) w) ∧
    Peopled (NumpyArray E) (.dict .string (.tuple [.long, .ellipsis])) ∧
      ¬ ∀ v, HasTy (NumpyArray E) (.dict .string (.tuple [.long, .ellipsis])) v → ∃ w, Equals v w ∧ Passed (.ref (.hashMap .string (.vec .i64))) w := by
  have hl : Peopled (NumpyArray E) .long := .mk _ (.int 0) (.long _ (by simp [FitsI64])) (by simp [elements])
  have hst : Peopled (NumpyArray E) .string := .mk _ (.str true) .string (by simp [elements])
  have he : Peopled (NumpyArray E) .ellipsis := .mk _ .none (.ellipsis _) (by simp [elements])
  have p1 : Peopled (NumpyArray E) (.frozenSet .long) := .mk _ (.frozenSet []) (.frozenSet _ _ (by simp)) (by simpa [elements] using hl)
  have p2 : Peopled (NumpyArray E) (.tuple [.long, .ellipsis]) := .mk _ (.tuple []) (.tupleOf _ _ (by simp)) (by simpa [elements] using ⟨hl, he⟩)
  have p3 : Peopled (NumpyArray E) (.dict .string (.tuple [.long, .ellipsis])) :=
    .mk _ (.dict []) (.dict _ _ _ (by simp) (by simp)) (by simpa [elements] using ⟨hst, p2⟩)
  have e2 : intoRs E lt (.tuple [.long, .ellipsis]) = .ok (.vec .i64, .slice .i64) := by rw [intoRs_tuple_ellipsis]; rfl
  have e3 : intoRs E lt (.dict .string (.tuple [.long, .ellipsis])) = .ok (.hashMap .string (.vec .i64), .ref (.hashMap .string (.vec .i64))) := by
    rw [intoRs, e2]; rfl
  refine ⟨⟨p1, (C79_exact E lt _ _ _ rfl p1).mpr (Or.inr trivial)⟩, p3, fun h => ?_⟩
  rcases (C79_exact E lt _ _ _ e3 p3).mp h with h | ⟨o, b, h, hm⟩ | ⟨-, h⟩
  · cases h
  · rw [e2] at h
    cases h
    cases hm
  · simp [Sendable, SendableAll] at h

end Bindgen
