import Verif.Model.Render
import Verif.Spec.Trees
/-!
# The tokens of a type are a type
-/
namespace Bindgen
open Spec

variable {E : Env}

/-- The text of an identifier, possibly a raw one. -/
def Word (E : Env) (s : Str) : Prop := isIdentText E s = true ∨ ∃ r, s = 'r' :: '#' :: r ∧ isIdentText E r = true ∧ r ∉ rawReserved

/-- The text is an identifier and not a keyword. -/
def IdOk (E : Env) (s : Str) : Prop := Tok.ident s = .id s ∧ Word E s

/-- The text is an identifier that can be part of a path. -/
def SegOk (E : Env) (s : Str) : Prop := pSegName (Tok.ident s) = some s ∧ Word E s

/-- The path is legal. -/
def PathOk (E : Env) (p : Path) : Prop := p.segs ≠ [] ∧ ∀ s ∈ p.segs, SegOk E (lexTrim s.rs)

mutual
/-- The names in a type are legal, and no tuple has exactly one component. -/
def RsTy.Ok (E : Env) : RsTy → Prop
  | .option t => t.Ok E
  | .hashMap k v => k.Ok E ∧ v.Ok E
  | .hashSet t => t.Ok E
  | .vec t => t.Ok E
  | .slice t => t.Ok E
  | .ref t => t.Ok E
  | .tuple ts => ts.length ≠ 1 ∧ RsTy.OkList E ts
  | .stdNet n => IdOk E n
  | .bound n => IdOk E n
  | .boundLocal p => PathOk E p
  | .implIntoPy n => IdOk E n
  | _ => True
/-- The same for all. -/
def RsTy.OkList (E : Env) : List RsTy → Prop
  | [] => True
  | t :: ts => t.Ok E ∧ RsTy.OkList E ts
end

/-- What may follow a type. -/
def stopT : List Tok → Bool
  | .p .colon2 :: _ => false
  | .p .lt :: _ => false
  | _ => true

theorem pArgs_stop {n p tb rest} (h : stopT rest = true) : pArgs? n p tb rest = some ([], rest) := by
  unfold pArgs?
  split <;> simp_all [stopT]

theorem segs_last {n p tb t s rest} (ht : pSegName t = some s) (h : stopT rest = true) :
    pSegs p tb (n + 1) (t :: rest) = some ([.mk s []], rest) := by
  simp only [pSegs, ht, pArgs_stop h]
  split
  · rename_i h2; simp at h2; obtain ⟨rfl, rfl, rfl⟩ := h2; simp [stopT] at h
  · rename_i h1 h2; simp at h1; simp at h2; obtain ⟨rfl, rfl⟩ := h2; rw [h1]
  · simp_all

theorem segs_more {n p t s rest} (ht : pSegName t = some s) :
    pSegs p false (n + 1) (t :: .p .colon2 :: rest) =
      (pSegs p false n rest).map (fun r => (RSeg.mk s [] :: r.1, r.2)) := by
  have : pArgs? n p false (.p .colon2 :: rest) = some ([], .p .colon2 :: rest) := by
    unfold pArgs?; split <;> simp_all
  simp only [pSegs, ht, this]
  cases pSegs p false n rest <;> rfl

theorem segs_args {n p t s rest as rest'} (ht : pSegName t = some s) (ha : pGeneric p n rest = some (as, rest'))
    (h : stopT rest' = true) : pSegs p false (n + 1) (t :: .p .lt :: rest) = some ([.mk s as], rest') := by
  have : pArgs? n p false (.p .lt :: rest) = some (as, rest') := by
    simp [pArgs?, ha]
  simp only [pSegs, ht, this]
  split
  · rename_i h2; simp at h2; obtain ⟨rfl, rfl, rfl⟩ := h2; simp [stopT] at h
  · rename_i h1 h2; simp at h1; simp at h2; obtain ⟨rfl, rfl⟩ := h2; rw [h1]
  · simp_all

/-- The tokens of a path of names. -/
theorem segs_path {p} : ∀ {l : List Ident} {n : Nat} {rest : List Tok}, l ≠ [] → (∀ s ∈ l, SegOk E (lexTrim s.rs)) → l.length ≤ n →
    stopT rest = true → pSegs p false n (segToks l ++ rest) = some (names (l.map (fun s => lexTrim s.rs)), rest)
  | [], _, _, hne, _, _, _ => absurd rfl hne
  | [s], n, rest, _, hs, hn, h => by
    obtain ⟨k, rfl⟩ : ∃ k, n = k + 1 := ⟨n - 1, by simp at hn; omega⟩
    simpa [segToks, names] using segs_last (hs s (by simp)).1 h
  | s :: u :: l, n, rest, _, hs, hn, h => by
    obtain ⟨k, rfl⟩ : ∃ k, n = k + 1 := ⟨n - 1, by simp at hn; omega⟩
    have ih := segs_path (p := p) (l := u :: l) (n := k) (rest := rest) (by simp) (fun s h => hs s (List.mem_cons_of_mem _ h))
      (by simp at hn ⊢; omega) h
    simp only [segToks, List.cons_append, List.nil_append]
    rw [segs_more (hs s (by simp)).1, ih]
    rfl

/-- The tokens parse as this type, whatever follows. -/
def PT (ts : List Tok) (t : RType) : Prop :=
  ∃ N, ∀ n ≥ N, ∀ rest, stopT rest = true →
    pType n (ts ++ rest) = some (t, rest) ∧ pGenericArg (pType n) (ts ++ rest) = some (t, rest)

/-- Does not start with a lifetime. -/
def noLife : List Tok → Bool
  | .life _ :: _ => false
  | [] => false
  | _ => true

theorem genericArg_noLife {p ts rest} (h : noLife ts = true) : pGenericArg p (ts ++ rest) = p (ts ++ rest) := by
  unfold noLife at h
  unfold pGenericArg
  cases ts with
  | nil => simp at h
  | cons a ts => cases a <;> simp_all

theorem PT.of {ts t} (hl : noLife ts = true)
    (h : ∃ N, ∀ n ≥ N, ∀ rest, stopT rest = true → pType n (ts ++ rest) = some (t, rest)) : PT ts t := by
  obtain ⟨N, h⟩ := h
  exact ⟨N, fun n hn rest hr => ⟨h n hn rest hr, by rw [genericArg_noLife hl]; exact h n hn rest hr⟩⟩

theorem PT.path {ts t} (hl : noLife ts = true) (hs : ∀ n p rest, pTypeStep n p (ts ++ rest) = pPathType n p (ts ++ rest))
    (h : ∃ N, ∀ n ≥ N, ∀ rest, stopT rest = true → pPathType n (pType n) (ts ++ rest) = some (t, rest)) : PT ts t := by
  obtain ⟨N, h⟩ := h
  refine PT.of hl ⟨N + 1, fun n hn rest hr => ?_⟩
  obtain ⟨k, rfl⟩ : ∃ k, n = k + 1 := ⟨n - 1, by omega⟩
  rw [pType, hs]
  exact h k (by omega) rest hr

theorem pPath_colon {n p tb rest} : pPath n p tb (.p .colon2 :: rest) =
    (pSegs p tb n rest).map (fun r => ((true, r.1), r.2)) := by
  simp only [pPath]; cases pSegs p tb n rest <;> rfl

theorem pPathType_colon {n p rest} : pPathType n p (.p .colon2 :: rest) =
    (pSegs p false n rest).map (fun r => (RType.path true r.1, r.2)) := by
  simp only [pPathType, pPath_colon]; cases pSegs p false n rest <;> rfl

theorem pPathType_id {n p s rest} : pPathType n p (.id s :: rest) =
    (pSegs p false n (.id s :: rest)).map (fun r => (RType.path false r.1, r.2)) := by
  simp only [pPathType, pPath]; cases pSegs p false n (.id s :: rest) <;> rfl

theorem seg_id (s : Str) : pSegName (.id s) = some s := rfl

theorem generic_last {n p ts a rest} (h : pGenericArg p ts = some (a, .p .gt :: rest)) :
    pGeneric p (n + 1) ts = some ([a], rest) := by
  simp only [pGeneric, h]

theorem generic_more {n p ts a rest} (h : pGenericArg p ts = some (a, .p .comma :: rest)) (hr : ∀ r, rest ≠ .p .gt :: r) :
    pGeneric p (n + 1) ts = (pGeneric p n rest).map (fun r => (a :: r.1, r.2)) := by
  simp only [pGeneric, h]
  cases rest with
  | nil => cases pGeneric p n [] <;> rfl
  | cons t r =>
    split <;> simp_all

/-- A name. -/
theorem PT.name (s : Str) : PT [.id s] (.path false (names [s])) := by
  refine PT.path rfl (fun _ _ _ => rfl) ⟨1, fun n hn rest hr => ?_⟩
  obtain ⟨k, rfl⟩ : ∃ k, n = k + 1 := ⟨n - 1, by omega⟩
  simp only [List.cons_append, List.nil_append, pPathType_id, segs_last (seg_id s) hr]
  rfl

/-- The tokens `a::b::c`. -/
def nameToks : List Str → List Tok
  | [] => []
  | [s] => [.id s]
  | s :: ss => .id s :: .p .colon2 :: nameToks ss

theorem segs_names {p} : ∀ {l : List Str} {n : Nat} {rest : List Tok}, l ≠ [] → l.length ≤ n →
    stopT rest = true → pSegs p false n (nameToks l ++ rest) = some (names l, rest)
  | [], _, _, hne, _, _ => absurd rfl hne
  | [s], n, rest, _, hn, h => by
    obtain ⟨k, rfl⟩ : ∃ k, n = k + 1 := ⟨n - 1, by simp at hn; omega⟩
    exact segs_last (seg_id s) h
  | s :: u :: l, n, rest, _, hn, h => by
    obtain ⟨k, rfl⟩ : ∃ k, n = k + 1 := ⟨n - 1, by simp at hn; omega⟩
    have ih := segs_names (p := p) (l := u :: l) (n := k) (rest := rest) (by simp) (by simp at hn ⊢; omega) h
    simp only [nameToks, List.cons_append]
    rw [segs_more (seg_id s), ih]
    rfl

theorem segs_names_args {p} : ∀ {l : List Str} {last : Str} {n k : Nat} {rest as rest' : _}, n = k + l.length + 1 →
    pGeneric p k rest = some (as, rest') → stopT rest' = true →
    pSegs p false n (nameToks (l ++ [last]) ++ .p .lt :: rest) = some (names l ++ [.mk last as], rest')
  | [], last, n, k, rest, as, rest', hn, hg, h => by
    subst hn; exact segs_args (seg_id last) hg h
  | s :: l, last, n, k, rest, as, rest', hn, hg, h => by
    subst hn
    have ih := segs_names_args (p := p) (l := l) (last := last) (k := k) rfl hg h
    have e : nameToks (s :: l ++ [last]) = .id s :: .p .colon2 :: nameToks (l ++ [last]) := by
      cases l <;> rfl
    rw [e]
    simp only [List.cons_append, List.length_cons]
    rw [show k + (l.length + 1) + 1 = (k + l.length + 1) + 1 by omega, segs_more (seg_id s), ih]
    rfl

/-- An absolute path. -/
theorem PT.abs {ts : List Tok} (l : List Str) (e : ts = .p .colon2 :: nameToks l) (hne : l ≠ []) : PT ts (.path true (names l)) := by
  subst e
  refine PT.path rfl (fun _ _ _ => rfl) ⟨l.length, fun n hn rest hr => ?_⟩
  simp only [List.cons_append, pPathType_colon, segs_names hne hn hr]
  rfl

/-- The tokens parse as these arguments. -/
def PG (ts : List Tok) (as : List RType) : Prop :=
  ∃ N c, ∀ n ≥ N, ∀ k ≥ c, ∀ rest, pGeneric (pType n) k (ts ++ .p .gt :: rest) = some (as, rest)

theorem PG.one {ts t} (h : PT ts t) : PG ts [t] := by
  obtain ⟨N, h⟩ := h
  refine ⟨N, 1, fun n hn k hk rest => ?_⟩
  obtain ⟨k, rfl⟩ : ∃ j, k = j + 1 := ⟨k - 1, by omega⟩
  exact generic_last (h n hn (.p .gt :: rest) rfl).2

/-- Does not start with `>`. -/
def noGt : List Tok → Bool
  | .p .gt :: _ => false
  | [] => false
  | _ => true

theorem noGt_append {ts rest} (h : noGt ts = true) : ∀ r, ts ++ rest ≠ Tok.p .gt :: r := by
  intro r e
  cases ts with
  | nil => simp [noGt] at h
  | cons t ts => simp at e; rw [e.1] at h; simp [noGt] at h

theorem PG.more {ts t ts' as} (h : PT ts t) (h' : PG ts' as) (hg : noGt ts' = true) : PG (ts ++ .p .comma :: ts') (t :: as) := by
  obtain ⟨N, h⟩ := h
  obtain ⟨N', c, h'⟩ := h'
  refine ⟨N + N', c + 1, fun n hn k hk rest => ?_⟩
  obtain ⟨k, rfl⟩ : ∃ j, k = j + 1 := ⟨k - 1, by omega⟩
  rw [List.append_assoc, List.cons_append,
    generic_more (h n (by omega) (.p .comma :: (ts' ++ .p .gt :: rest)) rfl).2 (noGt_append hg),
    h' n (by omega) k (by omega) rest]
  rfl

theorem PG.life {s ts' as} (h' : PG ts' as) (hg : noGt ts' = true) : PG (.life s :: .p .comma :: ts') (.life s :: as) := by
  obtain ⟨N', c, h'⟩ := h'
  refine ⟨N', c + 1, fun n hn k hk rest => ?_⟩
  obtain ⟨k, rfl⟩ : ∃ j, k = j + 1 := ⟨k - 1, by omega⟩
  simp only [List.cons_append]
  rw [generic_more (a := .life s) (rest := ts' ++ .p .gt :: rest) rfl (noGt_append hg), h' n (by omega) k (by omega) rest]
  rfl

/-- With a comma at the end. -/
theorem PG.comma {ts t} (h : PT ts t) : PG (ts ++ [.p .comma]) [t] := by
  obtain ⟨N, h⟩ := h
  refine ⟨N, 1, fun n hn k hk rest => ?_⟩
  obtain ⟨k, rfl⟩ : ∃ j, k = j + 1 := ⟨k - 1, by omega⟩
  have e := (h n hn (.p .comma :: .p .gt :: rest) rfl).2
  simp only [List.append_assoc, List.cons_append, List.nil_append, pGeneric, e]

theorem PG.one_life (s : Str) : PG [.life s] [.life s] := by
  refine ⟨0, 1, fun n hn k hk rest => ?_⟩
  obtain ⟨k, rfl⟩ : ∃ j, k = j + 1 := ⟨k - 1, by omega⟩
  rfl

/-- An absolute path with arguments. -/
theorem PT.gen {ts as : List Tok} {args} (l : List Str) (last : Str) (e : ts = .p .colon2 :: nameToks (l ++ [last]) ++ .p .lt :: as ++ [.p .gt])
    (h : PG as args) : PT ts (gen true l last args) := by
  obtain ⟨N, c, h⟩ := h
  subst e
  refine PT.path rfl (fun _ _ _ => rfl) ⟨N + c + l.length + 1, fun n hn rest hr => ?_⟩
  have e : Tok.p .colon2 :: nameToks (l ++ [last]) ++ .p .lt :: as ++ [.p .gt] ++ rest
      = .p .colon2 :: (nameToks (l ++ [last]) ++ .p .lt :: (as ++ .p .gt :: rest)) := by simp
  rw [e, pPathType_colon, segs_names_args (k := n - l.length - 1) (by omega) (h n (by omega) _ (by omega) rest) hr]
  rfl

/-- `name<args>`. -/
theorem PT.vec {ts as : List Tok} {args} (last : Str) (e : ts = .id last :: .p .lt :: as ++ [.p .gt])
    (h : PG as args) : PT ts (Bindgen.gen false [] last args) := by
  obtain ⟨N, c, h⟩ := h
  subst e
  refine PT.path rfl (fun _ _ _ => rfl) ⟨N + c + 1, fun n hn rest hr => ?_⟩
  have e : Tok.id last :: .p .lt :: as ++ [.p .gt] ++ rest
      = .id last :: (.p .lt :: (as ++ .p .gt :: rest)) := by simp
  rw [e, pPathType_id]
  have := segs_names_args (p := pType n) (l := []) (last := last) (n := n) (k := n - 1) (by simp; omega) (h n (by omega) _ (by omega) rest) hr
  simp only [List.nil_append, nameToks, List.cons_append] at this
  rw [this]
  rfl

theorem PT.ref {ts t} (h : PT ts t) : PT (.p .amp :: ts) (.ref t) := by
  obtain ⟨N, h⟩ := h
  refine PT.of rfl ⟨N + 1, fun n hn rest hr => ?_⟩
  obtain ⟨k, rfl⟩ : ∃ k, n = k + 1 := ⟨n - 1, by omega⟩
  simp only [pType, List.cons_append, pTypeStep, (h k (by omega) rest hr).1]

theorem PT.slice {ts t} (h : PT ts t) : PT [.group .bracket ts] (.slice t) := by
  obtain ⟨N, h⟩ := h
  refine PT.of rfl ⟨N + 1, fun n hn rest hr => ?_⟩
  obtain ⟨k, rfl⟩ : ∃ k, n = k + 1 := ⟨n - 1, by omega⟩
  have e := (h k (by omega) [] rfl).1
  simp only [List.append_nil] at e
  simp only [pType, List.cons_append, List.nil_append, pTypeStep, pAll, e]

/-- The bound of `impl Trait`. -/
theorem PT.impl {ts t} (hs : ∀ n p rest, pTypeStep n p (ts ++ rest) = pPathType n p (ts ++ rest)) (h : PT ts t) :
    PT (.kw .impl :: ts) (.impl t) := by
  obtain ⟨N, h⟩ := h
  refine PT.of rfl ⟨N + 1, fun n hn rest hr => ?_⟩
  obtain ⟨k, rfl⟩ : ∃ k, n = k + 1 := ⟨n - 1, by omega⟩
  have e := (h (k + 1) (by omega) rest hr).1
  rw [pType, hs] at e
  simp only [pType, List.cons_append, pTypeStep, e]

theorem commas_nil {α : Type} {p : Parser α} {n} : pCommas p (n + 1) [] = some [] := rfl

theorem commas_one {α : Type} {p : Parser α} {n ts a} (hne : ts ≠ []) (h : p ts = some (a, [])) : pCommas p (n + 1) ts = some [a] := by
  cases ts with
  | nil => exact absurd rfl hne
  | cons t ts => simp only [pCommas, h]

theorem commas_more {α : Type} {p : Parser α} {n ts a rest} (hne : ts ≠ []) (h : p ts = some (a, .p .comma :: rest)) :
    pCommas p (n + 1) ts = (pCommas p n rest).map (a :: ·) := by
  cases ts with
  | nil => exact absurd rfl hne
  | cons t ts => simp only [pCommas, h]

theorem RsTy.noGt (t : RsTy) : noGt t.toks = true := by cases t <;> rfl
theorem RsTy.toks_ne (t : RsTy) : t.toks ≠ [] := by cases t <;> simp [RsTy.toks]

/-- The tokens parse as this list. -/
def PC (ts : List Tok) (l : List RType) : Prop := ∃ N c, ∀ n ≥ N, ∀ k ≥ c, pCommas (pType n) k ts = some l

theorem PT.tuple {ts l} (h : PC ts l) (hl : l.length ≠ 1) : PT [.group .paren ts] (.tuple l) := by
  obtain ⟨N, c, h⟩ := h
  refine PT.of rfl ⟨N + c + 1, fun n hn rest hr => ?_⟩
  obtain ⟨k, rfl⟩ : ∃ k, n = k + 1 := ⟨n - 1, by omega⟩
  simp only [pType, List.cons_append, List.nil_append, pTypeStep, h k (by omega) k (by omega)]
  split <;> simp_all

theorem Path.parses {p : Path} (h : PathOk E p) : PT p.toks p.tree := by
  obtain ⟨lc, segs⟩ := p
  obtain ⟨hne, hs⟩ := h
  simp only at hne hs
  cases lc with
  | true =>
    refine PT.path (by simp [Path.toks, noLife]) (fun _ _ _ => by simp [Path.toks, pTypeStep])
      ⟨segs.length, fun n hn rest hr => ?_⟩
    simp only [Path.toks, if_true, List.cons_append, List.nil_append, pPathType_colon, segs_path hne hs hn hr]
    rfl
  | false =>
    obtain ⟨s, l, rfl⟩ : ∃ s l, segs = s :: l := by cases segs <;> simp_all
    have hh : ∃ tl, segToks (s :: l) = Tok.ident (lexTrim s.rs) :: tl := by cases l <;> exact ⟨_, rfl⟩
    obtain ⟨tl, htl⟩ := hh
    have h1 := hs s (by simp)
    have e : Path.toks ⟨false, s :: l⟩ = segToks (s :: l) := by simp [Path.toks]
    have hid : ∀ {t : Tok} {s}, pSegName t = some s → (∀ n p rest, pTypeStep n p (t :: rest) = pPathType n p (t :: rest)) ∧
        (∀ n p rest, pPathType n p (t :: rest) = (pSegs p false n (t :: rest)).map (fun r => (RType.path false r.1, r.2))) ∧
        (∀ tl, noLife (t :: tl) = true) := by
      intro t s h
      unfold pSegName at h
      split at h
      case h_6 => cases h
      all_goals
        refine ⟨fun _ _ _ => rfl, fun n p rest => ?_, fun _ => rfl⟩
        simp only [pPathType, pPath]
        generalize pSegs p false n (_ :: rest) = o
        cases o <;> rfl
    obtain ⟨h2, h3, h4⟩ := hid h1.1
    rw [e]
    refine PT.path (by rw [htl]; exact h4 _) (fun _ _ _ => by rw [htl]; exact h2 _ _ _) ⟨(s :: l).length, fun n hn rest hr => ?_⟩
    have := segs_path (p := pType n) hne hs hn hr
    rw [htl] at this ⊢
    rw [List.cons_append, h3, ← List.cons_append, this]
    rfl

mutual
/-- The tokens of a type parse as its tree. -/
theorem RsTy.parses : ∀ (t : RsTy), t.Ok E → PT t.toks t.tree
  | .bool, _ => PT.name _
  | .f64, _ => PT.name _
  | .i64, _ => PT.name _
  | .u8, _ => PT.name _
  | .string, _ => PT.abs [c!"std", c!"string", c!"String"] rfl (by simp)
  | .strRef, _ => PT.ref (PT.name _)
  | .option t, h => PT.gen [c!"std", c!"option"] c!"Option" rfl (PG.one (RsTy.parses t (by simpa only [RsTy.Ok] using h)))
  | .hashMap k v, h => by
    simp only [RsTy.Ok] at h
    refine PT.gen [c!"std", c!"collections"] c!"HashMap" ?_ (PG.more (RsTy.parses k h.1) (PG.one (RsTy.parses v h.2)) v.noGt)
    simp [RsTy.toks, nameToks]
  | .hashSet t, h => PT.gen [c!"std", c!"collections"] c!"HashSet" rfl (PG.one (RsTy.parses t (by simpa only [RsTy.Ok] using h)))
  | .vec t, h => PT.vec c!"Vec" rfl (PG.one (RsTy.parses t (by simpa only [RsTy.Ok] using h)))
  | .slice t, h => PT.ref (PT.slice (RsTy.parses t (by simpa only [RsTy.Ok] using h)))
  | .ref t, h => PT.ref (RsTy.parses t (by simpa only [RsTy.Ok] using h))
  | .tuple ts, h => by
    simp only [RsTy.Ok] at h
    refine PT.tuple (RsTy.parsesList ts h.2) ?_
    have : ∀ l : List RsTy, (RsTy.trees l).length = l.length := by
      intro l; induction l <;> simp_all [RsTy.trees]
    rw [this]; exact h.1
  | .stdNet n, h => by
    simp only [RsTy.Ok, IdOk] at h
    exact PT.abs [c!"std", c!"net", n] (by simp [RsTy.toks, h, nameToks]) (by simp)
  | .pathBuf, _ => PT.abs [c!"std", c!"path", c!"PathBuf"] rfl (by simp)
  | .path, _ => PT.abs [c!"std", c!"path", c!"Path"] rfl (by simp)
  | .bound n, h => by
    simp only [RsTy.Ok, IdOk] at h
    refine PT.gen [c!"pyo3"] c!"Bound" (as := _) ?_ (PG.life (PG.one (PT.abs [c!"pyo3", c!"types", n] rfl (by simp))) rfl)
    simp [RsTy.toks, h, nameToks]
  | .boundLocal p, h => by
    simp only [RsTy.Ok] at h
    refine PT.gen [c!"pyo3"] c!"Bound" (as := _) ?_ (PG.life (PG.one (Path.parses h)) ?_)
    · simp [RsTy.toks, nameToks]
    · obtain ⟨lc, segs⟩ := p
      obtain ⟨hne, hs⟩ := h
      cases lc with
      | true => simp [Path.toks, Bindgen.noGt]
      | false =>
        cases segs with
        | nil => exact absurd rfl hne
        | cons s l =>
          have h1 := (hs s (by simp)).1
          have : segToks (s :: l) = Tok.ident (lexTrim s.rs) :: (segToks (s :: l)).tail := by cases l <;> rfl
          simp only [Path.toks, Bool.false_eq_true, if_false, List.nil_append]
          rw [this]
          revert h1
          generalize hx : Tok.ident (lexTrim s.rs) = t
          intro h1
          unfold pSegName at h1
          split at h1 <;> first | rfl | cases h1
  | .boundNumpy, _ => by
    refine PT.gen [c!"pyo3"] c!"Bound" ?_ (PG.life (PG.comma (PT.gen [c!"numpy"] c!"PyArray" rfl
      (PG.more (PT.gen [c!"pyo3"] c!"Py" rfl (PG.one (PT.abs [c!"pyo3", c!"types", c!"PyAny"] rfl (by simp))))
        (PG.one (PT.abs [c!"numpy", c!"IxDyn"] rfl (by simp))) rfl))) rfl)
    rfl
  | .implIntoPy n, h => by
    simp only [RsTy.Ok, IdOk] at h
    refine PT.impl (ts := _) ?_ (PT.gen [c!"pyo3"] c!"IntoPy" ?_
      (PG.one (PT.gen [c!"pyo3"] c!"Py" rfl (PG.one (PT.abs [c!"pyo3", c!"types", n] rfl (by simp))))))
    · intro _ _ _; rfl
    · simp [h, nameToks]
  | .implIntoPyDict, _ =>
    PT.impl (fun _ _ _ => rfl) (PT.abs [c!"pyo3", c!"types", c!"IntoPyDict"] rfl (by simp))
/-- The same for lists. -/
theorem RsTy.parsesList : ∀ (ts : List RsTy), RsTy.OkList E ts → PC (RsTy.toksList ts) (RsTy.trees ts)
  | [], _ => ⟨0, 1, fun n hn k hk => by
      obtain ⟨k, rfl⟩ : ∃ j, k = j + 1 := ⟨k - 1, by omega⟩
      rfl⟩
  | [t], h => by
    simp only [RsTy.OkList] at h
    obtain ⟨N, ht⟩ := RsTy.parses t h.1
    refine ⟨N, 1, fun n hn k hk => ?_⟩
    obtain ⟨k, rfl⟩ : ∃ j, k = j + 1 := ⟨k - 1, by omega⟩
    have := (ht n hn [] rfl).1
    rw [List.append_nil] at this
    exact commas_one t.toks_ne this
  | t :: u :: ts, h => by
    simp only [RsTy.OkList] at h
    obtain ⟨N, ht⟩ := RsTy.parses t h.1
    obtain ⟨N', c, ih⟩ := RsTy.parsesList (u :: ts) (by simpa only [RsTy.OkList] using h.2)
    refine ⟨N + N', c + 1, fun n hn k hk => ?_⟩
    obtain ⟨k, rfl⟩ : ∃ j, k = j + 1 := ⟨k - 1, by omega⟩
    simp only [RsTy.toksList, List.append_assoc, List.cons_append, List.nil_append]
    rw [commas_more (by simp [t.toks_ne]) (ht n (by omega) (.p .comma :: RsTy.toksList (u :: ts)) rfl).1, ih n (by omega) k (by omega)]
    rfl
end

end Bindgen
