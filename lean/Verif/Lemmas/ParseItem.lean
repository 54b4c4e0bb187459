import Verif.Lemmas.ParseBody
/-!
# The tokens of emitted items are items
-/
namespace Bindgen
open Spec

variable {E : Env}

/-! ## Signatures -/

/-- The result type is legal. -/
def Ret.Ok (E : Env) : Ret → Prop
  | .ty t => t.Ok E
  | _ => True

/-- The identifiers and types of a signature are legal. -/
def Sig.Ok (E : Env) (s : Sig) : Prop :=
  IdOk E s.name ∧ (∀ p ∈ s.params, IdOk E p.1 ∧ p.2.Ok E) ∧ s.ret.Ok E ∧ (s.ret = .unit → s.params ≠ [])

/-- The tokens parse as this parameter. -/
def PP (ts : List Tok) (r : RParam) : Prop := ∃ N, ∀ n ≥ N, ∀ rest, stopT rest = true → pParam n (ts ++ rest) = some (r, rest)

theorem PP.typed (x : Str) {ts t} (h : PT ts t) : PP (.id x :: .p .colon :: ts) (.typed x t) := by
  obtain ⟨N, h⟩ := h
  refine ⟨N, fun n hn rest hr => ?_⟩
  simp only [List.cons_append, pParam, (h n hn rest hr).1]
  rfl

theorem Recv.parses : ∀ r : Recv, PP r.toks r.tree
  | .py => PP.typed c!"py" (PT.gen [c!"pyo3", c!"marker"] c!"Python" rfl (PG.one_life _))
  | .self => ⟨0, fun _ _ _ _ => rfl⟩

/-- The tokens parse as these parameters. -/
def PPs (ts : List Tok) (rs : List RParam) : Prop := ∃ N c, ∀ n ≥ N, ∀ k ≥ c, pCommas (pParam n) k ts = some rs

theorem PPs.nil : PPs [] [] := ⟨0, 1, fun n _ k hk => by
  obtain ⟨k, rfl⟩ : ∃ j, k = j + 1 := ⟨k - 1, by omega⟩
  rfl⟩

theorem PPs.one {ts r} (hne : ts ≠ []) (h : PP ts r) : PPs ts [r] := by
  obtain ⟨N, h⟩ := h
  refine ⟨N, 1, fun n hn k hk => ?_⟩
  obtain ⟨k, rfl⟩ : ∃ j, k = j + 1 := ⟨k - 1, by omega⟩
  have := h n hn [] rfl
  rw [List.append_nil] at this
  exact commas_one hne this

theorem PPs.more {ts r ts' rs} (hne : ts ≠ []) (h : PP ts r) (h' : PPs ts' rs) : PPs (ts ++ .p .comma :: ts') (r :: rs) := by
  obtain ⟨N, h⟩ := h
  obtain ⟨N', c, h'⟩ := h'
  refine ⟨N + N', c + 1, fun n hn k hk => ?_⟩
  obtain ⟨k, rfl⟩ : ∃ j, k = j + 1 := ⟨k - 1, by omega⟩
  rw [commas_more (by simp [hne]) (h n (by omega) _ rfl), h' n (by omega) k (by omega)]
  rfl

theorem params_parse : ∀ {ps : List (Str × RsTy)} (b : Bool), (∀ p ∈ ps, IdOk E p.1 ∧ p.2.Ok E) → (b = true → ps ≠ []) →
    PPs (paramToks ps ++ (if b then t!"," else [])) (ps.map (fun p => .typed p.1 p.2.tree))
  | [], false, _, _ => PPs.nil
  | [], true, _, h => absurd rfl (h rfl)
  | [(x, t)], b, h, _ => by
    obtain ⟨hx, ht⟩ := h (x, t) (by simp)
    have hx : Tok.ident x = .id x := hx.1
    have h1 := PP.typed x (RsTy.parses t ht)
    cases b with
    | false =>
      have := PPs.one (by simp) h1
      simp only [paramToks, hx, Bool.false_eq_true, if_false, List.append_nil]
      exact this
    | true =>
      have := PPs.more (by simp) h1 PPs.nil
      simp only [paramToks, hx, if_true]
      exact this
  | (x, t) :: q :: ps, b, h, _ => by
    obtain ⟨hx, ht⟩ := h (x, t) (by simp)
    have hx : Tok.ident x = .id x := hx.1
    have := PPs.more (by simp) (PP.typed x (RsTy.parses t ht))
      (params_parse (ps := q :: ps) b (fun p hp => h p (List.mem_cons_of_mem _ hp)) (fun _ => by simp))
    simp only [paramToks, hx, List.append_assoc, List.cons_append, List.nil_append, List.map_cons] at this ⊢
    exact this

theorem Ret.parses : ∀ {r : Ret}, r.Ok E → PT r.toks r.tree
  | .ty t, h => RsTy.parses t h
  | .selfBound, _ => by
    refine PT.gen [c!"pyo3"] c!"Bound" rfl (PG.life (PG.one (ts := [.kw .selfTy]) ?_) rfl)
    refine PT.path rfl (fun _ _ _ => rfl) ⟨1, fun n hn rest hr => ?_⟩
    obtain ⟨k, rfl⟩ : ∃ k, n = k + 1 := ⟨n - 1, by omega⟩
    have := segs_last (p := pType (k + 1)) (tb := false) (n := k) (t := .kw .selfTy) rfl hr
    simp only [List.cons_append, List.nil_append, pPathType, pPath, this]
    rfl
  | .unit, _ => PT.tuple ⟨0, 1, fun n _ k hk => by
      obtain ⟨k, rfl⟩ : ∃ j, k = j + 1 := ⟨k - 1, by omega⟩
      rfl⟩ (by simp)

/-- The tokens of a signature after `fn`. -/
def Sig.rest (s : Sig) : List Tok :=
  [Tok.ident s.name] ++ t!"<'py>" ++
    [.paren (s.recv.toks ++ t!"," ++ paramToks s.params ++ (if s.ret = .unit then t!"," else []))] ++
    t!"-> ::pyo3::PyResult<" ++ s.ret.toks ++ t!">"

theorem Sig.toks_eq (s : Sig) : s.toks = (if s.pub then [.kw .pub] else []) ++ .kw .fn :: s.rest := by
  simp only [Sig.toks, Sig.rest, List.append_assoc, List.cons_append, List.nil_append]

theorem Sig.parses {s : Sig} (h : s.Ok E) (pub : Bool) :
    ∃ N, ∀ n ≥ N, ∀ rest, stopT rest = true → pSig n pub (s.rest ++ rest) = some ({ s.tree with pub := pub }, rest) := by
  obtain ⟨hn, hp, hr, hu⟩ := h
  have hn : Tok.ident s.name = .id s.name := hn.1
  obtain ⟨N, c, h1⟩ := PPs.more (by cases s.recv <;> simp [Recv.toks]) (Recv.parses s.recv)
    (params_parse (decide (s.ret = .unit)) hp (by simpa using hu))
  obtain ⟨N', h2⟩ := PT.gen [c!"pyo3"] c!"PyResult" rfl (PG.one (Ret.parses hr))
  refine ⟨N + N' + c, fun n hN rest hrest => ?_⟩
  have h1 := h1 n (by omega) n (by omega)
  have h2 := (h2 n (by omega) rest hrest).1
  have e : s.rest ++ rest = .id s.name :: .p .lt :: .life c!"py" :: .p .gt ::
      .group .paren (s.recv.toks ++ .p .comma :: (paramToks s.params ++ (if decide (s.ret = .unit) then t!"," else []))) :: .p .arrow ::
      (Tok.p .colon2 :: nameToks ([c!"pyo3"] ++ [c!"PyResult"]) ++ .p .lt :: s.ret.toks ++ [.p .gt] ++ rest) := by
    simp only [Sig.rest, hn, decide_eq_true_eq, List.append_assoc, List.cons_append, List.nil_append]
    rfl
  rw [e]
  simp only [pSig, h1, h2]
  rfl

/-! ## Attributes -/

theorem attrs_doc {n rest} (d : Option Str) : pAttrs (n + 1) (docToks d ++ rest) =
    (pAttrs (n + 1) rest).map (fun r => (docTrees d ++ r.1, r.2)) := by
  cases d with
  | none =>
    simp only [docToks, List.nil_append, docTrees]
    cases pAttrs (n + 1) rest <;> rfl
  | some d =>
    have : pAttr (n + 1) ([.id c!"doc", .p .eq] ++ [.str d]) = some (attr c!"doc" [.p .eq, .str d]) := rfl
    simp only [docToks, List.cons_append, List.nil_append] at this ⊢
    simp only [pAttrs, this]
    cases pAttrs (n + 1) rest <;> rfl

theorem attrs_other {n ts rest a} (h : pAttr n ts = some a) : pAttrs n (.p .hash :: .group .bracket ts :: rest) =
    (pAttrs n rest).map (fun r => (a :: r.1, r.2)) := by
  simp only [pAttrs, h]
  cases pAttrs n rest <;> rfl

/-- Does not start with `#`. -/
def noHash : List Tok → Bool
  | .p .hash :: _ => false
  | _ => true

theorem attrs_none {n ts} (h : noHash ts = true) : pAttrs n ts = some ([], ts) := by
  unfold pAttrs
  split
  · simp [noHash] at h
  · rfl

/-! ## Functions -/

/-- The identifiers and types of a function are legal. -/
def Fn.Ok (E : Env) (f : Fn) : Prop := f.sig.Ok E ∧ (∀ xp ∈ f.pre, IdOk E xp.1) ∧ f.body.Ok E

theorem pres_parse : ∀ {l : List (Str × Pre)}, (∀ xp ∈ l, IdOk E xp.1) →
    PS (l.flatMap (fun (x, p) => preToks x p)) (l.flatMap (fun xp => preTree xp.1 xp.2))
  | [], _ => PS.nil
  | (x, p) :: l, h => by
    have := PS.append (pre_parses (h (x, p) (by simp)) p) (pres_parse (l := l) (fun xp hxp => h xp (by simp [hxp])))
    exact this

/-- The tokens of a body. -/
def Fn.bodyToks (f : Fn) : List Tok :=
  (if f.letPy then t!"let py = self.py();" else []) ++ f.pre.flatMap (fun (x, p) => preToks x p) ++ f.body.toks

theorem Fn.body_parses {f : Fn} (h : f.Ok E) : PBl f.bodyToks f.tree.body := by
  obtain ⟨hb, hs⟩ := Body.parses h.2.2
  refine PBl.of (PS.append ?_ (pres_parse h.2.1)) hs (PU.toPE hs hb)
  cases f.letPy with
  | false => exact PS.nil
  | true => exact PS.let c!"py" (PU.toPE rfl (PU.method (f := [.kw .self]) c!"py" PU.self PA.nil))

theorem Fn.rest_parses {f : Fn} (h : f.Ok E) (pub : Bool) :
    ∃ N, ∀ n ≥ N, ∀ docs rest, pFnRest n docs pub (f.sig.rest ++ .group .brace f.bodyToks :: rest) =
      some (⟨docs, { f.sig.tree with pub := pub }, f.tree.body⟩, rest) := by
  obtain ⟨N, h1⟩ := Sig.parses h.1 pub
  obtain ⟨N', h2⟩ := Fn.body_parses h
  refine ⟨N + N', fun n hn docs rest => ?_⟩
  simp only [pFnRest, h1 n (by omega) (.group .brace f.bodyToks :: rest) rfl, h2 n (by omega)]
  rfl

theorem Fn.toks_eq (f : Fn) (rest : List Tok) : f.toks ++ rest =
    docToks f.doc ++ ((if f.sig.pub then [.kw .pub] else []) ++ .kw .fn :: (f.sig.rest ++ .group .brace f.bodyToks :: rest)) := by
  simp only [Fn.toks, Fn.bodyToks, Sig.toks_eq, List.append_assoc, List.cons_append, List.nil_append]

theorem Fn.attrs (f : Fn) {n} (rest : List Tok) : pAttrs (n + 1) (f.toks ++ rest) =
    some (docTrees f.doc, (if f.sig.pub then [.kw .pub] else []) ++ .kw .fn :: (f.sig.rest ++ .group .brace f.bodyToks :: rest)) := by
  rw [Fn.toks_eq, attrs_doc, attrs_none]
  · simp
  · cases f.sig.pub <;> rfl

theorem Fn.vis (b : Bool) (ts : List Tok) : pVis ((if b then [.kw .pub] else []) ++ .kw .fn :: ts) = (b, .kw .fn :: ts) := by
  cases b <;> rfl

theorem Fn.parses {f : Fn} (h : f.Ok E) : ∃ N, ∀ n ≥ N, ∀ rest, pFn n (f.toks ++ rest) = some (f.tree, rest) := by
  obtain ⟨N, h1⟩ := Fn.rest_parses h f.sig.pub
  refine ⟨N + 1, fun n hn rest => ?_⟩
  obtain ⟨k, rfl⟩ : ∃ k, n = k + 1 := ⟨n - 1, by omega⟩
  simp only [pFn, Fn.attrs, Fn.vis, h1 (k + 1) (by omega)]
  rfl

theorem Fn.toks_ne (f : Fn) : f.toks ≠ [] := by
  have := Fn.toks_eq f []
  intro h
  rw [h] at this
  simp at this

/-- One after another. -/
def PM {α : Type} (p : Nat → Parser α) (ts : List Tok) (l : List α) : Prop :=
  ∃ N c, ∀ n ≥ N, ∀ k rest, pMany (p n) (k + c) (ts ++ rest) = (pMany (p n) k rest).map (l ++ ·)

theorem PM.nil {α} {p : Nat → Parser α} : PM p [] [] := ⟨0, 0, fun n _ k rest => by
  simp only [List.nil_append, Nat.add_zero]
  cases pMany (p n) k rest <;> rfl⟩

theorem PM.one {α} {p : Nat → Parser α} {ts a} (hne : ts ≠ []) (h : ∃ N, ∀ n ≥ N, ∀ rest, p n (ts ++ rest) = some (a, rest)) : PM p ts [a] := by
  obtain ⟨N, h⟩ := h
  refine ⟨N, 1, fun n hn k rest => ?_⟩
  have := h n hn rest
  cases ts with
  | nil => exact absurd rfl hne
  | cons t ts =>
    simp only [List.cons_append, pMany] at this ⊢
    simp only [this]
    rfl

theorem PM.append {α} {p : Nat → Parser α} {ts l ts' l'} (h : PM p ts l) (h' : PM p ts' l') : PM p (ts ++ ts') (l ++ l') := by
  obtain ⟨N, c, h⟩ := h
  obtain ⟨N', c', h'⟩ := h'
  refine ⟨N + N', c' + c, fun n hn k rest => ?_⟩
  rw [List.append_assoc, ← Nat.add_assoc, h n (by omega), h' n (by omega)]
  cases pMany (p n) k rest <;> simp

theorem PM.all {α} {p : Nat → Parser α} {ts l} (h : PM p ts l) : ∃ N, ∀ n ≥ N, pMany (p n) n ts = some l := by
  obtain ⟨N, c, h⟩ := h
  refine ⟨N + c + 1, fun n hn => ?_⟩
  have := h n (by omega) (n - c - 1 + 1) []
  rw [List.append_nil, show n - c - 1 + 1 + c = n by omega] at this
  rw [this]
  simp [pMany]

theorem fns_parse : ∀ {l : List Fn}, (∀ f ∈ l, f.Ok E) → PM pFn (l.flatMap Fn.toks) (l.map Fn.tree)
  | [], _ => PM.nil
  | f :: l, h => by
    have := PM.append (PM.one f.toks_ne (Fn.parses (h f (by simp)))) (fns_parse (l := l) (fun g hg => h g (by simp [hg])))
    exact this

theorem traitFn_parses {s : Sig} (h : s.Ok E) (hp : s.pub = false) :
    ∃ N, ∀ n ≥ N, ∀ rest, pTraitFn n ((s.toks ++ t!";") ++ rest) = some (s.tree, rest) := by
  obtain ⟨N, h1⟩ := Sig.parses h false
  refine ⟨N, fun n hn rest => ?_⟩
  simp only [Sig.toks_eq, hp, Bool.false_eq_true, if_false, List.nil_append, List.cons_append, List.append_assoc]
  simp only [pTraitFn, attrs_none (ts := .kw .fn :: _) rfl, h1 n hn (.p .semi :: rest) rfl]
  simp only [Sig.tree, hp]

theorem sigs_parse : ∀ {l : List Sig}, (∀ s ∈ l, s.Ok E ∧ s.pub = false) → PM pTraitFn (l.flatMap (fun s => s.toks ++ t!";")) (l.map Sig.tree)
  | [], _ => PM.nil
  | s :: l, h => by
    obtain ⟨hs, hp⟩ := h s (by simp)
    have := PM.append (PM.one (by simp) (traitFn_parses hs hp)) (sigs_parse (l := l) (fun g hg => h g (by simp [hg])))
    exact this

/-! ## Items -/

/-- The tokens parse as this item. -/
def PI (ts : List Tok) (i : RItem) : Prop := ∃ N, ∀ n ≥ N, ∀ rest, pItem n (ts ++ rest) = some (i, rest)

theorem PI.of {ts i} (h : ∃ N, ∀ n ≥ N, ∀ rest, pItemStep n (pItem n) (ts ++ rest) = some (i, rest)) : PI ts i := by
  obtain ⟨N, h⟩ := h
  refine ⟨N + 1, fun n hn rest => ?_⟩
  obtain ⟨k, rfl⟩ : ∃ k, n = k + 1 := ⟨n - 1, by omega⟩
  exact h k (by omega) rest

theorem PI.func {f : Fn} (h : f.Ok E) : PI f.toks (.fn f.tree) := by
  obtain ⟨N, h1⟩ := Fn.rest_parses h f.sig.pub
  refine PI.of ⟨N + 1, fun n hn rest => ?_⟩
  obtain ⟨k, rfl⟩ : ∃ k, n = k + 1 := ⟨n - 1, by omega⟩
  simp only [pItemStep, Fn.attrs, Fn.vis, h1 (k + 1) (by omega)]
  rfl

theorem PI.prop {f : Fn} (h : f.Ok E) (hd : f.doc = none) (hp : f.sig.pub = false) :
    PI (t!"pub" ++ f.toks) (.fn { f.tree with sig := { f.sig.tree with pub := true } }) := by
  obtain ⟨N, h1⟩ := Fn.rest_parses h true
  refine PI.of ⟨N, fun n hn rest => ?_⟩
  rw [List.append_assoc, Fn.toks_eq]
  simp only [hd, hp, docToks, Bool.false_eq_true, if_false, List.nil_append, List.cons_append]
  simp only [pItemStep, attrs_none (ts := .kw .pub :: _) rfl, pVis, h1 n hn]
  simp [Fn.tree, hd, docTrees]

/-- The identifiers and types of a class are legal. -/
def ClassItem.Ok (E : Env) (c : ClassItem) : Prop :=
  IdOk E c.name ∧ IdOk E c.traitName ∧ (∀ f ∈ c.inherent, f.Ok E) ∧ (∀ s ∈ c.traitSigs, s.Ok E ∧ s.pub = false) ∧ ∀ f ∈ c.traitImpls, f.Ok E

theorem PI.struct (d : Option Str) (x : Str) : PI (docToks d ++ t!"#[repr(transparent)] pub struct" ++ [.id x] ++ t!"(::pyo3::PyAny);")
    (.struct (docTrees d ++ [attr c!"repr" t!"(transparent)"]) true x [.path true (names [c!"pyo3", c!"PyAny"])]) := by
  refine PI.of ⟨6, fun n hn rest => ?_⟩
  obtain ⟨k, rfl⟩ : ∃ k, n = k + 6 := ⟨n - 6, by omega⟩
  simp only [List.append_assoc, List.cons_append, List.nil_append, pItemStep, attrs_doc]
  rw [attrs_other rfl, attrs_none (ts := .kw .pub :: _) rfl]
  simp only [Option.map_some, pVis]
  rfl

theorem PI.mac2 {ts : List Tok} (a b : Str) (body : List Tok)
    (e : ts = .p .colon2 :: .id a :: .p .colon2 :: .id b :: [.p .bang, .group .paren body, .p .semi]) :
    PI ts (.mac true (names [a, b]) body) := by
  subst e
  refine PI.of ⟨6, fun n hn rest => ?_⟩
  obtain ⟨k, rfl⟩ : ∃ k, n = k + 6 := ⟨n - 6, by omega⟩
  rfl

theorem PI.implSelf (x : Str) {ts fs} (h : PM pFn ts fs) :
    PI (t!"#[automatically_derived] impl" ++ [.id x] ++ [.brace ts]) (.impl [attr c!"automatically_derived" []] none (.path false (names [x])) fs) := by
  obtain ⟨N, h⟩ := h.all
  obtain ⟨N', h1⟩ := PT.name x
  refine PI.of ⟨N + N' + 2, fun n hn rest => ?_⟩
  have h1 := (h1 n (by omega) (.brace ts :: rest) rfl).1
  simp only [List.cons_append, List.nil_append] at h1 ⊢
  simp only [pItemStep]
  obtain ⟨k, rfl⟩ : ∃ k, n = k + 2 := ⟨n - 2, by omega⟩
  rw [attrs_other rfl, attrs_none (ts := .kw .impl :: _) rfl]
  simp only [Option.map_some, pVis, pImpl, h1, h (k + 2) (by omega)]
  rfl

theorem PI.implTrait (x y : Str) {ts fs} (h : PM pFn ts fs) :
    PI (t!"#[automatically_derived] impl" ++ [.id x] ++ t!"for ::pyo3::Bound<'_," ++ [.id y] ++ t!">" ++ [.brace ts])
      (.impl [attr c!"automatically_derived" []] (some (.path false (names [x]))) (gen true [c!"pyo3"] c!"Bound" [.life c!"_", .path false (names [y])]) fs) := by
  obtain ⟨N, h⟩ := h.all
  obtain ⟨N', h1⟩ := PT.name x
  obtain ⟨N2, h2⟩ := PT.gen (ts := t!"::pyo3::Bound<'_," ++ [.id y] ++ t!">") [c!"pyo3"] c!"Bound" rfl (PG.life (s := c!"_") (PG.one (PT.name y)) rfl)
  refine PI.of ⟨N + N' + N2 + 2, fun n hn rest => ?_⟩
  have h2 := (h2 n (by omega) (.brace ts :: rest) rfl).1
  have h1 := (h1 n (by omega) (.kw .for :: (t!"::pyo3::Bound<'_," ++ [.id y] ++ t!">" ++ .brace ts :: rest)) rfl).1
  simp only [List.cons_append, List.nil_append] at h1 h2 ⊢
  simp only [pItemStep]
  obtain ⟨k, rfl⟩ : ∃ k, n = k + 2 := ⟨n - 2, by omega⟩
  rw [attrs_other rfl, attrs_none (ts := .kw .impl :: _) rfl]
  simp only [Option.map_some, pVis, pImpl, h1, h2, h (k + 2) (by omega)]
  rfl

theorem PI.trait (d1 d2 d3 : Option Str) (x name : Str) {ts ss} (h : PM pTraitFn ts ss) :
    PI (docToks d1 ++ docToks d2 ++ docToks d3 ++
      t!"#" ++ [.bracket (t!"doc" ++ [.paren (t!"alias =" ++ [.str name])])] ++
      t!"#[automatically_derived] pub trait" ++ [.id x] ++ [.brace ts]) (.trait (docTrees d1 ++ docTrees d2 ++ docTrees d3 ++
      [attr c!"doc" [.paren (t!"alias =" ++ [.str name])], attr c!"automatically_derived" []]) true x ss) := by
  obtain ⟨N, h⟩ := h.all
  refine PI.of ⟨N + 2, fun n hn rest => ?_⟩
  simp only [List.append_assoc, List.cons_append, List.nil_append, pItemStep]
  obtain ⟨k, rfl⟩ : ∃ k, n = k + 2 := ⟨n - 2, by omega⟩
  rw [attrs_doc, attrs_doc, attrs_doc, attrs_other rfl, attrs_other rfl, attrs_none (ts := .kw .pub :: _) rfl]
  simp only [Option.map_some, pVis, h (k + 2) (by omega)]
  rfl

theorem PI.many {ts i} (hne : ts ≠ []) (h : PI ts i) : PM pItem ts [i] := PM.one hne h

theorem ClassItem.parses {c : ClassItem} (h : c.Ok E) : PM pItem c.toks c.trees := by
  obtain ⟨hn, ht, h1, h2, h3⟩ := h
  have hn : Tok.ident c.name = .id c.name := hn.1
  have ht : Tok.ident c.traitName = .id c.traitName := ht.1
  have s1 : PI c.structToks (.struct (docTrees c.doc ++ [attr c!"repr" t!"(transparent)"]) true c.name [.path true (names [c!"pyo3", c!"PyAny"])]) := by
    rw [ClassItem.structToks, hn]; exact PI.struct c.doc c.name
  have s2 : PI c.namedToks (.mac true (names [c!"pyo3", c!"pyobject_native_type_named"]) [.id c.name]) := by
    rw [ClassItem.namedToks, hn]; exact PI.mac2 c!"pyo3" c!"pyobject_native_type_named" [.id c.name] rfl
  have s3 : PI c.infoToks (.mac true (names [c!"pyo3", c!"pyobject_native_type_info"]) ([.id c.name] ++
      t!", ::pyo3::pyobject_native_static_type_object!(::pyo3::ffi::PyBaseObject_Type), ::std::option::Option::Some" ++
      [.paren [.str c.objName]])) := by
    rw [ClassItem.infoToks, hn]; exact PI.mac2 c!"pyo3" c!"pyobject_native_type_info" _ rfl
  have s4 : PI c.implToks (.impl [attr c!"automatically_derived" []] none (.path false (names [c.name])) (c.inherent.map Fn.tree)) := by
    rw [ClassItem.implToks, hn]; exact PI.implSelf c.name (fns_parse h1)
  have s5 : PI c.traitToks (.trait (docTrees (some traitDoc1) ++ docTrees (some traitDoc2) ++ docTrees (some traitDoc3) ++
      [attr c!"doc" [.paren (t!"alias =" ++ [.str c.name])], attr c!"automatically_derived" []]) true c.traitName (c.traitSigs.map Sig.tree)) := by
    rw [ClassItem.traitToks, ht, show methodsDoc1 = traitDoc1 from rfl, show methodsDoc2 = traitDoc2 from rfl, show methodsDoc3 = traitDoc3 from rfl]
    exact PI.trait (some traitDoc1) (some traitDoc2) (some traitDoc3) c.traitName c.name (sigs_parse h2)
  have s6 : PI c.traitImplToks (.impl [attr c!"automatically_derived" []] (some (.path false (names [c.traitName])))
     (gen true [c!"pyo3"] c!"Bound" [.life c!"_", .path false (names [c.name])]) (c.traitImpls.map Fn.tree)) := by
    rw [ClassItem.traitImplToks, hn, ht]; exact PI.implTrait c.traitName c.name (fns_parse h3)
  exact PM.append (PI.many (by simp [ClassItem.structToks]) s1)
    (PM.append (PI.many (by simp [ClassItem.namedToks]) s2)
    (PM.append (PI.many (by simp [ClassItem.infoToks]) s3)
    (PM.append (PI.many (by simp [ClassItem.implToks]) s4)
    (PM.append (PI.many (by simp [ClassItem.traitToks]) s5) (PI.many (by simp [ClassItem.traitImplToks]) s6)))))

theorem use_more {as pub g n acc t s rest} (h : pSegName t = some s) :
    pUseN as pub g (n + 1) acc (t :: .p .colon2 :: rest) = pUseN as pub g n (acc ++ [s]) rest := by
  unfold pSegName at h
  split at h <;> cases h <;> rfl

theorem use_end {as pub g n acc t s rest} (h : pSegName t = some s) :
    pUseN as pub g (n + 1) acc (t :: .p .semi :: rest) = some (.use as pub g (acc ++ [s]) none, rest) := by
  unfold pSegName at h
  split at h <;> cases h <;> rfl

theorem use_as {as pub g n acc t s a rest} (h : pSegName t = some s) :
    pUseN as pub g (n + 1) acc (t :: .kw .as :: .id a :: .p .semi :: rest) = some (.use as pub g (acc ++ [s]) (some a), rest) := by
  unfold pSegName at h
  split at h <;> cases h <;> rfl

/-- The tokens at the end of `use`. -/
def aliasToks : Option Str → List Tok
  | none => [.p .semi]
  | some a => [.kw .as, .id a, .p .semi]

theorem use_segs {as pub g a rest} : ∀ {l : List Ident} {n : Nat} {acc : List Str}, l ≠ [] → (∀ s ∈ l, SegOk E (lexTrim s.rs)) →
    l.length ≤ n → pUseN as pub g n acc (segToks l ++ (aliasToks a ++ rest)) = some (.use as pub g (acc ++ l.map (fun s => lexTrim s.rs)) a, rest)
  | [], _, _, hne, _, _ => absurd rfl hne
  | [s], n, acc, _, hs, hn => by
    obtain ⟨k, rfl⟩ : ∃ k, n = k + 1 := ⟨n - 1, by simp at hn; omega⟩
    have h1 : pSegName (Tok.ident (lexTrim s.rs)) = some (lexTrim s.rs) := (hs s (by simp)).1
    cases a with
    | none => exact use_end h1
    | some a => exact use_as h1
  | s :: u :: l, n, acc, _, hs, hn => by
    obtain ⟨k, rfl⟩ : ∃ k, n = k + 1 := ⟨n - 1, by simp at hn; omega⟩
    have h1 : pSegName (Tok.ident (lexTrim s.rs)) = some (lexTrim s.rs) := (hs s (by simp)).1
    have ih := use_segs (as := as) (pub := pub) (g := g) (a := a) (rest := rest) (l := u :: l) (n := k) (acc := acc ++ [lexTrim s.rs]) (by simp)
      (fun s h => hs s (List.mem_cons_of_mem _ h)) (by simp at hn ⊢; omega)
    simp only [segToks, List.cons_append, List.nil_append]
    rw [use_more h1, ih]
    simp

theorem PI.use {p : Path} (h : PathOk E p) (a : Option Str) :
    PI (t!"pub use" ++ p.toks ++ aliasToks a) (.use [] true p.leadingColon (p.segs.map (fun s => lexTrim s.rs)) a) := by
  obtain ⟨lc, segs⟩ := p
  obtain ⟨hne, hs⟩ := h
  simp only at hne hs
  refine PI.of ⟨segs.length, fun n hn rest => ?_⟩
  have h1 := use_segs (as := []) (pub := true) (g := lc) (a := a) (rest := rest) (acc := []) hne hs hn
  simp only [List.append_assoc, List.cons_append, List.nil_append, pItemStep]
  rw [attrs_none (ts := .kw .pub :: _) rfl]
  simp only [pVis, Path.toks]
  cases lc with
  | true => simpa only [if_true, List.cons_append, List.nil_append, pUse] using h1
  | false =>
    obtain ⟨s, l, rfl⟩ : ∃ s l, segs = s :: l := by cases segs <;> simp_all
    have hh : ∃ tl, segToks (s :: l) = Tok.ident (lexTrim s.rs) :: tl := by cases l <;> exact ⟨_, rfl⟩
    obtain ⟨tl, htl⟩ := hh
    have h2 : pSegName (Tok.ident (lexTrim s.rs)) = some (lexTrim s.rs) := (hs s (by simp)).1
    rw [htl] at h1
    simp only [Bool.false_eq_true, if_false, List.nil_append, htl, List.cons_append] at h1 ⊢
    rw [← h1]
    generalize Tok.ident (lexTrim s.rs) = t at h2
    unfold pSegName at h2
    split at h2 <;> first | rfl | cases h2

theorem idents_parse : ∀ {l : List Str}, (∀ x ∈ l, IdOk E x) →
    ∃ N, ∀ n ≥ N, pCommas pIdent n (l.flatMap (fun e => [Tok.ident e] ++ t!",")) = some l
  | [], _ => ⟨1, fun n hn => by
      obtain ⟨k, rfl⟩ : ∃ k, n = k + 1 := ⟨n - 1, by omega⟩
      rfl⟩
  | x :: l, h => by
    obtain ⟨N, ih⟩ := idents_parse (l := l) (fun y hy => h y (by simp [hy]))
    have hx : Tok.ident x = .id x := (h x (by simp)).1
    refine ⟨N + 1, fun n hn => ?_⟩
    obtain ⟨k, rfl⟩ : ∃ k, n = k + 1 := ⟨n - 1, by omega⟩
    simp only [List.flatMap_cons, hx, List.cons_append, List.nil_append]
    rw [commas_more (by simp) (a := x) (rest := l.flatMap (fun e => [Tok.ident e] ++ t!",")) rfl, ih k (by omega)]
    rfl

theorem PI.prelude {name : Str} {l : List Str} (h : ∀ x ∈ l, IdOk E x) :
    PI (t!"pub mod" ++ [.id name] ++ [.brace (t!"pub use super::" ++ [.brace (l.flatMap (fun e => [Tok.ident e] ++ t!","))] ++ t!";")])
      (.mod [] true name [.useGroup [] true false [c!"super"] l]) := by
  obtain ⟨N, h⟩ := idents_parse h
  have h1 : PI (t!"pub use super::" ++ [.brace (l.flatMap (fun e => [Tok.ident e] ++ t!","))] ++ t!";") (.useGroup [] true false [c!"super"] l) := by
    refine PI.of ⟨N + 3, fun n hn rest => ?_⟩
    obtain ⟨k, rfl⟩ : ∃ k, n = k + 2 := ⟨n - 2, by omega⟩
    simp only [List.cons_append, List.nil_append, pItemStep]
    rw [attrs_none (ts := .kw .pub :: _) rfl]
    simp only [pVis, pUse]
    rw [use_more (s := c!"super") rfl]
    have h := h k (by omega)
    simp only [List.cons_append, List.nil_append] at h
    simp only [pUseN, h]
    rfl
  obtain ⟨N', h2⟩ := (PI.many (by simp) h1).all
  refine PI.of ⟨N', fun n hn rest => ?_⟩
  have h2 := h2 n hn
  simp only [List.cons_append, List.nil_append, pItemStep] at h2 ⊢
  rw [attrs_none (ts := .kw .pub :: _) rfl]
  simp only [pVis, h2]
  rfl

theorem PI.typeAlias (x : Str) : PI (t!"pub type" ++ [.id x] ++ t!"= ::pyo3::types::PyAny;")
    (.typeAlias [] true x (.path true (names [c!"pyo3", c!"types", c!"PyAny"]))) := by
  obtain ⟨N, h⟩ := PT.abs (ts := t!"::pyo3::types::PyAny") [c!"pyo3", c!"types", c!"PyAny"] rfl (by simp)
  refine PI.of ⟨N, fun n hn rest => ?_⟩
  have h := (h n hn (.p .semi :: rest) rfl).1
  simp only [List.cons_append, List.nil_append, pItemStep] at h ⊢
  rw [attrs_none (ts := .kw .pub :: _) rfl]
  simp only [pVis, h]

theorem PI.embed (source name file : Str) : PI (embedToks source name file) (.fn (embedTree source name file)) := by
  refine PI.of ⟨20, fun n hn rest => ?_⟩
  obtain ⟨k, rfl⟩ : ∃ k, n = k + 20 := ⟨n - 20, by omega⟩
  rfl

mutual
/-- The names and types of an item are legal, and it is not a `pub` without anything. -/
def Item.Ok (E : Env) : Item → Prop
  | .use p a => PathOk E p ∧ ∀ x ∈ a, IdOk E x
  | .prelude n es => IdOk E n ∧ ∀ x ∈ es, IdOk E x
  | .typeAlias n => IdOk E n
  | .class c => c.Ok E
  | .func f => f.Ok E
  | .prop f => f.Ok E ∧ f.doc = none ∧ f.sig.pub = false
  | .strayPub => False
  | .embed _ _ _ => True
  | .mod _ _ n items => IdOk E n ∧ Item.OkList E items
/-- The same for all. -/
def Item.OkList (E : Env) : List Item → Prop
  | [] => True
  | i :: is => i.Ok E ∧ Item.OkList E is
end

theorem mod_attrs (k : Nat) (allow : Bool) (doc : Option Str) (x : Str) (ts rest : List Tok) :
    pAttrs (k + 5) ((if allow then allowToks else []) ++ docToks doc ++ t!"pub mod" ++ [.id x] ++ [.brace ts] ++ rest) =
      some ((if allow then lintAttr else []) ++ docTrees doc, [.kw .pub, .kw .mod, .id x, .brace ts] ++ rest) := by
  have h1 : pAttrs (k + 5) (docToks doc ++ (t!"pub mod" ++ [.id x] ++ [.brace ts] ++ rest)) =
      some (docTrees doc, [.kw .pub, .kw .mod, .id x, .brace ts] ++ rest) := by
    rw [attrs_doc, attrs_none rfl]
    simp
  cases allow with
  | false => simpa only [Bool.false_eq_true, if_false, List.nil_append, List.append_assoc] using h1
  | true =>
    simp only [if_true, allowToks, List.append_assoc, List.cons_append, List.nil_append] at h1 ⊢
    rw [attrs_other rfl, h1]
    rfl

theorem PI.mod (allow : Bool) (doc : Option Str) (x : Str) {ts l} (h : PM pItem ts l) :
    PI ((if allow then allowToks else []) ++ docToks doc ++ t!"pub mod" ++ [.id x] ++ [.brace ts]) (.mod ((if allow then lintAttr else []) ++ docTrees doc) true x l) := by
  obtain ⟨N, h⟩ := h.all
  refine PI.of ⟨N + 5, fun n hn rest => ?_⟩
  have h := h n (by omega)
  obtain ⟨k, rfl⟩ : ∃ k, n = k + 5 := ⟨n - 5, by omega⟩
  simp only [pItemStep, mod_attrs]
  simp only [List.cons_append, List.nil_append, pVis, h]
  rfl

mutual
/-- The tokens of an item parse as its trees. -/
theorem Item.parses : ∀ (i : Item), i.Ok E → PM pItem i.toks i.trees
  | .use p none, h => by
    simp only [Item.Ok] at h
    exact PI.many (by simp [Item.toks]) (PI.use h.1 none)
  | .use p (some a), h => by
    simp only [Item.Ok] at h
    have ha : Tok.ident a = .id a := (h.2 a rfl).1
    have := PI.use h.1 (some a)
    refine PI.many (by simp [Item.toks]) ?_
    simp only [Item.toks, ha, List.append_assoc, aliasToks, List.cons_append, List.nil_append] at this ⊢
    exact this
  | .prelude n es, h => by
    simp only [Item.Ok] at h
    have hn : Tok.ident n = .id n := h.1.1
    refine PI.many (by simp [Item.toks]) ?_
    rw [Item.toks, hn]
    exact PI.prelude h.2
  | .typeAlias n, h => by
    simp only [Item.Ok] at h
    have hn : Tok.ident n = .id n := h.1
    refine PI.many (by simp [Item.toks]) ?_
    rw [Item.toks, hn]
    exact PI.typeAlias n
  | .class c, h => by
    simp only [Item.Ok] at h
    simpa only [Item.toks, Item.trees] using ClassItem.parses h
  | .func f, h => by
    simp only [Item.Ok] at h
    refine PI.many (by rw [Item.toks]; exact f.toks_ne) ?_
    rw [Item.toks]
    exact PI.func h
  | .prop f, h => by
    simp only [Item.Ok] at h
    refine PI.many (by simp [Item.toks]) ?_
    rw [Item.toks]
    exact PI.prop h.1 h.2.1 h.2.2
  | .strayPub, h => by simp only [Item.Ok] at h
  | .embed s n f, _ => by
    refine PI.many (by simp [Item.toks, embedToks]) ?_
    rw [Item.toks]
    exact PI.embed s n f
  | .mod allow doc n items, h => by
    simp only [Item.Ok] at h
    have hn : Tok.ident n = .id n := h.1.1
    refine PI.many (by simp [Item.toks]) ?_
    rw [Item.toks, hn]
    exact PI.mod allow doc n (Item.parsesList items h.2)
/-- The same for lists. -/
theorem Item.parsesList : ∀ (is : List Item), Item.OkList E is → PM pItem (Item.toksList is) (Item.treesList is)
  | [], _ => PM.nil
  | i :: is, h => by
    simp only [Item.OkList] at h
    exact PM.append (Item.parses i h.1) (Item.parsesList is h.2)
end

/-- Legal items are a file. -/
theorem parses_ok {is : List Item} (h : Item.OkList E is) : Parses (Item.toksList is) (Item.treesList is) :=
  (Item.parsesList is h).all

end Bindgen
