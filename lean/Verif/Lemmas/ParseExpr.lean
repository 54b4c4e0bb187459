import Verif.Lemmas.ParseType
/-!
# The tokens of a body are an expression
-/
namespace Bindgen
open Spec

/-- What may follow a path in an expression. -/
def stopP : List Tok → Bool
  | .p .colon2 :: _ => false
  | .p .lt :: _ => false
  | .p .bang :: _ => false
  | _ => true

/-- What may follow an expression. -/
def stopE : List Tok → Bool
  | [] => true
  | .p .comma :: _ => true
  | .p .semi :: _ => true
  | .group .brace _ :: _ => true
  | _ => false

theorem stopP_T {ts} (h : stopP ts = true) : stopT ts = true := by
  unfold stopP at h; unfold stopT
  split at h <;> simp_all

theorem stopE_P {ts} (h : stopE ts = true) : stopP ts = true := by
  unfold stopE at h
  split at h <;> simp_all [stopP]

/-- The tokens parse as this expression, and operators may follow. -/
def PU (ts : List Tok) (e : RExpr) : Prop :=
  ∃ N, ∀ n ≥ N, ∀ rest, stopP rest = true → pUnit n (pExpr n) (pType n) (ts ++ rest) = pPostfix n (pExpr n) e rest

/-- The tokens parse as this expression. -/
def PE (ts : List Tok) (e : RExpr) : Prop :=
  ∃ N, ∀ n ≥ N, ∀ rest, stopE rest = true → pExpr n (ts ++ rest) = some (e, rest)

/-- The tokens parse as these arguments. -/
def PA (ts : List Tok) (es : List RExpr) : Prop := ∃ N c, ∀ n ≥ N, ∀ k ≥ c, pCommas (pExpr n) k ts = some es

theorem PU.of_primary {ts e} (h : ∃ N, ∀ n ≥ N, ∀ rest, stopP rest = true → pPrimary n (pExpr n) (pType n) (ts ++ rest) = some (e, rest)) :
    PU ts e := by
  obtain ⟨N, h⟩ := h
  exact ⟨N, fun n hn rest hr => by rw [pUnit, h n hn rest hr]⟩

theorem PU.str (s : Str) : PU [.str s] (.str s) := PU.of_primary ⟨0, fun _ _ _ _ => rfl⟩
theorem PU.num (k : Nat) : PU [.num k] (.num k) := PU.of_primary ⟨0, fun _ _ _ _ => rfl⟩
theorem PU.unit : PU [.group .paren []] .unit := PU.of_primary ⟨0, fun _ _ _ _ => rfl⟩

theorem PU.array {ts es} (h : PA ts es) : PU [.group .bracket ts] (.array es) := by
  obtain ⟨N, c, h⟩ := h
  refine PU.of_primary ⟨N + c, fun n hn rest _ => ?_⟩
  simp only [List.cons_append, List.nil_append, pPrimary, h n (by omega) n (by omega)]
  rfl

theorem primary_path {n p pt ts g ss rest} (hs : ∀ n p pt rest, pPrimary n p pt (ts ++ rest) =
      match pPath n pt true (ts ++ rest) with
      | some ((g, ss), .p .bang :: .group .paren ts :: rest) => (pCommas p n ts).map (fun es => (.mac g ss es, rest))
      | some ((g, ss), rest) => some (.path g ss, rest)
      | none => none)
    (h : pPath n pt true (ts ++ rest) = some ((g, ss), rest)) (hr : stopP rest = true) :
    pPrimary n p pt (ts ++ rest) = some (.path g ss, rest) := by
  rw [hs, h]
  split
  · rename_i h; simp at h; obtain ⟨_, rfl⟩ := h; simp [stopP] at hr
  · rename_i h; simp at h; obtain ⟨⟨rfl, rfl⟩, rfl⟩ := h; rfl
  · simp_all

theorem PU.var (x : Str) : PU [.id x] (.path false (names [x])) := by
  refine PU.of_primary ⟨1, fun n hn rest hr => primary_path (fun _ _ _ _ => rfl) ?_ hr⟩
  obtain ⟨k, rfl⟩ : ∃ k, n = k + 1 := ⟨n - 1, by omega⟩
  simp only [List.cons_append, List.nil_append, pPath, segs_last (seg_id x) (stopP_T hr)]
  rfl

theorem PU.self : PU [.kw .self] (.path false (names [c!"self"])) := by
  refine PU.of_primary ⟨1, fun n hn rest hr => primary_path (fun _ _ _ _ => rfl) ?_ hr⟩
  obtain ⟨k, rfl⟩ : ∃ k, n = k + 1 := ⟨n - 1, by omega⟩
  have := segs_last (p := pType (k + 1)) (tb := true) (n := k) (t := .kw .self) rfl (stopP_T hr)
  simp only [List.cons_append, List.nil_append, pPath, this]
  rfl

theorem segs_more_turbo {n p s s' rest} :
    pSegs p true (n + 1) (.id s :: .p .colon2 :: .id s' :: rest) =
      (pSegs p true n (.id s' :: rest)).map (fun r => (RSeg.mk s [] :: r.1, r.2)) := by
  have : pArgs? n p true (.p .colon2 :: .id s' :: rest) = some ([], .p .colon2 :: .id s' :: rest) := by
    unfold pArgs?; split <;> simp_all
  simp only [pSegs, seg_id, this]
  cases pSegs p true n (.id s' :: rest) <;> rfl

theorem segs_args_turbo {n p s rest as rest'} (ha : pGeneric p n rest = some (as, .p .colon2 :: rest')) :
    pSegs p true (n + 1) (.id s :: .p .colon2 :: .p .lt :: rest) =
      (pSegs p true n rest').map (fun r => (RSeg.mk s as :: r.1, r.2)) := by
  have : pArgs? n p true (.p .colon2 :: .p .lt :: rest) = some (as, .p .colon2 :: rest') := by
    simp [pArgs?, ha]
  simp only [pSegs, seg_id, this]
  cases pSegs p true n rest' <;> rfl

theorem nameToks_cons (s u : Str) (l : List Str) : nameToks (s :: u :: l) = .id s :: .p .colon2 :: nameToks (u :: l) := rfl

theorem nameToks_head (s : Str) (l : List Str) : ∃ tl, nameToks (s :: l) = .id s :: tl := by
  cases l <;> exact ⟨_, rfl⟩

theorem segs_names_turbo {p} : ∀ {l : List Str} {n : Nat} {rest : List Tok}, l ≠ [] → l.length ≤ n →
    stopT rest = true → pSegs p true n (nameToks l ++ rest) = some (names l, rest)
  | [], _, _, hne, _, _ => absurd rfl hne
  | [s], n, rest, _, hn, h => by
    obtain ⟨k, rfl⟩ : ∃ k, n = k + 1 := ⟨n - 1, by simp at hn; omega⟩
    exact segs_last (seg_id s) h
  | s :: u :: l, n, rest, _, hn, h => by
    obtain ⟨k, rfl⟩ : ∃ k, n = k + 1 := ⟨n - 1, by simp at hn; omega⟩
    have ih := segs_names_turbo (p := p) (l := u :: l) (n := k) (rest := rest) (by simp) (by simp at hn ⊢; omega) h
    obtain ⟨tl, htl⟩ := nameToks_head u l
    rw [nameToks_cons]
    rw [htl] at ih ⊢
    simp only [List.cons_append] at ih ⊢
    rw [segs_more_turbo, ih]
    rfl

/-- An absolute path. -/
theorem PU.abs {ts : List Tok} (l : List Str) (e : ts = .p .colon2 :: nameToks l) (hne : l ≠ []) : PU ts (.path true (names l)) := by
  subst e
  refine PU.of_primary ⟨l.length, fun n hn rest hr => primary_path (fun _ _ _ _ => rfl) ?_ hr⟩
  simp only [List.cons_append, pPath_colon, segs_names_turbo hne hn (stopP_T hr)]
  rfl

/-- A macro. -/
theorem PU.mac {ts as : List Tok} {es} (l : List Str) (e : ts = .p .colon2 :: nameToks l ++ [.p .bang, .group .paren as]) (hne : l ≠ [])
    (h : PA as es) : PU ts (.mac true (names l) es) := by
  obtain ⟨N, c, h⟩ := h
  subst e
  refine PU.of_primary ⟨l.length + N + c, fun n hn rest hr => ?_⟩
  have e : Tok.p .colon2 :: nameToks l ++ [.p .bang, .group .paren as] ++ rest
      = .p .colon2 :: (nameToks l ++ .p .bang :: .group .paren as :: rest) := by simp
  rw [e]
  have h1 : pPath n (pType n) true (.p .colon2 :: (nameToks l ++ .p .bang :: .group .paren as :: rest)) =
      some ((true, names l), .p .bang :: .group .paren as :: rest) := by
    rw [pPath_colon, segs_names_turbo hne (by omega) rfl]; rfl
  simp only [pPrimary, h1, h n (by omega) n (by omega)]
  rfl

/-- A path with arguments in the middle. -/
theorem PU.turbo {ts as : List Tok} {args} (a b c : Str)
    (e : ts = .p .colon2 :: .id a :: .p .colon2 :: .id b :: .p .colon2 :: .p .lt :: as ++ [.p .gt, .p .colon2, .id c])
    (h : PG as args) : PU ts (.path true [.mk a [], .mk b args, .mk c []]) := by
  obtain ⟨N, d, h⟩ := h
  subst e
  refine PU.of_primary ⟨N + d + 3, fun n hn rest hr => primary_path (fun _ _ _ _ => rfl) ?_ hr⟩
  obtain ⟨k, rfl⟩ : ∃ k, n = k + 3 := ⟨n - 3, by omega⟩
  have e : Tok.p .colon2 :: .id a :: .p .colon2 :: .id b :: .p .colon2 :: .p .lt :: as ++ [.p .gt, .p .colon2, .id c] ++ rest
      = .p .colon2 :: .id a :: .p .colon2 :: .id b :: .p .colon2 :: .p .lt :: (as ++ .p .gt :: (.p .colon2 :: .id c :: rest)) := by simp
  rw [e, pPath_colon, segs_more_turbo, segs_args_turbo (h (k + 3) (by omega) (k + 1) (by omega) _), segs_last (seg_id c) (stopP_T hr)]
  rfl

/-- A call. -/
theorem PU.call {f e ts es} (hf : PU f e) (h : PA ts es) : PU (f ++ [.group .paren ts]) (.call e es) := by
  obtain ⟨N, hf⟩ := hf
  obtain ⟨N', c, h⟩ := h
  refine ⟨N + N' + c, fun n hn rest hr => ?_⟩
  rw [List.append_assoc, hf n (by omega) _ rfl]
  simp only [List.cons_append, List.nil_append, pPostfix, h n (by omega) n (by omega)]

/-- A method call. -/
theorem PU.method {f e ts es} (m : Str) (hf : PU f e) (h : PA ts es) :
    PU (f ++ [.p .dot, .id m, .group .paren ts]) (.method e m es) := by
  obtain ⟨N, hf⟩ := hf
  obtain ⟨N', c, h⟩ := h
  refine ⟨N + N' + c, fun n hn rest hr => ?_⟩
  rw [List.append_assoc, hf n (by omega) _ rfl]
  simp only [List.cons_append, List.nil_append, pPostfix, h n (by omega) n (by omega)]

/-- `e?` -/
theorem PU.try {f e} (hf : PU f e) : PU (f ++ [.p .question]) (.try e) := by
  obtain ⟨N, hf⟩ := hf
  refine ⟨N, fun n hn rest hr => ?_⟩
  rw [List.append_assoc, hf n (by omega) _ rfl]
  simp only [List.cons_append, List.nil_append, pPostfix]

/-- A primary expression does not start with these. -/
def startU : List Tok → Bool
  | [] => false
  | .p .amp :: _ => false
  | .p .bar :: _ => false
  | .kw .if :: _ => false
  | .kw .let :: _ => false
  | .kw .const :: _ => false
  | _ => true

theorem postfix_stop {n p e rest} (h : stopE rest = true) : pPostfix n p e rest = some (e, rest) := by
  unfold stopE at h
  split at h <;> simp_all [pPostfix]

theorem unary_start {n p pt ts rest} (h : startU ts = true) : pUnary n p pt (ts ++ rest) = pUnit n p pt (ts ++ rest) := by
  cases ts with
  | nil => simp [startU] at h
  | cons t ts =>
    simp only [List.cons_append]
    unfold pUnary
    split
    · rename_i h2; simp at h2; rw [h2.1] at h; simp [startU] at h
    · rfl

theorem exprStep_start {n p pt ts rest a} (h : startU ts = true ∨ ∃ us, ts = .p .amp :: us) (hr : stopE rest = true)
    (hu : pUnary n p pt (ts ++ rest) = some (a, rest)) : pExprStep n p pt (ts ++ rest) = some (a, rest) := by
  unfold pExprStep
  split
  · rename_i h2
    rcases h with h | ⟨us, rfl⟩
    · cases ts with
      | nil => simp [startU] at h
      | cons t ts => simp at h2; rw [h2.1] at h; simp [startU] at h
    · simp at h2
  · rename_i h2
    rcases h with h | ⟨us, rfl⟩
    · cases ts with
      | nil => simp [startU] at h
      | cons t ts => simp at h2; rw [h2.1] at h; simp [startU] at h
    · simp at h2
  · rw [hu]
    split
    · rename_i h2; simp at h2; rw [h2.2] at hr; simp [stopE] at hr
    · rfl

theorem PU.toPE {ts e} (hs : startU ts = true) (h : PU ts e) : PE ts e := by
  obtain ⟨N, h⟩ := h
  refine ⟨N + 1, fun n hn rest hr => ?_⟩
  obtain ⟨k, rfl⟩ : ∃ k, n = k + 1 := ⟨n - 1, by omega⟩
  rw [pExpr]
  refine exprStep_start (.inl hs) hr ?_
  rw [unary_start hs, h k (by omega) rest (stopE_P hr), postfix_stop hr]

theorem PE.ref {ts e} (h : PU ts e) : PE (.p .amp :: ts) (.ref e) := by
  obtain ⟨N, h⟩ := h
  refine ⟨N + 1, fun n hn rest hr => ?_⟩
  obtain ⟨k, rfl⟩ : ∃ k, n = k + 1 := ⟨n - 1, by omega⟩
  rw [pExpr]
  refine exprStep_start (.inr ⟨_, rfl⟩) hr ?_
  simp only [List.cons_append, pUnary, h k (by omega) rest (stopE_P hr), postfix_stop hr]
  rfl

theorem PE.closure (x : Str) {ts e} (h : PE ts e) : PE (.p .bar :: .id x :: .p .bar :: ts) (.closure x e) := by
  obtain ⟨N, h⟩ := h
  refine ⟨N + 1, fun n hn rest hr => ?_⟩
  obtain ⟨k, rfl⟩ : ∃ k, n = k + 1 := ⟨n - 1, by omega⟩
  simp only [pExpr, List.cons_append, pExprStep, h k (by omega) rest hr]
  rfl

theorem PE.add {ts ts' a b} (hs : startU ts = true) (hs' : startU ts' = true) (h : PU ts a) (h' : PU ts' b) :
    PE (ts ++ .p .plus :: ts') (.add a b) := by
  obtain ⟨N, h⟩ := h
  obtain ⟨N', h'⟩ := h'
  refine ⟨N + N' + 1, fun n hn rest hr => ?_⟩
  obtain ⟨k, rfl⟩ : ∃ k, n = k + 1 := ⟨n - 1, by omega⟩
  have h1 : pUnary k (pExpr k) (pType k) (ts ++ (.p .plus :: (ts' ++ rest))) = some (a, .p .plus :: (ts' ++ rest)) := by
    rw [unary_start hs, h k (by omega) _ rfl, pPostfix] <;> simp
  have h2 : pUnary k (pExpr k) (pType k) (ts' ++ rest) = some (b, rest) := by
    rw [unary_start hs', h' k (by omega) _ (stopE_P hr), postfix_stop hr]
  rw [pExpr, List.append_assoc, List.cons_append]
  unfold pExprStep
  split
  · rename_i h3
    cases ts with
    | nil => simp [startU] at hs
    | cons t ts => simp at h3; rw [h3.1] at hs; simp [startU] at hs
  · rename_i h3
    cases ts with
    | nil => simp [startU] at hs
    | cons t ts => simp at h3; rw [h3.1] at hs; simp [startU] at hs
  · simp only [h1, h2]

/-- The tokens are the inside of this block. -/
def PBl (ts : List Tok) (e : RExpr) : Prop := ∃ N, ∀ n ≥ N, pBlock n (pExpr n) (pType n) ts = some e

theorem PU.block {ts e} (h : PBl ts e) : PU [.group .brace ts] e := by
  obtain ⟨N, h⟩ := h
  refine PU.of_primary ⟨N, fun n hn rest _ => ?_⟩
  simp only [List.cons_append, List.nil_append, pPrimary, h n hn]
  rfl

theorem PE.ifLet (ctor x : Str) {ts e as a bs b} (h : PE ts e) (ha : PBl as a) (hb : PBl bs b) :
    PE (.kw .if :: .kw .let :: .id ctor :: .group .paren [.id x] :: .p .eq :: ts ++ [.group .brace as, .kw .else, .group .brace bs])
      (.ifLet ctor x e a b) := by
  obtain ⟨N, h⟩ := h
  obtain ⟨Na, ha⟩ := ha
  obtain ⟨Nb, hb⟩ := hb
  refine ⟨N + Na + Nb + 1, fun n hn rest hr => ?_⟩
  obtain ⟨k, rfl⟩ : ∃ k, n = k + 1 := ⟨n - 1, by omega⟩
  simp only [pExpr, List.cons_append, List.append_assoc, List.nil_append, pExprStep, h k (by omega) (.group .brace as :: _) rfl,
    ha k (by omega), hb k (by omega)]

/-! ## Arguments -/

theorem PA.nil : PA [] [] := ⟨0, 1, fun n _ k hk => by
  obtain ⟨k, rfl⟩ : ∃ j, k = j + 1 := ⟨k - 1, by omega⟩
  rfl⟩

theorem PA.one {ts e} (hne : ts ≠ []) (h : PE ts e) : PA ts [e] := by
  obtain ⟨N, h⟩ := h
  refine ⟨N, 1, fun n hn k hk => ?_⟩
  obtain ⟨k, rfl⟩ : ∃ j, k = j + 1 := ⟨k - 1, by omega⟩
  have := h n hn [] rfl
  rw [List.append_nil] at this
  exact commas_one hne this

theorem PA.more {ts e ts' es} (hne : ts ≠ []) (h : PE ts e) (h' : PA ts' es) : PA (ts ++ .p .comma :: ts') (e :: es) := by
  obtain ⟨N, h⟩ := h
  obtain ⟨N', c, h'⟩ := h'
  refine ⟨N + N', c + 1, fun n hn k hk => ?_⟩
  obtain ⟨k, rfl⟩ : ∃ j, k = j + 1 := ⟨k - 1, by omega⟩
  rw [commas_more (by simp [hne]) (h n (by omega) _ rfl), h' n (by omega) k (by omega)]
  rfl

/-! ## Statements -/

/-- The tokens are these statements. -/
def PS (ts : List Tok) (ss : List RStmt) : Prop :=
  ∃ N c, ∀ n ≥ N, ∀ k rest, pStmts (pExpr n) (pType n) (k + c) (ts ++ rest) =
    (pStmts (pExpr n) (pType n) k rest).map (fun r => (ss ++ r.1, r.2))

theorem PS.nil : PS [] [] := ⟨0, 0, fun n _ k rest => by
  simp only [List.nil_append, Nat.add_zero]
  cases pStmts (pExpr n) (pType n) k rest <;> rfl⟩

theorem PS.append {ts ss ts' ss'} (h : PS ts ss) (h' : PS ts' ss') : PS (ts ++ ts') (ss ++ ss') := by
  obtain ⟨N, c, h⟩ := h
  obtain ⟨N', c', h'⟩ := h'
  refine ⟨N + N', c' + c, fun n hn k rest => ?_⟩
  rw [List.append_assoc, ← Nat.add_assoc, h n (by omega), h' n (by omega)]
  cases pStmts (pExpr n) (pType n) k rest <;> simp

theorem PS.let {ts e} (x : Str) (h : PE ts e) : PS (.kw .let :: .id x :: .p .eq :: ts ++ [.p .semi]) [.let false x e] := by
  obtain ⟨N, h⟩ := h
  refine ⟨N, 1, fun n hn k rest => ?_⟩
  simp only [List.cons_append, List.append_assoc, List.nil_append, pStmts, h n hn (.p .semi :: rest) rfl]

theorem PS.letMut {ts e} (x : Str) (h : PE ts e) :
    PS (.kw .let :: .kw .mut :: .id x :: .p .eq :: ts ++ [.p .semi]) [.let true x e] := by
  obtain ⟨N, h⟩ := h
  refine ⟨N, 1, fun n hn k rest => ?_⟩
  simp only [List.cons_append, List.append_assoc, List.nil_append, pStmts, h n hn (.p .semi :: rest) rfl]

theorem PS.expr {ts e} (hs : startU ts = true) (h : PE ts e) : PS (ts ++ [.p .semi]) [.expr e] := by
  obtain ⟨N, h⟩ := h
  refine ⟨N, 1, fun n hn k rest => ?_⟩
  have h1 := h n hn (.p .semi :: rest) rfl
  cases ts with
  | nil => simp [startU] at hs
  | cons t ts =>
    simp only [List.cons_append, List.append_assoc, List.nil_append] at *
    rw [pStmts]
    · rw [h1]
    all_goals simp
    all_goals intros; subst_vars; simp [startU] at hs

/-- A block of statements and an expression. -/
theorem PBl.of {ts ss us e} (h : PS ts ss) (hs : startU us = true) (he : PE us e) : PBl (ts ++ us) (.block ss e) := by
  obtain ⟨N, c, h⟩ := h
  obtain ⟨N', he⟩ := he
  refine ⟨N + N' + c + 1, fun n hn => ?_⟩
  obtain ⟨k, rfl⟩ : ∃ k, n = (k + 1) + c := ⟨n - c - 1, by omega⟩
  have h1 := he (k + 1 + c) (by omega) [] rfl
  have h2 : pStmts (pExpr (k + 1 + c)) (pType (k + 1 + c)) (k + 1) us = some ([], e) := by
    rw [List.append_nil] at h1
    cases us with
    | nil => simp [startU] at hs
    | cons t ts =>
      rw [pStmts]
      · rw [h1]
      all_goals simp
      all_goals intros; subst_vars; simp [startU] at hs
  rw [pBlock, h _ (by omega), h2]
  simp

end Bindgen
