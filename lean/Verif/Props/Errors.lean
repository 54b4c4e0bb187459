import Verif.Lemmas.Effects
import Verif.Props.Eval
/-!
# C81: exceptions of Python reach the Rust caller

`Spec/Effects.lean` evaluates the Rust code of the bindings with an interpreter that may raise an exception at every step. C66 is about
interpreters that raise none.
-/
namespace Bindgen
open Spec

/-- No exception is raised while these steps are taken one after the other. -/
def Spec.Fine (A : Answers) (steps : List Step) : Prop := ∀ p s q, steps = p ++ s :: q → A p s = none

/-- A call of a Rust function with a receiver (or the token) and these arguments. -/
def Spec.performs (g : RFn) (A : Answers) (recv : Recv) (args : List PyVal) : List Step × Option (Except Exc RVal) :=
  g.perform A (recv.val :: args.map .val)

theorem walk_fine {A : Answers} {S : List Step} : ∀ {tr : List Step}, (∀ p s q, S = p ++ s :: q → A (tr ++ p) s = none) →
    walk A tr S = (tr ++ S, none) := by
  induction S with
  | nil => intro tr _; simp [walk]
  | cons s S ih =>
    intro tr h
    have h0 : A tr s = none := by simpa using h [] s S rfl
    rw [walk, h0]
    simp only
    rw [ih (tr := tr ++ [s]) (fun p s' q hS => by simpa using h (s :: p) s' q (by rw [hS]; rfl))]
    simp

theorem walk_stop {A : Answers} {p q : List Step} {s : Step} {x : Exc} (hp : Fine A p) (hs : A p s = some x) :
    walk A [] (p ++ s :: q) = (p ++ [s], some x) := by
  rw [walk_append, walk_fine (tr := []) (fun a s b h => by simpa using hp a s b h)]
  simp only [List.nil_append, walk, hs]

theorem fine_left {A : Answers} {p q : List Step} (h : Fine A (p ++ q)) : Fine A p :=
  fun a s b e => h a s (b ++ q) (by rw [e]; simp)

theorem fine_right {A : Answers} {p q : List Step} (h : Fine A (p ++ q)) : ∀ a s b, q = a ++ s :: b → A (p ++ a) s = none :=
  fun a s b e => h (p ++ a) s b (by rw [e]; simp)

theorem stored_fine {A : Answers} {es : List (Str × PyVal)} : ∀ {tr : List Step} {d : List (Str × PyVal)},
    (∀ p s q, es.map (fun e => Step.setItem e.1 e.2) = p ++ s :: q → A (tr ++ p) s = none) →
    stored A tr d es = (tr ++ es.map (fun e => .setItem e.1 e.2), putAll d es) := by
  induction es with
  | nil => intro tr d _; simp [stored, putAll]
  | cons e es ih =>
    intro tr d h
    have h0 : A tr (.setItem e.1 e.2) = none := by simpa using h [] (.setItem e.1 e.2) (es.map (fun e => .setItem e.1 e.2)) rfl
    rw [stored, h0]
    simp only
    rw [ih (fun p s' q hS => by simpa using h (.setItem e.1 e.2 :: p) s' q (by rw [List.map_cons, hS]; rfl))]
    simp [putAll]

theorem conduct_fine {A : Answers} {d es : List (Str × PyVal)} {r : Request} (hr : r.kwargs = putAll d es) (h : Fine A (stepsFor es r)) :
    conduct A d es r = (stepsFor es r, .ok r) := by
  cases r with
  | call o m a k =>
    obtain rfl : k = putAll d es := hr
    have h1 := fine_left h
    have hw : walk A [] (reach o) = (reach o, none) := walk_fine (tr := []) (fun p s q e => by simpa using fine_left h1 p s q e)
    simp only [conduct, hw]
    rw [stored_fine (fine_right h1)]
    simp only [taking]
    rw [walk_fine (fine_right h)]
    simp only [stepsFor]
  | get o n => simp only [conduct, taking]; rw [walk_fine (tr := []) (fun p s q e => by simpa using h p s q e)]; rfl
  | set o n v => simp only [conduct, taking]; rw [walk_fine (tr := []) (fun p s q e => by simpa using h p s q e)]; rfl

theorem append_split {p q a b : List Step} {s : Step} (h : p ++ s :: q = a ++ b) :
    (∃ r, a = p ++ s :: r) ∨ ∃ p', p = a ++ p' ∧ p' ++ s :: q = b := by
  rcases List.append_eq_append_iff.1 h with ⟨c, rfl, hb⟩ | ⟨c, rfl, hb⟩
  · cases c with
    | nil => exact .inr ⟨[], by simp, by simpa using hb⟩
    | cons t c => cases hb; exact .inl ⟨c, rfl⟩
  · exact .inr ⟨c, rfl, hb.symm⟩

theorem conduct_stop {A : Answers} {d es : List (Str × PyVal)} {r : Request} (hr : r.kwargs = putAll d es) {p q : List Step} {s : Step} {x : Exc}
    (h : stepsFor es r = p ++ s :: q) (hp : Fine A p) (hs : A p s = some x) (hn : ∀ k v, s ≠ .setItem k v) :
    conduct A d es r = (p ++ [s], .error x) := by
  cases r with
  | call o m a k =>
    obtain rfl : k = putAll d es := hr
    rw [stepsFor, List.append_assoc] at h
    rcases append_split h.symm with ⟨r, h'⟩ | ⟨p', rfl, h'⟩
    · simp only [conduct, h']
      rw [walk_stop hp hs]
    · have hw : walk A [] (reach o) = (reach o, none) := walk_fine (tr := []) (fun p s q e => by simpa using fine_left hp p s q e)
      rcases append_split h' with ⟨r, h''⟩ | ⟨p'', rfl, h''⟩
      · have : s ∈ es.map (fun e => Step.setItem e.1 e.2) := by rw [h'']; simp
        obtain ⟨e, -, rfl⟩ := List.mem_map.1 this
        exact absurd rfl (hn _ _)
      · rw [← List.append_assoc] at hp hs ⊢
        simp only [conduct, hw]
        rw [stored_fine (fine_right (fine_left hp))]
        simp only [taking]
        have : walk A (reach o ++ es.map (fun e => .setItem e.1 e.2)) [.call (.call o m a (putAll d es)), .extract (.call o m a (putAll d es))] =
            (reach o ++ es.map (fun e => .setItem e.1 e.2) ++ p'' ++ [s], some x) := by
          rw [← h'', walk_append, walk_fine (fine_right hp)]
          simp only [walk, hs]
        rw [this]
  | get o n => simp only [conduct, taking]; rw [show stepsFor [] (.get o n) = p ++ s :: q from h, walk_stop hp hs]
  | set o n v => simp only [conduct, taking]; rw [show stepsFor [] (.set o n v) = p ++ s :: q from h, walk_stop hp hs]

/-- **C81** (outcome): whatever exceptions Python raises, a call of a generated function that asks for `r` reaches the object, stores the keyword
arguments `es`, asks and converts, in this order. The call returns the first exception, and asks for nothing after it; but exceptions while the
keyword arguments are stored are ignored, and these arguments are left out. -/
theorem C81_outcome (E : Env) (W : World) (fuel : Nat) (c : Codegen) (items : List Item) (h : c.generate E W fuel = .ok items) (f : Fn)
    (hf : EmittedFn f items) (args : List PyVal) (r : Request) (hr : run f args = some r) :
    ∃ d es, r.kwargs = putAll d es ∧ es.map Prod.fst = keysOf f.body ∧ ∀ A, performs f.tree A f.sig.recv args = ((conduct A d es r).1, some ((conduct A d es r).2.map .done)) :=
  perform_fn (generated_sane h hf) args hr

/-- Every exception reaches the caller, except while keyword arguments are stored. -/
def Spec.Reports (g : RFn) (recv : Recv) (args : List PyVal) (r : Request) (steps : List Step) : Prop :=
  ∀ A, (Fine A steps → performs g A recv args = (steps, some (.ok (.done r)))) ∧
    ∀ p s q x, steps = p ++ s :: q → Fine A p → A p s = some x → (∀ k v, s ≠ .setItem k v) → performs g A recv args = (p ++ [s], some (.error x))

theorem setItem_keeps {d : List (Str × PyVal)} {k : Str} {v : PyVal} : k ∈ (setItem d k v).map Prod.fst ∧
    ∀ k' ∈ d.map Prod.fst, k' ∈ (setItem d k v).map Prod.fst := by
  induction d with
  | nil => simp [setItem]
  | cons e d ih =>
    rw [setItem]
    split
    · next h => subst h; simp
    · simp only [List.map_cons, List.mem_cons]
      exact ⟨.inr ih.1, fun k' hk' => hk'.imp id (ih.2 k')⟩

theorem keys_putAll {es : List (Str × PyVal)} : ∀ {d : List (Str × PyVal)}, (∀ k ∈ d.map Prod.fst, k ∈ (putAll d es).map Prod.fst) ∧
    ∀ e ∈ es, e.1 ∈ (putAll d es).map Prod.fst := by
  induction es with
  | nil => intro d; exact ⟨fun _ h => h, by simp⟩
  | cons e es ih =>
    intro d
    have ih := ih (d := setItem d e.1 e.2)
    refine ⟨fun k hk => ih.1 k (setItem_keeps.2 k hk), fun e' he' => ?_⟩
    rcases List.mem_cons.1 he' with rfl | he'
    · exact ih.1 _ setItem_keeps.1
    · exact ih.2 e' he'

theorem reports_of {g : RFn} {recv : Recv} {args : List PyVal} {r : Request} {d es : List (Str × PyVal)} (hr : r.kwargs = putAll d es)
    (h : ∀ A, performs g A recv args = ((conduct A d es r).1, some ((conduct A d es r).2.map .done))) :
    Reports g recv args r (stepsFor es r) := by
  intro A
  refine ⟨fun hA => ?_, fun p s q x he hp hs hn => ?_⟩
  · rw [h A, conduct_fine hr hA]; rfl
  · rw [h A, conduct_stop hr he hp hs hn]; rfl

/-- **C81** (partial): every call of a generated function takes the steps that its request needs. If Python raises no exception, it returns the
converted result; the first exception is returned to the caller, and nothing is asked for afterwards. Missing: an exception while a keyword argument
is stored in the dictionary is dropped, and the call is made without this argument: `C81_dropped_counterexample`. -/
theorem C81_errors_partial (E : Env) (W : World) (fuel : Nat) (c : Codegen) (items : List Item) (h : c.generate E W fuel = .ok items) (f : Fn)
    (hf : EmittedFn f items) (args : List PyVal) (r : Request) (hr : run f args = some r) :
    ∃ es, es.map Prod.fst = keysOf f.body ∧ (∀ e ∈ es, e.1 ∈ r.kwargs.map Prod.fst) ∧ Reports f.tree f.sig.recv args r (stepsFor es r) := by
  obtain ⟨d, es, hd, hk, hp⟩ := C81_outcome E W fuel c items h f hf args r hr
  exact ⟨es, hk, fun e he => by rw [hd]; exact keys_putAll.2 e he, reports_of hd hp⟩

/-- Every exception reaches the caller. -/
def Spec.ReportsAll (g : RFn) (recv : Recv) (args : List PyVal) (r : Request) (steps : List Step) : Prop :=
  ∀ A, (Fine A steps → performs g A recv args = (steps, some (.ok (.done r)))) ∧
    ∀ p s q x, steps = p ++ s :: q → Fine A p → A p s = some x → performs g A recv args = (p ++ [s], some (.error x))

theorem no_setItem_reach (o : Obj) (k : Str) (v : PyVal) : Step.setItem k v ∉ reach o := by
  induction o with
  | self => simp [reach]
  | «import» pkg => simp [reach]
  | getattr o n ih => simp [reach, ih]

theorem reportsAll_nil {g : RFn} {recv : Recv} {args : List PyVal} {r : Request} (h : Reports g recv args r (stepsFor [] r)) :
    ReportsAll g recv args r (stepsFor [] r) := by
  refine fun A => ⟨(h A).1, fun p s q x hs hp hx => (h A).2 p s q x hs hp hx ?_⟩
  rintro k v rfl
  have hm : Step.setItem k v ∈ stepsFor [] r := by rw [hs]; simp
  cases r <;> simp [stepsFor, no_setItem_reach] at hm

/-- **C81** (no stored keyword arguments): all exceptions reach the callers of functions that store no keyword arguments one by one, for example of
the accessors of attributes. -/
theorem C81_no_keywords (E : Env) (W : World) (fuel : Nat) (c : Codegen) (items : List Item) (h : c.generate E W fuel = .ok items) (f : Fn)
    (hf : EmittedFn f items) (args : List PyVal) (r : Request) (hr : run f args = some r) (hk : keysOf f.body = []) :
    ReportsAll f.tree f.sig.recv args r (stepsFor [] r) := by
  obtain ⟨es, he, -, hrep⟩ := C81_errors_partial E W fuel c items h f hf args r hr
  rw [hk] at he
  obtain rfl : es = [] := List.map_eq_nil_iff.1 he
  exact reportsAll_nil hrep

/-- The stored keyword arguments of a function are those of its keyword-only parameters. -/
theorem keys_function {E : Env} {cfg : Config} {imp : Str → Bool} {taken : List Ident} {lt : LocalTypes} {f : Function} {r : FnImpl}
    (h : f.generate E cfg imp taken lt = .ok r) {fn : Fn} (hfn : fn ∈ fnsOf r) :
    keysOf fn.body = (f.params.filter (fun p => p.kind = .keywordOnly)).map (fun p => p.name.asPy) := by
  obtain ⟨name, ident, idents, pres, types, ret, sig, obj, pos, kw, -, -, -, -, -, -, -, -, -, h8, rfl, -⟩ := generate_fn h hfn
  unfold keywordArgs at h8
  obtain ⟨xs, hx, h8⟩ := Res.bind_ok h8
  have hl := Res.traverse_length hx
  have hz : (((f.params.filter (fun p => p.kind = .keywordOnly)).map (fun p => p.name.asPy)).zip xs).map Prod.fst =
      (f.params.filter (fun p => p.kind = .keywordOnly)).map (fun p => p.name.asPy) :=
    List.map_fst_zip (by rw [List.length_map, hl])
  have hnil : xs.isEmpty = true → (f.params.filter (fun p => p.kind = .keywordOnly)).map (fun p => p.name.asPy) = [] := by
    intro he
    rw [List.isEmpty_iff.1 he] at hl
    rw [List.length_eq_zero_iff.1 hl.symm]; rfl
  cases h8
  generalize (f.params.find? (fun p => p.kind = .varKeyword)).bind (fun p => (Ident.fromPy E (c!"p_" ++ p.name.asPy)).toSyn E) = x?
  obtain he | he := Bool.eq_false_or_eq_true xs.isEmpty
  · rw [hnil he, he]
    cases x? <;> rfl
  · rw [he]
    cases x? <;> exact hz

theorem lost_of_keys {g : RFn} {recv : Recv} {args : List PyVal} {r : Request} {d es : List (Str × PyVal)} (hr : r.kwargs = putAll d es)
    (h : ∀ A, performs g A recv args = ((conduct A d es r).1, some ((conduct A d es r).2.map .done)))
    (hall : ReportsAll g recv args r (stepsFor es r)) : es = [] := by
  cases es with
  | nil => rfl
  | cons e es =>
    have hk : e.1 ∈ r.kwargs.map Prod.fst := by rw [hr]; exact keys_putAll.2 e (by simp)
    cases r with
    | get o n => cases hk
    | set o n v => cases hk
    | call o m a k =>
      exfalso
      let A : Answers := fun _ s => match s with | .setItem _ _ => some [] | _ => none
      have hA : ∀ tr s, (∀ k v, s ≠ .setItem k v) → A tr s = none := by
        intro tr s hs
        cases s <;> first | rfl | exact absurd rfl (hs _ _)
      have hf : Fine A (reach o) := by
        intro p s q hs
        refine hA p s ?_
        rintro k v rfl
        exact no_setItem_reach o k v (by rw [hs]; simp)
      have h1 := (hall A).2 (reach o) (.setItem e.1 e.2) _ [] (by simp only [stepsFor, List.map_cons, List.append_assoc, List.cons_append]; rfl) hf rfl
      have h2 := h A
      have hw : walk A [] (reach o) = (reach o, none) := walk_fine (tr := []) (fun p s q e => by simpa using hf p s q e)
      rw [h1] at h2
      simp only [conduct, hw, taking, walk] at h2
      have h3 := congrArg Prod.snd h2
      cases h3

/-- **C81** (exactly when): for a function that is generated for a Python callable, all exceptions reach the caller if and only if the callable has no
keyword-only parameters. -/
theorem C81_exact {E : Env} {cfg : Config} {imp : Str → Bool} {taken : List Ident} {lt : LocalTypes} {f : Function} {i : FnImpl}
    (h : f.generate E cfg imp taken lt = .ok i) {fn : Fn} (hfn : fn ∈ fnsOf i) {args : List PyVal} {r : Request} (hr : run fn args = some r) :
    ∃ es, es.map Prod.fst = (f.params.filter (fun p => p.kind = .keywordOnly)).map (fun p => p.name.asPy) ∧
      Reports fn.tree fn.sig.recv args r (stepsFor es r) ∧
      (ReportsAll fn.tree fn.sig.recv args r (stepsFor es r) ↔ ∀ p ∈ f.params, p.kind ≠ .keywordOnly) := by
  obtain ⟨d, es, hd, hk, hp⟩ := perform_fn (function_sane h hfn) args hr
  rw [keys_function h hfn] at hk
  refine ⟨es, hk, reports_of hd hp, fun hall p hpm hkind => ?_, fun hno => ?_⟩
  · rw [lost_of_keys hd hp hall] at hk
    have : p ∈ f.params.filter (fun p => p.kind = .keywordOnly) := by simp [hpm, hkind]
    rw [List.map_eq_nil_iff.1 hk.symm] at this
    cases this
  · obtain rfl : es = [] := by
      have : f.params.filter (fun p => p.kind = .keywordOnly) = [] := by
        rw [List.filter_eq_nil_iff]
        intro p hpm hd
        exact hno p hpm (by simpa using hd)
      rw [this] at hk
      exact List.map_eq_nil_iff.1 hk
    exact reportsAll_nil (reports_of hd hp)

/-- **C81** (partial, files): the same for the functions of the Rust file that the generated tokens are. Missing: as in `C81_errors_partial`. -/
theorem C81_file_partial (E : Env) (W : World) (fuel : Nat) (cfg : Config) (srcs : List (Str × Str)) (c : Codegen) (items : List Item)
    (hb : Built E W fuel cfg srcs c) (h : c.generate E W fuel = .ok items) (hs : ¬ Within .strayPub items) :
    ∃ file, Parses (Item.toksList items) file ∧ ∀ g, InFile g file → (∃ s n p, g = embedTree s n p) ∨
      ∃ f, EmittedFn f items ∧ FileTree g f ∧ ∀ args r, Makes g f.sig.recv args (some r) →
        ∃ es, es.map Prod.fst = keysOf f.body ∧ (∀ e ∈ es, e.1 ∈ r.kwargs.map Prod.fst) ∧ Reports g f.sig.recv args r (stepsFor es r) := by
  obtain ⟨file, hp, hf, -⟩ := C66_file E W fuel cfg srcs c items hb h hs
  refine ⟨file, hp, fun g hg => ?_⟩
  rcases hf g hg with hg | ⟨f, he, ht, hm⟩
  · exact .inl hg
  · refine .inr ⟨f, he, ht, fun args r hr => ?_⟩
    have hrun : run f args = some r := by
      have h1 := hm args
      rw [Makes] at h1 hr
      rw [hr] at h1
      cases hx : run f args with
      | none => rw [hx] at h1; cases h1
      | some r' => rw [hx] at h1; cases h1; rfl
    obtain ⟨es, h0, h1, h2⟩ := C81_errors_partial E W fuel c items h f he args r hrun
    refine ⟨es, h0, h1, ?_⟩
    rcases ht with rfl | rfl
    · exact h2
    · exact h2

/-- The steps that embed a source. -/
def Spec.embedSteps (source name file : Str) : List Step :=
  [.import c!"sys", .getattr (.import c!"sys") c!"modules", .module source file name, .store (.getattr (.import c!"sys") c!"modules") name]

theorem go_relIntern {A : Answers} {vs : RVars} {tr : List Step} {n : Str} (hpy : vs.lookup c!"py" = some .py) :
    goAll A vs tr [.mac false (names [c!"pyo3", c!"intern"]) [var c!"py", .str n]] = (tr, .ok [.str n]) := by
  rw [goAll, go, silentAll_goAll (l := [.py, .str n]) (silent_two (silent_var _) (silent_str n)) (by simp only [evalAll, eval_var, hpy, eval])]
  simp only [goAll]
  rfl

/-- The body of a function that embeds a source. -/
theorem go_embed {A : Answers} {vs : RVars} {source name file : Str} (hpy : vs.lookup c!"py" = some .py)
    (hsrc : vs.lookup c!"SOURCE_CODE" = some (.str source)) :
    Ends (go A vs [] (.call (.path false (names [c!"pyo3", c!"types", c!"PyAnyMethods", c!"set_item"]))
      [.ref (.try (.call (.path false (names [c!"pyo3", c!"types", c!"PyAnyMethods", c!"getattr"]))
        [.method (.try (.method (var c!"py") c!"import_bound" [.mac false (names [c!"pyo3", c!"intern"]) [var c!"py", .str c!"sys"]]))
          c!"as_any" [], .mac false (names [c!"pyo3", c!"intern"]) [var c!"py", .str c!"modules"]])),
       .str name,
       .try (.call (.path false (names [c!"pyo3", c!"types", c!"PyModule", c!"from_code_bound"]))
        [var c!"py", var c!"SOURCE_CODE", .str file, .str name])]))
      (reached (walk A [] (embedSteps source name file))
        (.stored (.getattr (.import c!"sys") c!"modules") name (.module source file name))) := by
  have h1 : go A vs [] (.try (.method (var c!"py") c!"import_bound" [.mac false (names [c!"pyo3", c!"intern"]) [var c!"py", .str c!"sys"]])) =
      tried (asked A [] (.import c!"sys") (.obj (.import c!"sys"))) := by
    refine go_try ?_
    rw [go_method _ _ _ (by intro _ _ h; cases h), silent_var _ A vs [] .py hpy]
    simp only
    rw [go_relIntern hpy]
    exact ends_finish rfl
  have h2 : go A vs [] (.method (.try (.method (var c!"py") c!"import_bound" [.mac false (names [c!"pyo3", c!"intern"]) [var c!"py", .str c!"sys"]]))
      c!"as_any" []) = tried (asked A [] (.import c!"sys") (.obj (.import c!"sys"))) := by
    rw [go_method _ _ _ (by intro _ _ h; cases h), h1, asked]
    cases A [] (.import c!"sys") with
    | some x => rfl
    | none => simp only [tried, goAll]; rfl
  have h3 := go_try (go_path (g := false) (segs := names [c!"pyo3", c!"types", c!"PyAnyMethods", c!"getattr"]) (T := fun t => t)
    (l := fun _ => [.str c!"modules"]) (w := fun _ _ => .obj (.getattr (.import c!"sys") c!"modules"))
    (s := fun _ _ => .getattr (.import c!"sys") c!"modules") h2 (fun t => go_relIntern hpy) (by
      intro t u hq
      rw [asked] at hq
      split at hq <;> cases hq
      exact ⟨rfl, rfl⟩))
  have h4 : ∀ t, go A vs t (.try (.call (.path false (names [c!"pyo3", c!"types", c!"PyModule", c!"from_code_bound"]))
        [var c!"py", var c!"SOURCE_CODE", .str file, .str name])) = tried (asked A t (.module source file name) (.module source file name)) := by
    intro t
    refine go_try ?_
    rw [go, silentAll_goAll (l := [.py, .str source, .str file, .str name]) (by
      intro e he
      simp only [List.mem_cons, List.not_mem_nil, or_false] at he
      rcases he with rfl | rfl | rfl | rfl
      · exact silent_var _
      · exact silent_var _
      · exact silent_str _
      · exact silent_str _) (by simp only [evalAll, eval_var, hpy, hsrc, eval])]
    exact ends_finish rfl
  rw [go, goAll, go, h3]
  simp only [asked, embedSteps, walk]
  cases A [] (.import c!"sys") with
  | some x => exact .inr rfl
  | none =>
    simp only [thenOf, List.nil_append]
    cases A [.import c!"sys"] (.getattr (.import c!"sys") c!"modules") with
    | some x => exact .inr rfl
    | none =>
      simp only [tried, goAll]
      rw [go]
      simp only [h4, asked]
      cases A ([.import c!"sys"] ++ [.getattr (.import c!"sys") c!"modules"]) (.module source file name) with
      | some x => exact .inr rfl
      | none =>
        simp only [tried]
        have := ends_finish (A := A) (tr := [.import c!"sys"] ++ [.getattr (.import c!"sys") c!"modules"] ++ [.module source file name])
          (w := .stored (.getattr (.import c!"sys") c!"modules") name (.module source file name)) rfl
        rw [asked] at this
        revert this
        cases A ([.import c!"sys"] ++ [.getattr (.import c!"sys") c!"modules"] ++ [.module source file name])
          (.store (.getattr (.import c!"sys") c!"modules") name) <;> exact fun h => h

/-- **C81** (embedded sources): all exceptions reach the callers of functions that embed sources. -/
theorem C81_embed (source name file : Str) (A : Answers) :
    (Fine A (embedSteps source name file) → (embedTree source name file).perform A [.py] = (embedSteps source name file,
      some (.ok (.stored (.getattr (.import c!"sys") c!"modules") name (.module source file name))))) ∧
    ∀ p s q x, embedSteps source name file = p ++ s :: q → Fine A p → A p s = some x →
      (embedTree source name file).perform A [.py] = (p ++ [s], some (.error x)) := by
  have key : (embedTree source name file).perform A [.py] = ((walk A [] (embedSteps source name file)).1,
      some (match (walk A [] (embedSteps source name file)).2 with
        | none => .ok (.stored (.getattr (.import c!"sys") c!"modules") name (.module source file name))
        | some x => .error x)) := by
    have h := go_embed (A := A) (vs := [(c!"SOURCE_CODE", .str source), (c!"py", .py)]) (source := source) (name := name) (file := file) rfl rfl
    have hb : bindParams (embedTree source name file).sig.params [.py] = some [(c!"py", .py)] := rfl
    rw [RFn.perform, hb]
    simp only [embedTree]
    rw [go, goStmts, silent_str source A _ [] _ (by rw [eval])]
    simp only [goStmts]
    rcases hw : walk A [] (embedSteps source name file) with ⟨t, _ | x⟩
    · rw [hw] at h
      have h : _ = (t, Out.val (.result (.stored (.getattr (.import c!"sys") c!"modules") name (.module source file name)))) := h
      rw [h]
    · rw [hw] at h
      rcases h with h | h <;> rw [h]
  refine ⟨fun h => ?_, fun p s q x he hp hs => ?_⟩
  · rw [key, walk_fine (tr := []) (fun p s q e => by simpa using h p s q e)]; rfl
  · rw [key, he, walk_stop hp hs]

/-- An interpreter that cannot store the keyword argument `k`. -/
def exNoMemory : Answers := fun _ s =>
  match s with
  | .setItem _ _ => some c!"MemoryError"
  | _ => none

/-- **C81** is false in general: for `def f(a, *args, k, **kwargs)`, if `k` cannot be stored, the exception is dropped and `f` is called without
`k`. -/
theorem C81_dropped_counterexample : exForward.generate (Env.ascii true false) {} (fun _ => true) [] [] = .ok (.func [exForwardFn]) ∧
    run exForwardFn [.atom 1, .tuple [], .atom 4, .none] = some (.call (.import c!"m") (some c!"f") [.atom 1] [(c!"k", .atom 4)]) ∧
    performs exForwardFn.tree exNoMemory .py [.atom 1, .tuple [], .atom 4, .none] =
      ([.import c!"m", .setItem c!"k" (.atom 4), .call (.call (.import c!"m") (some c!"f") [.atom 1] []),
        .extract (.call (.import c!"m") (some c!"f") [.atom 1] [])], some (.ok (.done (.call (.import c!"m") (some c!"f") [.atom 1] [])))) :=
  ⟨by decide, rfl, rfl⟩

/-! ## Examples -/

/-- An interpreter that raises an exception when it calls something. -/
def exRaising : Answers := fun _ s =>
  match s with
  | .call _ => some c!"ValueError"
  | _ => none

-- `f(1, k=4)` where `f` raises an exception: the import, the keyword argument and the call; then the exception
example : performs exForwardFn.tree exRaising .py [.atom 1, .tuple [], .atom 4, .none] =
    ([.import c!"m", .setItem c!"k" (.atom 4), .call (.call (.import c!"m") (some c!"f") [.atom 1] [(c!"k", .atom 4)])],
      some (.error c!"ValueError")) := rfl
-- no module `m`: nothing is called
example : performs exForwardFn.tree (fun _ _ => some c!"ImportError") .py [.atom 1, .tuple [], .atom 4, .none] =
    ([.import c!"m"], some (.error c!"ImportError")) := rfl
-- the exception depends on what has happened before
example : performs exForwardFn.tree (fun tr _ => if tr.length = 3 then some c!"TypeError" else none) .py [.atom 1, .tuple [], .atom 4, .none] =
    (stepsFor [(c!"k", .atom 4)] (.call (.import c!"m") (some c!"f") [.atom 1] [(c!"k", .atom 4)]), some (.error c!"TypeError")) := rfl
-- without `?`, the error is not an object on which one can go on
example : go (fun _ _ => some c!"ImportError") [(c!"py", .py)] []
    (.try (anyCall c!"getattr" [.method (.method (var c!"py") c!"import_bound" [internTree c!"m"]) c!"as_any" [], internTree c!"x"])) =
    ([.import c!"m"], .stuck) := rfl

/-- The end of a call, after a number of steps. -/
inductive ExEnd
  | ok (n : Nat)
  | error (n : Nat) (x : Str)
  | nothing
  deriving DecidableEq

/-- How a call ends. -/
def exEnd : List Step × Option (Except Exc RVal) → ExEnd
  | (t, some (.ok _)) => .ok t.length
  | (t, some (.error x)) => .error t.length x
  | (_, none) => .nothing

/-- The functions of the parsed file, called with 7 and without arguments. -/
def exRustEnds (A : Answers) (items : List Item) : Option (List (Str × ExEnd × ExEnd)) :=
  (pFile 60 (Item.toksList items)).map (fun l => (exFileFns l).map (fun g =>
    (g.sig.name, exEnd (g.perform A [.py, .val (.atom 7)]), exEnd (g.perform A [.py]))))

-- the bindings of `pkg`, parsed and called with 7: `f(7)` raises an exception, the accessors of `VALUE` do not
example : ∃ c items, Built exEnv exWorld 5 {} [] c ∧ c.generate exEnv exWorld 5 = .ok items ∧
    exRustEnds exRaising items = some [(c!"f", .error 2 c!"ValueError", .nothing),
      (c!"VALUE", .nothing, .ok 3), (c!"set_VALUE", .ok 2, .nothing)] :=
  built_run (names := [c!"pkg"]) (by decide +kernel)
-- if `pkg` is gone, all of them return the exception
example : ∃ c items, Built exEnv exWorld 5 {} [] c ∧ c.generate exEnv exWorld 5 = .ok items ∧
    exRustEnds (fun _ _ => some c!"ImportError") items = some [(c!"f", .error 1 c!"ImportError", .nothing),
      (c!"VALUE", .nothing, .error 1 c!"ImportError"), (c!"set_VALUE", .error 1 c!"ImportError", .nothing)] :=
  built_run (names := [c!"pkg"]) (by decide +kernel)

-- a keyword-only parameter: not all exceptions reach the caller; the accessors of `VALUE` store nothing
example : (exForward.params.filter (fun p => p.kind = .keywordOnly)).map (fun p => p.name.asPy) = [c!"k"] ∧ keysOf exForwardFn.body = [c!"k"] := by
  decide
example : keysOf (.getattr (.import c!"pkg") c!"VALUE") = [] := rfl

-- the source of a module does not compile: nothing is stored
example : (embedTree c!"x = " c!"m" c!"m.py").perform
    (fun _ s => match s with | .module _ _ _ => some c!"SyntaxError" | _ => none) [.py] =
    ([.import c!"sys", .getattr (.import c!"sys") c!"modules", .module c!"x = " c!"m.py" c!"m"], some (.error c!"SyntaxError")) := rfl

end Bindgen
