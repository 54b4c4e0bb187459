import Verif.Lemmas.Text
import Verif.Spec.Docs
/-! # C10–C13: docstrings -/
namespace Bindgen

theorem lineChain_isLine {text l : Str} (h : LineChain text) (hl : Spec.IsLine text l) : Spec.NoOuterSpace l := by
  obtain ⟨a, b, rfl, hn, ha, hb⟩ := hl
  have hinf : ('\n' :: (l ++ ['\n'])) <:+: '\n' :: (a ++ l ++ b ++ ['\n']) := by
    have h1 : ∃ x, '\n' :: a = x ++ ['\n'] := by
      rcases ha with rfl | ha
      · exact ⟨[], rfl⟩
      · have hne : a ≠ [] := by rintro rfl; simp at ha
        rw [List.getLast?_eq_some_getLast hne, Option.some.injEq] at ha
        refine ⟨'\n' :: a.dropLast, ?_⟩
        rw [List.cons_append, ← ha, List.dropLast_concat_getLast]
    have h2 : ∃ y, b ++ ['\n'] = '\n' :: y := by
      rcases hb with rfl | hb
      · exact ⟨[], rfl⟩
      · cases b with
        | nil => simp at hb
        | cons c b =>
          simp only [List.head?_cons, Option.some.injEq] at hb
          subst hb
          exact ⟨b ++ ['\n'], rfl⟩
    obtain ⟨x, hx⟩ := h1
    obtain ⟨y, hy⟩ := h2
    refine ⟨x, y, ?_⟩
    have : '\n' :: (a ++ l ++ b ++ ['\n']) = ('\n' :: a) ++ l ++ (b ++ ['\n']) := by simp
    rw [this, hx, hy]
    simp
  have hc := List.IsChain.infix h hinf
  have := lineChain_lines (s := l) hc l (by rw [Str.splitChar_of_not_mem hn]; simp)
  exact this

/-- **C10** The shape of a formatted docstring: one padding space, then a body. If the body has a line break it
ends with exactly one; if the input has none, neither has the body; and the body does not begin with
white space (except for the body `"\n"` of an input without any text). -/
theorem C10_shape (doc : Str) :
    ∃ body, formatDocstring doc = ' ' :: body ∧
      ('\n' ∈ body → ∃ t, body = t ++ ['\n'] ∧ t.getLast? ≠ some '\n') ∧
      ('\n' ∉ doc → '\n' ∉ body) ∧
      (body = ['\n'] ∨ ∀ c, body.head? = some c → Str.isWs c = false) := by
  have hchain := lineChain_fixNewlines (docStage2_lineChain doc)
  refine ⟨fixNewlines (docStage2 doc), formatDocstring_eq doc, ?_, ?_, ?_⟩
  · intro hm
    rcases fixNewlines_cases (docStage2 doc) with ⟨hn, he⟩ | ⟨-, t, -, he, ht, -⟩
    · rw [he] at hm; exact absurd hm hn
    · exact ⟨t, he, ht⟩
  · intro hn
    have h2 : '\n' ∉ docStage2 doc := fun h => hn ((docStage2_sublist doc).subset h)
    rcases fixNewlines_cases (docStage2 doc) with ⟨-, he⟩ | ⟨h, -⟩
    · rw [he]; exact h2
    · exact absurd h h2
  · have key : ∀ c r, fixNewlines (docStage2 doc) = c :: r → Str.isWs c = true → c = '\n' := by
      intro c r he hw
      rw [he] at hchain
      unfold LineChain at hchain
      rw [List.cons_append, List.isChain_cons_cons] at hchain
      exact hchain.1.1 rfl hw
    rcases fixNewlines_cases (docStage2 doc) with ⟨hn, he⟩ | ⟨-, t, -, he, -, hh, -⟩
    · right
      intro c hc
      by_contra hw
      cases hd : fixNewlines (docStage2 doc) with
      | nil => rw [hd] at hc; simp at hc
      | cons a r =>
        rw [hd] at hc
        simp only [List.head?_cons, Option.some.injEq] at hc
        subst hc
        have := key _ r hd (by simpa using hw)
        subst this
        rw [he] at hd
        exact hn (by rw [hd]; simp)
    · cases t with
      | nil => left; rw [he]; rfl
      | cons a t =>
        right
        intro c hc
        rw [he] at hc
        simp only [List.cons_append, List.head?_cons, Option.some.injEq] at hc
        subst hc
        by_contra hw
        have := key a _ he (by simpa using hw)
        subst this
        exact hh rfl

/-- A text with everything in it: blank lines around, indentation, blank line inside. -/
example : formatDocstring c!"\n  Head\n\n    body  text \n" = c!" Head\n\nbody text\n" := by decide
example : formatDocstring c!"  one line " = c!" one line" := by decide
/-- Only blank lines: the exceptional body. -/
example : formatDocstring c!"\n \n" = c!" \n" := by decide

theorem chain_fixNewlines {R : Char → Char → Prop} (hR : ∀ a, a ≠ '\n' → R a '\n') {s : Str} (h : s.IsChain R) :
    (fixNewlines s).IsChain R := by
  rcases fixNewlines_cases s with ⟨-, he⟩ | ⟨-, t, -, he, hl, -, ⟨v, hv, -⟩, -⟩
  · rw [he]; exact h
  · rw [he, List.isChain_append]
    have h1 := List.IsChain.suffix h (List.dropWhile_suffix (· == '\n'))
    rw [hv, List.isChain_append] at h1
    refine ⟨h1.1, List.isChain_singleton _, ?_⟩
    intro x hx y hy
    simp only [List.head?_cons, Option.mem_def, Option.some.injEq] at hy
    subst hy
    exact hR x (fun e => hl (by rw [← e]; exact hx))

/-- **C11** A formatted docstring contains no two adjacent backticks. -/
theorem C11_no_backtick_fence (doc : Str) : ¬ ['`', '`'] <:+: formatDocstring doc := by
  intro hinf
  have h : (formatDocstring doc).IsChain (fun a b => ¬ (a = '`' ∧ b = '`')) := by
    rw [formatDocstring_eq, List.isChain_cons]
    refine ⟨fun b _ => by simp, ?_⟩
    apply chain_fixNewlines (fun a _ => by simp)
    have := condDedup_nodup (· == '`') (condDedup (fun c => Str.isWs c && c != '\n') (docStage1 doc))
    exact List.IsChain.imp (fun a b hab h => hab ⟨h.1.trans h.2.symm, by simp [h.1]⟩) this
  have := List.IsChain.infix h hinf
  simp at this

example : formatDocstring c!"Use:\n```\ncode\n```" = c!" Use:\n`\ncode\n`\n" := by decide
/-- What the property does not give: the other code fence of Markdown passes through. -/
theorem C11_tilde_fence_survives : ['~', '~', '~'] <:+: formatDocstring c!"Use:\n~~~\ncode\n~~~" := by
  refine ⟨c!" Use:\n", c!"\ncode\n~~~\n", by decide⟩

/-- **C12** Behind the padding space, no line begins or ends with white space, and no white space character
other than the line break is directly repeated. -/
theorem C12_trimmed_lines (doc : Str) :
    ∃ body, formatDocstring doc = ' ' :: body ∧
      (∀ l, Spec.IsLine body l → Spec.NoOuterSpace l) ∧
      (∀ w, Str.isWs w = true → w ≠ '\n' → ¬ [w, w] <:+: body) := by
  refine ⟨fixNewlines (docStage2 doc), formatDocstring_eq doc, ?_, ?_⟩
  · intro l hl
    exact lineChain_isLine (lineChain_fixNewlines (docStage2_lineChain doc)) hl
  · intro w hw hn hinf
    have h : (fixNewlines (docStage2 doc)).IsChain (fun a b => ¬ ((Str.isWs a && a != '\n') = true ∧ a = b)) := by
      apply chain_fixNewlines (fun a ha => by simp [ha])
      have h1 := condDedup_nodup (fun c => Str.isWs c && c != '\n') (docStage1 doc)
      have h2 := condDedup_chain_cons (R := fun a b => ¬ ((Str.isWs a && a != '\n') = true ∧ a = b)) (· == '`')
        (condDedup (fun c => Str.isWs c && c != '\n') (docStage1 doc)) 'x'
        (by
          rw [List.isChain_cons]
          exact ⟨fun b _ => by simp [show Str.isWs 'x' = false by decide],
            List.IsChain.imp (fun a b hab h => hab ⟨h.2, h.1⟩) h1⟩)
      rw [List.isChain_cons] at h2
      exact h2.2
    have := List.IsChain.infix h hinf
    simp [hw, hn] at this

example : Spec.IsLine c!"a\n b \nc" c!" b " :=
  ⟨c!"a\n", c!"\nc", rfl, by decide, Or.inr rfl, Or.inr rfl⟩
example : formatDocstring c!"  a  b\t\t c\n\tindented " = c!" a b\t c\nindented\n" := by decide

theorem squeeze_cons_of_ne {c : Char} (hc : c ≠ '`') (r : Str) : Spec.squeeze (c :: r) = c :: Spec.squeeze r := by
  cases r with
  | nil => rfl
  | cons d r => rw [Spec.squeeze, if_neg (by simp [hc])]

theorem squeeze_tick_cons_of_ne {c : Char} (hc : c ≠ '`') (r : Str) :
    Spec.squeeze ('`' :: c :: r) = '`' :: c :: Spec.squeeze r := by
  rw [Spec.squeeze, if_neg (by simp [hc]), squeeze_cons_of_ne hc]

theorem squeeze_tick_tick (r : Str) : Spec.squeeze ('`' :: '`' :: r) = Spec.squeeze ('`' :: r) := by
  rw [Spec.squeeze, if_pos ⟨rfl, rfl⟩]

/-- Removing repeated backticks is invisible after dropping white space and squeezing backticks. -/
theorem squeeze_ink_dedup (s : Str) :
    (Spec.squeeze (Spec.ink (condDedupGo (· == '`') none s)) = Spec.squeeze (Spec.ink s)) ∧
    (∀ prev, prev = none ∨ prev = some '`' →
      Spec.squeeze ('`' :: Spec.ink (condDedupGo (· == '`') prev s)) = Spec.squeeze ('`' :: Spec.ink s)) := by
  induction s with
  | nil => exact ⟨rfl, fun _ _ => rfl⟩
  | cons c s ih =>
    have hws : Str.isWs '`' = false := by decide
    by_cases hc : c = '`'
    · subst hc
      have hink : ∀ r, Spec.ink ('`' :: r) = '`' :: Spec.ink r := fun r => by
        unfold Spec.ink; rw [List.filter_cons_of_pos (by simp [hws])]
      constructor
      · simp only [condDedupGo, beq_self_eq_true, if_true, ne_eq, reduceCtorEq, not_false_eq_true, hink]
        exact ih.2 _ (Or.inr rfl)
      · intro prev hp
        rcases hp with rfl | rfl
        · simp only [condDedupGo, beq_self_eq_true, if_true, ne_eq, reduceCtorEq, not_false_eq_true, hink]
          rw [squeeze_tick_tick, squeeze_tick_tick]
          exact ih.2 _ (Or.inr rfl)
        · simp only [condDedupGo, beq_self_eq_true, if_true, ne_eq, not_true, if_false, hink]
          rw [squeeze_tick_tick]
          exact ih.2 _ (Or.inr rfl)
    · have hgo : ∀ prev, condDedupGo (· == '`') prev (c :: s) = c :: condDedupGo (· == '`') none s := fun prev => by
        rw [condDedupGo, if_neg (by simpa using hc)]
      cases hw : Str.isWs c with
      | true =>
        have hink : ∀ r, Spec.ink (c :: r) = Spec.ink r := fun r => by
          unfold Spec.ink; rw [List.filter_cons_of_neg (by simp [hw])]
        simp only [hgo, hink]
        exact ⟨ih.1, fun _ _ => ih.2 none (Or.inl rfl)⟩
      | false =>
        have hink : ∀ r, Spec.ink (c :: r) = c :: Spec.ink r := fun r => by
          unfold Spec.ink; rw [List.filter_cons_of_pos (by simp [hw])]
        simp only [hgo, hink, squeeze_cons_of_ne hc, squeeze_tick_cons_of_ne hc, ih.1]
        exact ⟨trivial, fun _ _ => trivial⟩

theorem ink_dedup_ws (p : Char → Bool) (hp : ∀ c, p c = true → Str.isWs c = true) (s : Str) (prev : Option Char) :
    Spec.ink (condDedupGo p prev s) = Spec.ink s := by
  induction s generalizing prev with
  | nil => rfl
  | cons c s ih =>
    unfold condDedupGo
    split
    · rename_i hc
      have hink : ∀ r, Spec.ink (c :: r) = Spec.ink r := fun r => by
        unfold Spec.ink; rw [List.filter_cons_of_neg (by simp [hp c hc])]
      split
      · rw [hink, hink, ih]
      · rw [hink, ih]
    · unfold Spec.ink at ih ⊢
      rw [List.filter_cons, List.filter_cons, ih]

theorem dedup_getLast (p : Char → Bool) (s : Str) (a : Char) (prev : Option Char)
    (hp : ∀ d, prev = some d → d = a) :
    (a :: condDedupGo p prev s).getLast? = (a :: s).getLast? := by
  induction s generalizing a prev with
  | nil => rfl
  | cons c s ih =>
    unfold condDedupGo
    split
    · split
      · rw [List.getLast?_cons_cons, List.getLast?_cons_cons]
        exact ih c _ (by simp)
      · rename_i h
        have h' : prev = some c := by simpa [eq_comm] using h
        have : c = a := hp c h'
        subst this
        rw [List.getLast?_cons_cons]
        exact ih c _ (by simp)
    · rw [List.getLast?_cons_cons, List.getLast?_cons_cons]
      exact ih c _ (by simp)

theorem condDedup_getLast (p : Char → Bool) (s : Str) : (condDedup p s).getLast? = s.getLast? := by
  have h := dedup_getLast p s 'x' none (by simp)
  have hx : ∀ l : Str, (('x' :: l).getLast? = l.getLast? ∧ l ≠ []) ∨ l = [] := by
    intro l
    cases l with
    | nil => right; rfl
    | cons b l => left; exact ⟨List.getLast?_cons_cons, by simp⟩
  cases s with
  | nil => rfl
  | cons c s =>
    have hne : condDedup p (c :: s) ≠ [] := by
      unfold condDedup condDedupGo
      split <;> simp
    rcases hx (condDedup p (c :: s)) with ⟨h1, -⟩ | h1
    · rw [← h1]; unfold condDedup; rw [h, List.getLast?_cons_cons]
    · exact absurd h1 hne

theorem ink_fixNewlines (s : Str) : Spec.ink (fixNewlines s) = Spec.ink s := by
  have hnl : ∀ v : Str, (∀ c ∈ v, c = '\n') → Spec.ink v = [] := by
    intro v hv
    unfold Spec.ink
    rw [List.filter_eq_nil_iff]
    intro c hc
    rw [hv c hc]; decide
  have happ : ∀ a b, Spec.ink (a ++ b) = Spec.ink a ++ Spec.ink b := fun a b => by
    unfold Spec.ink; rw [List.filter_append]
  rcases fixNewlines_cases s with ⟨-, he⟩ | ⟨-, t, -, he, -, -, ⟨v, hv, hvn⟩, -⟩
  · rw [he]
  · rw [he]
    conv_rhs => rw [← List.takeWhile_append_dropWhile (p := (· == '\n')) (l := s), hv]
    rw [happ, happ, happ, hnl v hvn, hnl ['\n'] (by simp), hnl (s.takeWhile (· == '\n'))]
    · simp
    · intro c hc
      have := List.mem_takeWhile_imp hc
      simpa using this

theorem squeeze_append_slashes (s : Str) (k : Nat) :
    Spec.squeeze (s ++ List.replicate k '/') = Spec.squeeze s ++ List.replicate k '/' := by
  induction s with
  | nil =>
    induction k with
    | zero => rfl
    | succ k ih =>
      rw [List.nil_append, List.replicate_succ, squeeze_cons_of_ne (by decide)]
      rw [List.nil_append] at ih
      rw [ih]
      rfl
  | cons c s ih =>
    cases s with
    | nil =>
      cases k with
      | zero => simp
      | succ k =>
        rw [List.nil_append] at ih
        have hs : Spec.squeeze (c :: List.replicate (k+1) '/') = c :: Spec.squeeze (List.replicate (k+1) '/') := by
          rw [List.replicate_succ, Spec.squeeze, if_neg (by simp)]
        rw [List.cons_append, List.nil_append, hs, ih]
        rfl
    | cons d s =>
      rw [List.cons_append, List.cons_append] at *
      simp only [Spec.squeeze]
      rw [ih]
      split <;> rfl

/-- **C13** What formatting does to the text: apart from the padding space and at most one final line break the
result is a subsequence of the input; ignoring white space and counting a run of backticks as one, only a run of
final slashes is missing, and if slashes were removed then all final slashes were. -/
theorem C13_text_preserved (doc : Str) :
    (∃ s, s.Sublist doc ∧ (formatDocstring doc = ' ' :: s ∨ formatDocstring doc = ' ' :: (s ++ ['\n']))) ∧
    (∃ k, Spec.squeeze (Spec.ink doc) = Spec.squeeze (Spec.ink (formatDocstring doc)) ++ List.replicate k '/' ∧
      (k = 0 ∨ ∀ c, (formatDocstring doc).getLast? = some c → c ≠ '/')) := by
  constructor
  · rcases fixNewlines_cases (docStage2 doc) with ⟨-, he⟩ | ⟨-, t, -, he, -, -, ⟨v, hv, -⟩, -⟩
    · exact ⟨docStage2 doc, docStage2_sublist doc, Or.inl (by rw [formatDocstring_eq, he])⟩
    · refine ⟨t, ?_, Or.inr (by rw [formatDocstring_eq, he])⟩
      refine List.Sublist.trans ?_ (docStage2_sublist doc)
      refine List.Sublist.trans ?_ (List.dropWhile_sublist (· == '\n'))
      rw [hv]
      exact List.sublist_append_left _ _
  · obtain ⟨k, hk, hlast⟩ := docStage1_filter doc
    refine ⟨k, ?_, ?_⟩
    · have h1 : Spec.ink (formatDocstring doc) = Spec.ink (docStage2 doc) := by
        rw [formatDocstring_eq, ← ink_fixNewlines (docStage2 doc)]
        rfl
      rw [h1]
      have h2 : Spec.squeeze (Spec.ink (docStage2 doc)) = Spec.squeeze (Spec.ink (docStage1 doc)) := by
        unfold docStage2
        rw [condDedup, (squeeze_ink_dedup _).1, condDedup, ink_dedup_ws]
        intro c hc
        simp only [Bool.and_eq_true] at hc
        exact hc.1
      rw [h2, ← squeeze_append_slashes]
      exact congrArg Spec.squeeze hk
    · rcases hlast with h0 | hl
      · exact Or.inl h0
      · right
        intro c hc
        have hg : (docStage2 doc).getLast? = (docStage1 doc).getLast? := by
          unfold docStage2; rw [condDedup_getLast, condDedup_getLast]
        rw [formatDocstring_eq] at hc
        rcases fixNewlines_cases (docStage2 doc) with ⟨-, he⟩ | ⟨-, t, -, he, -⟩
        · rw [he] at hc
          cases hd : docStage2 doc with
          | nil =>
            rw [hd] at hc
            simp only [List.getLast?_singleton, Option.some.injEq] at hc
            subst hc; decide
          | cons a r =>
            rw [hd, List.getLast?_cons_cons, ← hd, hg] at hc
            exact hl c hc
        · rw [he, ← List.cons_append, List.getLast?_append] at hc
          simp only [List.getLast?_singleton, Option.some_or, Option.some.injEq] at hc
          subst hc; decide

example : formatDocstring c!"``x`` /path/ //" = c!" `x` /path" := by decide
/-- Formatting twice may remove more than formatting once: the slash is hidden behind a line break the first
time. -/
theorem C13_not_idempotent :
    formatDocstring c!"a/\n\n" = c!" a/\n" ∧ formatDocstring (formatDocstring c!"a/\n\n") = c!" a" := by decide

end Bindgen
