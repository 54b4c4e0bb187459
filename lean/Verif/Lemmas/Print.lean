import Verif.Model.Print
import Verif.Spec.Lexer
import Verif.Lemmas.Legal
/-!
# Reading back the text of a token stream
-/
namespace Bindgen
open Spec

variable {E : Env}

/-! ## Digits -/

theorem hexVal_digit : ∀ d < 16, hexVal (digitChar d) = some d ∧ digitChar d ≠ '}' := by decide

theorem decVal_digit : ∀ d < 10, decVal (digitChar d) = some d := by decide

theorem digitsGo_length {b : Nat} (hb : 2 ≤ b) : ∀ {f k n : Nat}, n < b ^ (k + 1) → (digitsGo b f n).length ≤ k + 1
  | 0, _, _, _ => by simp [digitsGo]
  | f + 1, k, n, h => by
    rw [digitsGo]
    split
    · simp
    · rename_i hn
      cases k with
      | zero => simp at h; omega
      | succ k =>
        have : n / b < b ^ (k + 1) := by
          rw [Nat.div_lt_iff_lt_mul (by omega)]
          rwa [← Nat.pow_succ]
        have := digitsGo_length hb (f := f) this
        simp only [List.length_append, List.length_singleton]
        omega

theorem digitsGo_pos {b f n : Nat} : 1 ≤ (digitsGo b (f + 1) n).length := by
  rw [digitsGo]; split <;> simp

theorem strBody_hex {r : Str} : ∀ {f n v k : Nat}, n < 16 ^ f → 1 ≤ f → k + (digitsGo 16 f n).length ≤ 6 →
    strBody (some (v, k)) (digitsGo 16 f n ++ r) = strBody (some (16 ^ (digitsGo 16 f n).length * v + n, k + (digitsGo 16 f n).length)) r
  | 0, _, _, _, _, h, _ => absurd h (by omega)
  | f + 1, n, v, k, h, _, hk => by
    rw [digitsGo] at hk ⊢
    split
    · rename_i hn
      simp only [hn, if_true, List.length_singleton] at hk
      obtain ⟨h1, h2⟩ := hexVal_digit n hn
      simp only [List.cons_append, List.nil_append, strBody, h1, h2, if_false, List.length_singleton, Nat.pow_one]
      rw [if_pos (by omega)]
    · rename_i hn
      simp only [hn, if_false, List.length_append, List.length_singleton] at hk
      obtain ⟨h1, h2⟩ := hexVal_digit (n % 16) (by omega)
      have hf : 1 ≤ f := by
        rcases Nat.eq_zero_or_pos f with rfl | hf
        · simp at h; omega
        · exact hf
      have hlt : n / 16 < 16 ^ f := by
        rw [Nat.div_lt_iff_lt_mul (by omega)]
        rwa [← Nat.pow_succ]
      rw [List.append_assoc, strBody_hex hlt hf (by omega)]
      simp only [List.cons_append, List.nil_append, strBody, h1, h2, if_false, List.length_append, List.length_singleton]
      rw [if_pos (by omega)]
      congr 3
      rw [Nat.pow_succ]
      have := Nat.div_add_mod n 16
      generalize 16 ^ (digitsGo 16 f (n / 16)).length = A
      rw [Nat.mul_add, Nat.mul_comm A 16, Nat.mul_assoc]
      omega

theorem lt_pow_succ {b n : Nat} (hb : 2 ≤ b) : n < b ^ (n + 1) :=
  Nat.lt_of_lt_of_le (Nat.lt_succ_self n) (Nat.le_of_lt (Nat.lt_pow_self (by omega)))

theorem strBody_unicode (c : Char) (r : Str) : strBody none (c!"\\u{" ++ digits 16 c.toNat ++ c!"}" ++ r) =
    (strBody none r).map (fun x => (c :: x.1, x.2)) := by
  have hv : c.toNat.isValidChar := c.valid
  have hlt : c.toNat < 16 ^ (5 + 1) := by
    have : c.toNat < 0x110000 := by
      rcases hv with h | h
      · exact Nat.lt_trans h (by decide)
      · exact h.2
    exact Nat.lt_trans this (by decide)
  have hl : (digitsGo 16 (c.toNat + 1) c.toNat).length ≤ 6 := digitsGo_length (by decide) hlt
  have hp : 1 ≤ (digitsGo 16 (c.toNat + 1) c.toNat).length := digitsGo_pos
  unfold digits
  simp only [List.append_assoc, List.cons_append, List.nil_append]
  rw [strBody, strBody_hex (lt_pow_succ (by decide)) (by omega) (by omega)]
  simp only [strBody, if_true, Nat.mul_zero, Nat.zero_add]
  rw [if_neg]
  · simp
  · rintro (h | h)
    · omega
    · exact h hv

theorem strBody_plain {c : Char} {r : Str} (h1 : c ≠ '"') (h2 : c ≠ '\\') (h3 : c ≠ '\r') :
    strBody none (c :: r) = (strBody none r).map (fun x => (c :: x.1, x.2)) := by
  rw [strBody]
  · exact h1
  · rintro _ rfl; exact absurd rfl h2
  · rintro _ _ _ rfl; exact absurd rfl h2
  · rintro _ _ rfl; exact absurd rfl h2
  · exact h3

theorem strBody_char (plain : Char → Bool) (c : Char) (next : Option Char) (r : Str) :
    strBody none (escapeChar plain c next ++ r) = (strBody none r).map (fun x => (c :: x.1, x.2)) := by
  unfold escapeChar
  split
  · rename_i h; subst h
    split <;> rfl
  split
  · rename_i h; subst h; rfl
  split
  · rename_i h; subst h; rfl
  split
  · rename_i h; subst h; rfl
  split
  · rename_i h; subst h; rfl
  split
  · rename_i h; subst h; rfl
  split
  · rename_i h; subst h; rfl
  split
  · exact strBody_plain ‹_› ‹_› ‹_›
  · exact strBody_unicode c r

/-- A string literal stands for the string. -/
theorem strBody_escape (plain : Char → Bool) (r : Str) : ∀ v : Str, strBody none (escapeStr plain v ++ '"' :: r) = some (v, r)
  | [] => by simp [escapeStr, strBody]
  | c :: cs => by
    rw [escapeStr, List.append_assoc, strBody_char, strBody_escape plain r cs]
    rfl

theorem rawBody_self (r : Str) : ∀ {v : Str}, '"' ∉ v → '\r' ∉ v → rawBody (v ++ '"' :: r) = some (v, r)
  | [], _, _ => by simp [rawBody]
  | c :: cs, h1, h2 => by
    rw [List.cons_append, rawBody]
    · rw [rawBody_self r (fun h => h1 (by simp [h])) (fun h => h2 (by simp [h]))]; rfl
    · rintro rfl; simp at h1
    · rintro rfl; simp at h2

/-! ## Words -/

theorem identText_cont {w : Str} (h : isIdentText E w = true) : ∀ c ∈ w, E.xidContinue c = true := by
  obtain ⟨c, cs, rfl, h1, h2⟩ := (isIdentText_iff E w).mp h
  intro x hx
  rcases List.mem_cons.mp hx with rfl | hx
  · rcases h1 with rfl | h1
    · rw [E.xidContinue_ascii _ (by decide)]; rfl
    · exact E.start_continue _ h1
  · exact h2 x hx

/-- What follows a token in a stream: nothing, a space or a closing bracket. -/
def sep : Str → Bool
  | [] => true
  | c :: _ => c == ' ' || isClose c

theorem sep_cases {c : Char} {r : Str} (h : sep (c :: r) = true) : c = ' ' ∨ c = ')' ∨ c = '}' ∨ c = ']' := by
  simp only [sep, isClose, Bool.or_eq_true, beq_iff_eq] at h
  tauto

theorem sep_cont {r : Str} (h : sep r = true) : r.head?.any E.xidContinue = false := by
  cases r with
  | nil => rfl
  | cons c r =>
    rcases sep_cases h with rfl | rfl | rfl | rfl <;>
    · simp only [List.head?_cons, Option.any_some]
      rw [E.xidContinue_ascii _ (by decide)]; rfl

theorem sep_gap {r : Str} (h : sep r = true) : gap r = true := by
  cases r with
  | nil => rfl
  | cons c r => rcases sep_cases h with rfl | rfl | rfl | rfl <;> rfl

theorem sep_prefix {r : Str} (h : sep r = true) : r.head?.any (fun c => c == '"' || c == '\'' || c == '#') = false ∧
    r.head?.any (fun c => c == '\'' || c == '#') = false := by
  cases r with
  | nil => exact ⟨rfl, rfl⟩
  | cons c r => rcases sep_cases h with rfl | rfl | rfl | rfl <;> exact ⟨rfl, rfl⟩

theorem word_self {w r : Str} (h : isIdentText E w = true) (hr : sep r = true) : word E (w ++ r) = (w, r) := by
  have hc := identText_cont h
  have hr : r.head?.any E.xidContinue = false := sep_cont hr
  unfold word
  have h1 : r.takeWhile E.xidContinue = [] := by
    cases r with
    | nil => rfl
    | cons c r => simp only [List.head?_cons, Option.any_some] at hr; simp [hr]
  have h2 : r.dropWhile E.xidContinue = r := by
    cases r with
    | nil => rfl
    | cons c r => simp only [List.head?_cons, Option.any_some] at hr; simp [hr]
  rw [List.takeWhile_append_of_pos hc, List.dropWhile_append_of_pos hc, h1, h2, List.append_nil]

theorem number_digits {r : Str} (hr : sep r = true) : ∀ {f n v : Nat} {s : Str}, n < 10 ^ f → 1 ≤ f →
    number E v (digitsGo 10 f n ++ s) = number E (10 ^ (digitsGo 10 f n).length * v + n) s
  | 0, _, _, _, _, h => absurd h (by omega)
  | f + 1, n, v, s, h, _ => by
    rw [digitsGo]
    split
    · rename_i hn
      simp only [List.cons_append, List.nil_append, number, decVal_digit n hn, List.length_singleton, Nat.pow_one]
    · rename_i hn
      have hf : 1 ≤ f := by
        rcases Nat.eq_zero_or_pos f with rfl | hf
        · simp at h; omega
        · exact hf
      have hlt : n / 10 < 10 ^ f := by
        rw [Nat.div_lt_iff_lt_mul (by omega)]
        rwa [← Nat.pow_succ]
      rw [List.append_assoc, number_digits hr hlt hf]
      simp only [List.cons_append, List.nil_append, number, decVal_digit (n % 10) (by omega), List.length_append, List.length_singleton]
      congr 1
      rw [Nat.pow_succ]
      have := Nat.div_add_mod n 10
      generalize 10 ^ (digitsGo 10 f (n / 10)).length = A
      rw [Nat.mul_add, Nat.mul_comm A 10, Nat.mul_assoc]
      omega

theorem number_self {r : Str} (n : Nat) (hr : sep r = true) : number E 0 (digits 10 n ++ (c!"usize" ++ r)) = some (n, r) := by
  unfold digits
  rw [number_digits hr (lt_pow_succ (by decide)) (by omega), Nat.mul_zero, Nat.zero_add]
  have hw : word E (c!"usize" ++ r) = (c!"usize", r) := word_self (asciiWord_ident rfl) hr
  simp only [List.cons_append, List.nil_append] at hw ⊢
  simp only [number, hw]
  rfl

theorem digits_head (n : Nat) : ∃ d < 10, ∃ s, digits 10 n = digitChar d :: s := by
  have : ∀ f n, ∃ d < 10, ∃ s, digitsGo 10 (f + 1) n = digitChar d :: s := by
    intro f
    induction f with
    | zero =>
      intro n
      rw [digitsGo]
      split
      · exact ⟨n, ‹_›, [], rfl⟩
      · exact ⟨n % 10, by omega, [], rfl⟩
    | succ f ih =>
      intro n
      rw [digitsGo]
      split
      · exact ⟨n, ‹_›, [], rfl⟩
      · obtain ⟨d, hd, s, hs⟩ := ih (n / 10)
        exact ⟨d, hd, s ++ [digitChar (n % 10)], by rw [hs]; rfl⟩
  exact this n n

/-! ## Tokens -/

mutual
/-- The token has a text that can be read back. -/
def Tok.Lex (E : Env) : Tok → Prop
  | .kw k => k ∈ Keyword.all
  | .id s => IdOk E s
  | .life s => isIdentText E s = true
  | .group _ ts => Tok.LexList E ts
  | _ => True
/-- The same for all. -/
def Tok.LexList (E : Env) : List Tok → Prop
  | [] => True
  | t :: ts => t.Lex E ∧ Tok.LexList E ts
end

/-- Not white space, not a bracket. -/
def lead (c : Char) : Bool := !lexWs c && !isClose c && (brackets.lookup c).isNone

theorem lead_of_start {c : Char} (h : c = '_' ∨ E.xidStart c = true) : lead c = true ∧ (decVal c).isSome = false ∧
    (∀ r, punct (c :: r) = none) ∧ c ≠ '"' ∧ c ≠ '\'' := by
  have hne : ∀ d : Char, d.toNat < 128 → asciiLetter d = false → d ≠ '_' → c ≠ d := by
    rintro d hd hl hu rfl
    rcases h with h | h
    · exact hu h
    · rw [E.xidStart_ascii _ hd, hl] at h; cases h
  have hcont : E.xidContinue c = true := by
    rcases h with rfl | h
    · rw [E.xidContinue_ascii _ (by decide)]; rfl
    · exact E.start_continue _ h
  refine ⟨?_, ?_, ?_, hne _ (by decide) (by decide) (by decide), hne _ (by decide) (by decide) (by decide)⟩
  · have hb : ∀ d ∈ [')', '}', ']', '(', '{', '['], c ≠ d := by
      intro d hd
      simp only [List.mem_cons, List.not_mem_nil, or_false] at hd
      rcases hd with rfl | rfl | rfl | rfl | rfl | rfl <;> exact hne _ (by decide) (by decide) (by decide)
    have h1 := hb ')' (by simp)
    have h2 := hb '}' (by simp)
    have h3 := hb ']' (by simp)
    have h4 := hb '(' (by simp)
    have h5 := hb '{' (by simp)
    have h6 := hb '[' (by simp)
    simp [lead, lexWs_of_continue hcont, isClose, brackets, List.lookup, h1, h2, h3, beq_eq_false_iff_ne.mpr h4,
      beq_eq_false_iff_ne.mpr h5, beq_eq_false_iff_ne.mpr h6]
  · unfold decVal
    split
    · rename_i hd
      exfalso
      refine hne c (Nat.lt_of_le_of_lt hd.2 (by decide)) ?_ ?_ rfl
      · have h1 : 48 ≤ c.toNat := hd.1
        have h2 : c.toNat ≤ 57 := hd.2
        simp only [asciiLetter, Char.reduceToNat, Bool.or_eq_false_iff, Bool.and_eq_false_iff, decide_eq_false_iff_not]
        omega
      · rintro rfl; exact absurd hd.2 (by decide)
    · rfl
  · intro r
    unfold punct
    split <;> first
      | rfl
      | (rename_i he; rw [List.cons.injEq] at he; exact absurd he.1 (hne _ (by decide) (by decide) (by decide)))

theorem name_self {w r : Str} (h : isIdentText E w = true) (hr : sep r = true) : name E (w ++ r) = some (Tok.ident w, r) := by
  unfold name
  rw [word_self h hr]
  simp only [h, (sep_prefix hr).1]
  rfl

theorem token_name {w r : Str} (h : isIdentText E w = true) (hr : sep r = true) :
    token E (w ++ r) = some (Tok.ident w, r) ∧ ∃ c s, w = c :: s ∧ lead c = true := by
  have hn := name_self h hr
  have hcont := identText_cont h
  obtain ⟨c, cs, rfl, h1, h2⟩ := (isIdentText_iff E w).mp h
  obtain ⟨hl, hd, hp, hq, hq'⟩ := lead_of_start h1
  have h2nd : ∀ d : Char, d.toNat < 128 → (asciiLetter d || asciiDigit d || d == '_') = false → sep [d] = false → ∀ t, cs ++ r ≠ d :: t := by
    intro d hd hl hs t e
    cases cs with
    | nil =>
      cases r with
      | nil => cases e
      | cons x r =>
        cases e
        have : sep [d] = sep (d :: t) := rfl
        rw [this, hr] at hs; cases hs
    | cons x cs =>
      cases e
      have := h2 d (by simp)
      rw [E.xidContinue_ascii _ hd, hl] at this
      cases this
  refine ⟨?_, c, cs, rfl, hl⟩
  rw [List.cons_append] at hn ⊢
  rw [token]
  · rw [hd, hp]
    simpa using hn
  · exact hq
  · rintro t rfl e; exact h2nd '"' (by decide) (by decide) (by decide) t e
  · rintro t rfl e; exact h2nd '#' (by decide) (by decide) (by decide) t e
  · exact hq'

theorem kw_self {k : Keyword} (h : k ∈ Keyword.all) : Tok.ident k.text = .kw k ∧ isIdentText E k.text = true := by
  have : ∀ k ∈ Keyword.all, asciiWord k.text = true := by decide
  refine ⟨?_, asciiWord_ident (this k h)⟩
  cases k <;> first | rfl | (exact absurd h (by simp [Keyword.all]))

/-- What may follow a token. -/
def After (t : Tok) (r : Str) : Prop := sep r = true ∨ t = .p .gt ∧ ∃ r', r = '>' :: r'

theorem token_str {v r : Str} {x : Option (Str × Str)} (h : x = some (v, r)) (hr : sep r = true) :
    literal E x = some (.str v, r) := by
  subst h
  simp [literal, sep_cont hr]

theorem token_punct {c : Char} {s r : Str} {q : Pn} (hp : punct (c :: s) = some (q, r))
    (hgap : (gap r || (q == .gt && r.head? == some '>')) = true) (hd : decVal c = none) (h1 : c ≠ '"') (h2 : c ≠ 'r') (h3 : c ≠ '\'') :
    token E (c :: s) = some (.p q, r) := by
  rw [token]
  · rw [hd, hp]
    simp only [hgap]
    rfl
  · exact h1
  · exact fun _ e => absurd e h2
  · exact fun _ e => absurd e h2
  · exact h3

theorem token_shows {plain : Char → Bool} {t : Tok} {s r : Str} (ht : t.Lex E) (hg : ∀ d ts, t ≠ .group d ts) (h : t.Shows plain s)
    (hr : After t r) : token E (s ++ r) = some (t, r) ∧ ∃ c s', s = c :: s' ∧ lead c = true := by
  cases t with
  | group d ts => exact absurd rfl (hg d ts)
  | kw k =>
    rcases hr with hr | ⟨e, -⟩
    · rw [Tok.Shows] at h
      subst h
      obtain ⟨h1, h2⟩ := kw_self (E := E) ht
      have := token_name h2 hr
      rwa [h1] at this
    · cases e
  | id x =>
    rcases hr with hr | ⟨e, -⟩
    · rw [Tok.Shows] at h
      subst h
      rw [Tok.Lex] at ht
      obtain ⟨h1, h2 | ⟨w, rfl, h2, h3⟩⟩ := ht
      · have := token_name h2 hr
        rwa [h1] at this
      · refine ⟨?_, 'r', _, rfl, rfl⟩
        simp only [List.cons_append, token]
        rw [word_self h2 hr]
        simp [h2, h3, (sep_prefix hr).1]
    · cases e
  | life x =>
    rcases hr with hr | ⟨e, -⟩
    · rw [Tok.Shows] at h
      subst h
      rw [Tok.Lex] at ht
      refine ⟨?_, '\'', x, rfl, rfl⟩
      simp only [List.cons_append, token]
      rw [word_self ht hr]
      simp [ht, (sep_prefix hr).2]
    · cases e
  | p q =>
    rw [Tok.Shows] at h
    subst h
    have hgap : (gap r || (q == .gt && r.head? == some '>')) = true := by
      rcases hr with hr | ⟨e, r', rfl⟩
      · rw [sep_gap hr]; rfl
      · cases e; simp
    have hp : punct (q.text ++ r) = some (q, r) := by
      cases q <;> try rfl
      rcases hr with hr | ⟨e, r', rfl⟩
      · cases r with
        | nil => rfl
        | cons c r => rcases sep_cases hr with rfl | rfl | rfl | rfl <;> rfl
      · cases e
    refine ⟨?_, ?_⟩
    · cases q <;> exact token_punct hp hgap rfl (by decide) (by decide) (by decide)
    · cases q <;> exact ⟨_, _, rfl, rfl⟩
  | str v =>
    rcases hr with hr | ⟨e, -⟩
    · rw [Tok.Shows] at h
      rcases h with rfl | ⟨h1, h2, rfl⟩
      · refine ⟨?_, '"', _, rfl, rfl⟩
        simp only [strText, List.append_assoc, List.cons_append, List.nil_append, token]
        exact token_str (strBody_escape plain r v) hr
      · refine ⟨?_, 'r', _, rfl, rfl⟩
        simp only [List.append_assoc, List.cons_append, List.nil_append, token]
        exact token_str (rawBody_self r h1 h2) hr
    · cases e
  | num n =>
    rcases hr with hr | ⟨e, -⟩
    · rw [Tok.Shows] at h
      subst h
      have hn := number_self (E := E) n hr
      obtain ⟨d, hd, s, hs⟩ := digits_head n
      refine ⟨?_, digitChar d, s ++ c!"usize", by rw [hs]; rfl, ?_⟩
      · rw [List.append_assoc]
        rw [hs, List.cons_append] at hn ⊢
        have hne : ∀ d < 10, digitChar d ≠ '"' ∧ digitChar d ≠ 'r' ∧ digitChar d ≠ '\'' := by decide
        obtain ⟨h1, h2, h3⟩ := hne d hd
        rw [token]
        · rw [hn, decVal_digit d hd]; rfl
        · exact h1
        · exact fun _ e => absurd e h2
        · exact fun _ e => absurd e h2
        · exact h3
      · have : ∀ d < 10, lead (digitChar d) = true := by decide
        exact this d hd
    · cases e

/-! ## Streams -/

/-- The text up to a rest consists of these tokens. -/
def LexTo (E : Env) (s : Str) (ts : List Tok) (rest : Str) : Prop := ∃ N, ∀ n ≥ N, tokens E n s = some (ts, rest)

theorem LexTo.nil : LexTo E [] [] [] := ⟨1, fun n hn => by
  obtain ⟨k, rfl⟩ : ∃ k, n = k + 1 := ⟨n - 1, by omega⟩
  rfl⟩

theorem LexTo.close {c : Char} (h : isClose c = true) (hw : lexWs c = false) (r : Str) : LexTo E (c :: r) [] (c :: r) := ⟨1, fun n hn => by
  obtain ⟨k, rfl⟩ : ∃ k, n = k + 1 := ⟨n - 1, by omega⟩
  simp [tokens, h, hw]⟩

theorem LexTo.space {s r : Str} {ts : List Tok} (h : LexTo E s ts r) : LexTo E (' ' :: s) ts r := by
  obtain ⟨N, h⟩ := h
  refine ⟨N + 1, fun n hn => ?_⟩
  obtain ⟨k, rfl⟩ : ∃ k, n = k + 1 := ⟨n - 1, by omega⟩
  rw [tokens]
  exact h k (by omega)

theorem LexTo.token {c : Char} {s r r' : Str} {t : Tok} {ts : List Tok} (hc : lead c = true) (ht : Spec.token E (c :: s) = some (t, r))
    (h : LexTo E r ts r') : LexTo E (c :: s) (t :: ts) r' := by
  obtain ⟨N, h⟩ := h
  refine ⟨N + 1, fun n hn => ?_⟩
  obtain ⟨k, rfl⟩ : ∃ k, n = k + 1 := ⟨n - 1, by omega⟩
  simp only [lead, Bool.and_eq_true, Bool.not_eq_true', Option.isNone_iff_eq_none] at hc
  obtain ⟨⟨h1, h2⟩, h3⟩ := hc
  simp only [tokens, h1, h2, h3, ht, h k (by omega), Bool.false_eq_true, if_false, Option.map_some]

theorem LexTo.group {d : Delim} {s r r' : Str} {ts us : List Tok} (h1 : LexTo E s ts (d.closing :: r)) (h2 : LexTo E r us r') :
    LexTo E (d.opening :: s) (.group d ts :: us) r' := by
  obtain ⟨N, h1⟩ := h1
  obtain ⟨M, h2⟩ := h2
  refine ⟨N + M + 1, fun n hn => ?_⟩
  obtain ⟨k, rfl⟩ : ∃ k, n = k + 1 := ⟨n - 1, by omega⟩
  have h1 := h1 k (by omega)
  have h2 := h2 k (by omega)
  have e1 : lexWs d.opening = false ∧ isClose d.opening = false ∧ brackets.lookup d.opening = some (d, d.closing) := by
    cases d <;> exact ⟨rfl, rfl, rfl⟩
  simp only [tokens, e1.1, e1.2.1, e1.2.2, h1, h2, Bool.false_eq_true, if_false, if_true, Option.map_some]

theorem sep_close (d : Delim) (r : Str) : sep (d.closing :: r) = true := by cases d <;> rfl

theorem LexTo.closing (d : Delim) (r : Str) : LexTo E (d.closing :: r) [] (d.closing :: r) :=
  LexTo.close (by cases d <;> rfl) (by cases d <;> rfl) r

mutual
/-- A token is read back. -/
theorem shows_lex {plain : Char → Bool} : ∀ (t : Tok) {s r r' : Str} {us : List Tok}, t.Lex E → t.Shows plain s → After t r →
    LexTo E r us r' → LexTo E (s ++ r) (t :: us) r'
  | .kw k, _, _, _, _, ht, h, hr, hl => by
    obtain ⟨h1, c, s', rfl, h2⟩ := token_shows ht nofun h hr
    exact LexTo.token h2 h1 hl
  | .id k, _, _, _, _, ht, h, hr, hl => by
    obtain ⟨h1, c, s', rfl, h2⟩ := token_shows ht nofun h hr
    exact LexTo.token h2 h1 hl
  | .life k, _, _, _, _, ht, h, hr, hl => by
    obtain ⟨h1, c, s', rfl, h2⟩ := token_shows ht nofun h hr
    exact LexTo.token h2 h1 hl
  | .p k, _, _, _, _, ht, h, hr, hl => by
    obtain ⟨h1, c, s', rfl, h2⟩ := token_shows ht nofun h hr
    exact LexTo.token h2 h1 hl
  | .str k, _, _, _, _, ht, h, hr, hl => by
    obtain ⟨h1, c, s', rfl, h2⟩ := token_shows ht nofun h hr
    exact LexTo.token h2 h1 hl
  | .num k, _, _, _, _, ht, h, hr, hl => by
    obtain ⟨h1, c, s', rfl, h2⟩ := token_shows ht nofun h hr
    exact LexTo.token h2 h1 hl
  | .group d ts, s, r, r', us, ht, h, hr, hl => by
    rw [Tok.Shows] at h
    obtain ⟨inner, hi, rfl⟩ := h
    rw [Tok.Lex] at ht
    have key : ∀ sp : Str, (sp = [] ∨ sp = [' ']) → LexTo E (inner ++ (sp ++ d.closing :: r)) ts (d.closing :: r) := by
      rintro sp (rfl | rfl)
      · have := showList_lex ts (r := d.closing :: r) ht hi (sep_close d r) (LexTo.closing d r)
        rwa [List.append_nil] at this
      · have := showList_lex ts (r := ' ' :: d.closing :: r) ht hi rfl (LexTo.space (LexTo.closing d r))
        rwa [List.append_nil] at this
    cases d with
    | paren =>
      have := LexTo.group (d := .paren) (key [] (.inl rfl)) hl
      simpa [groupText, Delim.opening, Delim.closing] using this
    | bracket =>
      have := LexTo.group (d := .bracket) (key [] (.inl rfl)) hl
      simpa [groupText, Delim.opening, Delim.closing] using this
    | brace =>
      have := LexTo.group (d := .brace) (LexTo.space (key (if ts.isEmpty then [] else [' ']) (by split <;> simp))) hl
      simpa [groupText, Delim.opening, Delim.closing] using this
/-- A stream is read back. -/
theorem showList_lex {plain : Char → Bool} : ∀ (ts : List Tok) {s r r' : Str} {us : List Tok}, Tok.LexList E ts → Tok.ShowList plain ts s →
    sep r = true → LexTo E r us r' → LexTo E (s ++ r) (ts ++ us) r'
  | [], _, _, _, _, _, h, _, hl => by
    rw [Tok.ShowList] at h
    subst h
    exact hl
  | [t], _, _, _, _, ht, h, hr, hl => by
    rw [Tok.ShowList] at h
    rw [Tok.LexList] at ht
    exact shows_lex t ht.1 h (.inl hr) hl
  | t :: u :: ts, _, r, r', us, ht, h, hr, hl => by
    rw [Tok.ShowList] at h
    rw [Tok.LexList] at ht
    obtain ⟨a, b, h1, h2, h3⟩ := h
    have ih := showList_lex (u :: ts) ht.2 h2 hr hl
    rcases h3 with rfl | ⟨rfl, rfl, rfl⟩
    · rw [List.append_assoc, List.append_assoc]
      exact shows_lex t ht.1 h1 (.inl rfl) (LexTo.space ih)
    · rw [List.append_assoc]
      refine shows_lex _ ht.1 h1 (.inr ⟨rfl, ?_⟩) ih
      cases ts with
      | nil =>
        rw [Tok.ShowList, Tok.Shows] at h2
        subst h2
        exact ⟨_, rfl⟩
      | cons v ts =>
        rw [Tok.ShowList] at h2
        obtain ⟨a', b', h4, -, h5⟩ := h2
        rw [Tok.Shows] at h4
        subst h4
        rcases h5 with rfl | ⟨-, -, rfl⟩ <;> exact ⟨_, rfl⟩
end

theorem lexes_shown {plain : Char → Bool} {ts : List Tok} {s : Str} (ht : Tok.LexList E ts) (h : Tok.ShowList plain ts s) : Lexes E s ts := by
  have := showList_lex ts (r := []) ht h rfl LexTo.nil
  rwa [List.append_nil, List.append_nil] at this

mutual
theorem shows_text (plain : Char → Bool) : ∀ t : Tok, t.Shows plain (t.text plain)
  | .kw k => by rw [Tok.Shows, Tok.text]
  | .id k => by rw [Tok.Shows, Tok.text]
  | .life k => by rw [Tok.Shows, Tok.text]
  | .p k => by rw [Tok.Shows, Tok.text]
  | .str k => by rw [Tok.Shows, Tok.text]; exact .inl rfl
  | .num k => by rw [Tok.Shows, Tok.text]
  | .group d ts => by rw [Tok.Shows, Tok.text]; exact ⟨_, showList_text plain ts, rfl⟩
theorem showList_text (plain : Char → Bool) : ∀ ts : List Tok, Tok.ShowList plain ts (Tok.textList plain ts)
  | [] => by rw [Tok.ShowList, Tok.textList]
  | [t] => by rw [Tok.ShowList, Tok.textList]; exact shows_text plain t
  | t :: u :: ts => by
    rw [Tok.ShowList, Tok.textList]
    exact ⟨_, _, shows_text plain t, showList_text plain (u :: ts), .inl rfl⟩
end

end Bindgen
