import Verif.Lemmas.Print
/-!
# The tokens of generated items can be read back
-/
namespace Bindgen
open Spec

variable {E : Env}

mutual
/-- The token can be read back in every environment. -/
def Tok.asciiLex : Tok → Bool
  | .kw k => Keyword.all.contains k
  | .id s => asciiWord s && !rustKeywords.contains s
  | .life s => asciiWord s
  | .group _ ts => Tok.asciiLexList ts
  | _ => true
/-- The same for all. -/
def Tok.asciiLexList : List Tok → Bool
  | [] => true
  | t :: ts => t.asciiLex && Tok.asciiLexList ts
end

mutual
theorem lex_ascii : ∀ t : Tok, t.asciiLex = true → t.Lex E
  | .kw k, h => by
    rw [Tok.asciiLex, List.contains_eq_mem, decide_eq_true_eq] at h
    rwa [Tok.Lex]
  | .id s, h => by
    rw [Tok.asciiLex, Bool.and_eq_true, Bool.not_eq_true', List.contains_eq_mem, decide_eq_false_iff_not] at h
    rw [Tok.Lex]
    exact idLit (tokId_of h.2) h.1
  | .life s, h => by
    rw [Tok.asciiLex] at h
    rw [Tok.Lex]
    exact asciiWord_ident h
  | .group d ts, h => by
    rw [Tok.asciiLex] at h
    rw [Tok.Lex]
    exact lexList_ascii ts h
  | .p _, _ => by unfold Tok.Lex; trivial
  | .str _, _ => by unfold Tok.Lex; trivial
  | .num _, _ => by unfold Tok.Lex; trivial
theorem lexList_ascii : ∀ ts : List Tok, Tok.asciiLexList ts = true → Tok.LexList E ts
  | [], _ => by rw [Tok.LexList]; trivial
  | t :: ts, h => by
    rw [Tok.asciiLexList, Bool.and_eq_true] at h
    rw [Tok.LexList]
    exact ⟨lex_ascii t h.1, lexList_ascii ts h.2⟩
end

theorem lexLit {ts : List Tok} (h : Tok.asciiLexList ts = true) : Tok.LexList E ts := lexList_ascii ts h

theorem lexNil : Tok.LexList E [] := by rw [Tok.LexList]; trivial

theorem lexApp {a b : List Tok} (ha : Tok.LexList E a) (hb : Tok.LexList E b) : Tok.LexList E (a ++ b) := by
  induction a with
  | nil => exact hb
  | cons t a ih =>
    rw [Tok.LexList] at ha
    rw [List.cons_append, Tok.LexList]
    exact ⟨ha.1, ih ha.2⟩

theorem lexGroup {d : Delim} {ts : List Tok} (h : Tok.LexList E ts) : Tok.LexList E [.group d ts] := by
  rw [Tok.LexList, Tok.Lex]
  exact ⟨h, lexNil⟩

theorem lexStr {s : Str} : Tok.LexList E [.str s] := lexLit rfl

theorem lexNum {n : Nat} : Tok.LexList E [.num n] := lexLit rfl

theorem lexId {s : Str} (h : IdOk E s) : Tok.LexList E [Tok.ident s] := by
  rw [h.1, Tok.LexList, Tok.Lex]
  exact ⟨h, lexNil⟩

theorem lexSeg {s : Str} (h : SegOk E s) : (Tok.ident s).Lex E := by
  obtain ⟨h1, h2⟩ := h
  cases ht : Tok.ident s with
  | id x =>
    rw [ht] at h1
    cases h1
    rw [Tok.Lex]
    exact ⟨ht, h2⟩
  | kw k =>
    rw [ht] at h1
    rw [Tok.Lex]
    cases k <;> first | cases h1; done | decide
  | _ => rw [ht] at h1; cases h1

theorem lexFlat {α : Type} {f : α → List Tok} : ∀ {l : List α}, (∀ x ∈ l, Tok.LexList E (f x)) → Tok.LexList E (l.flatMap f)
  | [], _ => lexNil
  | x :: l, h => by
    rw [List.flatMap_cons]
    exact lexApp (h x (by simp)) (lexFlat (fun y hy => h y (by simp [hy])))

theorem lexIf {b : Bool} {a c : List Tok} (ha : Tok.LexList E a) (hc : Tok.LexList E c) : Tok.LexList E (if b then a else c) := by
  split <;> assumption

/-- Splits a template into its pieces. -/
macro "lex_tpl" : tactic => `(tactic| repeat' first
  | assumption
  | exact lexStr
  | exact lexNum
  | exact lexId ‹_›
  | exact lexLit rfl
  | apply lexApp
  | apply lexGroup
  | apply lexIf)

theorem segToks_lex : ∀ {l : List Ident}, (∀ s ∈ l, SegOk E (lexTrim s.rs)) → Tok.LexList E (segToks l)
  | [], _ => lexNil
  | [s], h => by
    rw [segToks, Tok.LexList]
    exact ⟨lexSeg (h s (by simp)), lexNil⟩
  | s :: u :: l, h => by
    rw [segToks, List.cons_append, Tok.LexList]
    · exact ⟨lexSeg (h s (by simp)), lexApp (lexLit rfl) (segToks_lex (fun s hs => h s (List.mem_cons_of_mem _ hs)))⟩
    · nofun

theorem Path.lex {p : Path} (h : PathOk E p) : Tok.LexList E p.toks := by
  unfold Path.toks
  have := segToks_lex h.2
  lex_tpl

mutual
theorem RsTy.lex : ∀ (t : RsTy), t.Ok E → Tok.LexList E t.toks
  | .bool, _ => lexLit rfl
  | .f64, _ => lexLit rfl
  | .i64, _ => lexLit rfl
  | .u8, _ => lexLit rfl
  | .string, _ => lexLit rfl
  | .strRef, _ => lexLit rfl
  | .option t, h => by have := RsTy.lex t h; rw [RsTy.toks]; lex_tpl
  | .hashMap k v, h => by have := RsTy.lex k h.1; have := RsTy.lex v h.2; rw [RsTy.toks]; lex_tpl
  | .hashSet t, h => by have := RsTy.lex t h; rw [RsTy.toks]; lex_tpl
  | .vec t, h => by have := RsTy.lex t h; rw [RsTy.toks]; lex_tpl
  | .slice t, h => by have := RsTy.lex t h; rw [RsTy.toks]; lex_tpl
  | .ref t, h => by have := RsTy.lex t h; rw [RsTy.toks]; lex_tpl
  | .tuple ts, h => by have := RsTy.lexList ts h.2; rw [RsTy.toks]; lex_tpl
  | .stdNet n, h => by have h : IdOk E n := h; rw [RsTy.toks]; lex_tpl
  | .pathBuf, _ => lexLit rfl
  | .path, _ => lexLit rfl
  | .bound n, h => by have h : IdOk E n := h; rw [RsTy.toks]; lex_tpl
  | .boundLocal p, h => by have := Path.lex (p := p) h; rw [RsTy.toks]; lex_tpl
  | .boundNumpy, _ => lexLit rfl
  | .implIntoPy n, h => by have h : IdOk E n := h; rw [RsTy.toks]; lex_tpl
  | .implIntoPyDict, _ => lexLit rfl
theorem RsTy.lexList : ∀ (ts : List RsTy), RsTy.OkList E ts → Tok.LexList E (RsTy.toksList ts)
  | [], _ => lexNil
  | [t], h => by have := RsTy.lex t h.1; rw [RsTy.toksList]; lex_tpl
  | t :: u :: ts, h => by have := RsTy.lex t h.1; have := RsTy.lexList (u :: ts) h.2; rw [RsTy.toksList]; lex_tpl
end

theorem docToks_lex (d : Option Str) : Tok.LexList E (docToks d) := by
  cases d with
  | none => exact lexNil
  | some d => exact lexLit rfl

theorem Recv.lex (r : Recv) : Tok.LexList E r.toks := by cases r <;> exact lexLit rfl

theorem Ret.lex {r : Ret} (h : r.Ok E) : Tok.LexList E r.toks := by
  cases r with
  | ty t => exact RsTy.lex t h
  | _ => exact lexLit rfl

theorem paramToks_lex : ∀ {ps : List (Str × RsTy)}, (∀ p ∈ ps, IdOk E p.1 ∧ p.2.Ok E) → Tok.LexList E (paramToks ps)
  | [], _ => lexNil
  | [(x, t)], h => by
    have h1 : IdOk E x := (h (x, t) (by simp)).1
    have := RsTy.lex t (h (x, t) (by simp)).2
    rw [paramToks]; lex_tpl
  | (x, t) :: q :: ps, h => by
    have h1 : IdOk E x := (h (x, t) (by simp)).1
    have := RsTy.lex t (h (x, t) (by simp)).2
    have := paramToks_lex (ps := q :: ps) (fun p hp => h p (List.mem_cons_of_mem _ hp))
    rw [paramToks]
    · lex_tpl
    · exact fun h => nomatch h

theorem Sig.lex {s : Sig} (h : s.Ok E) : Tok.LexList E s.toks := by
  obtain ⟨h1, h2, h3, -⟩ := h
  have := Recv.lex (E := E) s.recv
  have := paramToks_lex h2
  have := Ret.lex h3
  unfold Sig.toks
  have : Tok.LexList E (if s.ret = .unit then t!"," else []) := by split <;> exact lexLit rfl
  lex_tpl

theorem internToks_lex (n : Str) : Tok.LexList E (internToks n) := lexLit rfl

theorem Obj.lex : ∀ o : Obj, Tok.LexList E o.toks
  | .self => lexLit rfl
  | .import p => lexLit rfl
  | .getattr o n => by
    have := Obj.lex o
    have := internToks_lex (E := E) n
    rw [Obj.toks]; lex_tpl

theorem preToks_lex {x : Str} (h : IdOk E x) (p : Pre) : Tok.LexList E (preToks x p) := by
  cases p <;> (rw [preToks]; lex_tpl)

theorem toObjectToks_lex {x : Str} (h : IdOk E x) : Tok.LexList E (toObjectToks x) := by
  unfold toObjectToks; lex_tpl

theorem toObjectsToks_lex {xs : List Str} (h : ∀ x ∈ xs, IdOk E x) : Tok.LexList E [toObjectsToks xs] := by
  unfold toObjectsToks
  refine lexGroup (lexFlat fun x hx => ?_)
  have := toObjectToks_lex (h x hx)
  lex_tpl

theorem Pos.lex {p : Pos} (h : p.Ok E) : Tok.LexList E p.toks := by
  cases p with
  | unit => exact lexLit rfl
  | var x => exact lexId h
  | tuple xs =>
    have := toObjectsToks_lex h
    rw [Pos.toks]; lex_tpl
  | tupleVar xs x =>
    have h1 := toObjectsToks_lex h.1
    have h2 : IdOk E x := h.2
    have h3 : Tok.LexList E (toObjectToks c!"__internal__arg") := lexLit rfl
    rw [Pos.toks]; lex_tpl

theorem setItemsToks_lex {items : List (Str × Str)} (h : ∀ kx ∈ items, IdOk E kx.2) : Tok.LexList E (setItemsToks items) := by
  unfold setItemsToks
  refine lexFlat fun kx hk => ?_
  have h1 : IdOk E kx.2 := h kx hk
  have := internToks_lex (E := E) kx.1
  lex_tpl

theorem Kw.lex {k : Kw} (h : k.Ok E) : Tok.LexList E k.toks := by
  cases k with
  | fresh => exact lexLit rfl
  | var x => exact lexId h
  | freshSet items =>
    have := setItemsToks_lex h
    rw [Kw.toks]; lex_tpl
  | varSet x items =>
    have := setItemsToks_lex h.2
    have h1 : IdOk E x := h.1
    rw [Kw.toks]; lex_tpl

theorem callToks_lex {o : Obj} {m : Option Str} {pos : Option Pos} {kw : Option Kw} (hp : ∀ p ∈ pos, p.Ok E) (hk : ∀ k ∈ kw, k.Ok E) :
    Tok.LexList E (callToks o m pos kw) := by
  have h1 := Obj.lex (E := E) o
  have h2 := Pos.lex (getD_ok hp)
  cases m with
  | none =>
    cases kw with
    | some k =>
      have := Kw.lex (hk k rfl)
      rw [callToks]; lex_tpl
    | none =>
      cases pos with
      | some p => have := Pos.lex (hp p rfl); rw [callToks]; lex_tpl
      | none => rw [callToks]; lex_tpl
  | some m =>
    have h3 := internToks_lex (E := E) m
    cases kw with
    | some k =>
      have := Kw.lex (hk k rfl)
      rw [callToks]; lex_tpl
    | none =>
      cases pos with
      | some p => have := Pos.lex (hp p rfl); rw [callToks]; lex_tpl
      | none => rw [callToks]; lex_tpl

theorem Body.lex : ∀ {b : Body}, b.Ok E → Tok.LexList E b.toks
  | .call o m pos kw, h => by
    have := callToks_lex (o := o) (m := m) h.1 h.2
    rw [Body.toks]; lex_tpl
  | .getattr .self n, _ => lexLit rfl
  | .getattr (.import p) n, _ => lexLit rfl
  | .getattr (.getattr o m) n, _ => by
    have := Obj.lex (E := E) (.getattr o m)
    have := internToks_lex (E := E) n
    rw [Body.toks]
    · lex_tpl
    · nofun
  | .setattr o n x, h => by
    have := Obj.lex (E := E) o
    have := internToks_lex (E := E) n
    have h : IdOk E x := h
    rw [Body.toks]; lex_tpl

theorem Fn.lex {f : Fn} (h : f.Ok E) : Tok.LexList E f.toks := by
  have h1 := Sig.lex h.1
  have h2 := docToks_lex (E := E) f.doc
  have h3 : Tok.LexList E (f.pre.flatMap (fun (x, p) => preToks x p)) := lexFlat fun xp hxp => preToks_lex (h.2.1 xp hxp) xp.2
  have h4 := Body.lex h.2.2
  unfold Fn.toks; lex_tpl

theorem ClassItem.lex {c : ClassItem} (h : c.Ok E) : Tok.LexList E c.toks := by
  obtain ⟨h1, h2, h3, h4, h5⟩ := h
  have k1 := docToks_lex (E := E) c.doc
  have k2 : Tok.LexList E (c.inherent.flatMap Fn.toks) := lexFlat fun f hf => Fn.lex (h3 f hf)
  have k3 : Tok.LexList E (c.traitSigs.flatMap (fun s => s.toks ++ t!";")) := lexFlat fun s hs => lexApp (Sig.lex (h4 s hs).1) (lexLit rfl)
  have k4 : Tok.LexList E (c.traitImpls.flatMap Fn.toks) := lexFlat fun f hf => Fn.lex (h5 f hf)
  have d1 := docToks_lex (E := E) (some methodsDoc1)
  have d2 := docToks_lex (E := E) (some methodsDoc2)
  have d3 := docToks_lex (E := E) (some methodsDoc3)
  unfold ClassItem.toks ClassItem.structToks ClassItem.namedToks ClassItem.infoToks ClassItem.implToks ClassItem.traitToks
    ClassItem.traitImplToks
  lex_tpl

theorem allowToks_lex : Tok.LexList E allowToks := lexLit rfl

theorem embedToks_lex (s n f : Str) : Tok.LexList E (embedToks s n f) := lexLit rfl

mutual
theorem Item.lex : ∀ (i : Item), i.LocAll E → Tok.LexList E i.toks
  | .use p none, h => by
    have := Path.lex (p := p) h.1
    rw [Item.toks]; lex_tpl
  | .use p (some a), h => by
    have := Path.lex (p := p) h.1
    have h2 : IdOk E a := h.2 a rfl
    rw [Item.toks]; lex_tpl
  | .prelude n es, h => by
    have h1 : IdOk E n := h.1
    have : Tok.LexList E (es.flatMap (fun e => [Tok.ident e] ++ t!",")) := lexFlat fun e he => lexApp (lexId (h.2 e he)) (lexLit rfl)
    rw [Item.toks]; lex_tpl
  | .typeAlias n, h => by
    have h1 : IdOk E n := h
    rw [Item.toks]; lex_tpl
  | .class c, h => by rw [Item.toks]; exact ClassItem.lex h
  | .func f, h => by rw [Item.toks]; exact Fn.lex h.1
  | .prop f, h => by rw [Item.toks]; exact lexApp (lexLit rfl) (Fn.lex h.1)
  | .strayPub, _ => lexLit rfl
  | .embed s n f, _ => by rw [Item.toks]; exact embedToks_lex s n f
  | .mod a d n items, h => by
    have h1 : IdOk E n := h.1
    have h2 := Item.lexList items h.2
    have := allowToks_lex (E := E)
    have := docToks_lex (E := E) d
    rw [Item.toks]; lex_tpl
theorem Item.lexList : ∀ (is : List Item), Item.LocList E is → Tok.LexList E (Item.toksList is)
  | [], _ => lexNil
  | i :: is, h => by
    rw [Item.toksList]
    exact lexApp (Item.lex i h.1) (Item.lexList is h.2)
end

end Bindgen
