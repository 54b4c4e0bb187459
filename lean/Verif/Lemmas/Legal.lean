import Verif.Lemmas.Parse
import Verif.Lemmas.ParseItem
import Verif.Lemmas.Generate
import Verif.Lemmas.Prepared
import Verif.Lemmas.ParseItems
import Verif.Lemmas.ModuleNames
/-!
# The names and types of generated items are legal
-/
namespace Bindgen
open Spec

variable {E : Env}

theorem tokId_of {s : Str} (h : s ∉ rustKeywords) : Tok.ident s = .id s := by
  have hk : Keyword.all.find? (fun k => k.text = s) = none := by
    rw [List.find?_eq_none]
    intro k hk
    have : ∀ k ∈ Keyword.all, k.text ∈ rustKeywords := by decide
    simp only [decide_eq_true_eq]
    rintro rfl
    exact h (this k hk)
  unfold Tok.ident
  rw [hk]
  simp only
  rw [if_neg]
  simpa using h

/-- The text is an identifier of ASCII characters. -/
def asciiWord (s : Str) : Bool := isIdentText (Env.ascii true false) s && s.all (fun c => decide (c.toNat < 128))

theorem asciiWord_ident {s : Str} (h : asciiWord s = true) : isIdentText E s = true := by
  unfold asciiWord at h
  simp only [Bool.and_eq_true, List.all_eq_true, decide_eq_true_eq] at h
  exact (isIdentText_iff E s).mpr (isIdent_ascii E s h.1 h.2)

theorem idLit {s : Str} (h : Tok.ident s = .id s) (hw : asciiWord s = true) : IdOk E s := ⟨h, .inl (asciiWord_ident hw)⟩

theorem segLit {s : Str} (h : pSegName (Tok.ident s) = some s) (hw : asciiWord s = true) : SegOk E s := ⟨h, .inl (asciiWord_ident hw)⟩

theorem synIdentTok_ok {E : Env} {t s : Str} (h : synIdentTok E t = some s) : s = t ∧ IdOk E s := by
  unfold synIdentTok at h
  split at h
  · split at h
    · rename_i hc
      cases h
      simp only [Bool.and_eq_true, Bool.not_eq_true', List.contains_eq_mem, decide_eq_false_iff_not] at hc
      exact ⟨rfl, tokId_of (by simp [rustKeywords]), .inr ⟨_, rfl, hc⟩⟩
    · cases h
  · split at h
    · rename_i hc
      cases h
      simp only [Bool.and_eq_true, Bool.not_eq_true', List.contains_eq_mem, decide_eq_false_iff_not] at hc
      exact ⟨rfl, tokId_of hc.2, .inl hc.1⟩
    · cases h

theorem toSyn_ok {E : Env} {i : Ident} {s : Str} (h : i.toSyn E = some s) : s = lexTrim i.rs ∧ IdOk E s := synIdentTok_ok h

theorem trySyn_idOk {E : Env} {i : Ident} {s : Str} (h : i.trySyn E = .ok s) : IdOk E s := by
  unfold Ident.trySyn Res.orErr at h
  split at h
  · rename_i hs; cases h; exact (toSyn_ok hs).2
  · cases h

theorem segOk_of_idOk {s : Str} (h : IdOk E s) : SegOk E s := by
  exact ⟨by rw [h.1]; rfl, h.2⟩

theorem synOk_path {E : Env} {p : Path} (h : p.synOk E = true) : PathOk E p := by
  unfold Path.synOk at h
  simp only [Bool.and_eq_true, Bool.not_eq_true', List.isEmpty_eq_false_iff, List.all_eq_true] at h
  refine ⟨h.1, fun s hs => ?_⟩
  have := h.2 s hs
  unfold Path.synSegOk at this
  simp only [Bool.or_eq_true, Option.isSome_iff_exists] at this
  rcases this with ⟨t, ht⟩ | ht
  · obtain ⟨rfl, hk⟩ := toSyn_ok ht
    exact segOk_of_idOk hk
  · simp only [List.contains_eq_mem, decide_eq_true_eq, List.mem_cons, List.not_mem_nil, or_false] at ht
    rcases ht with ht | ht | ht | ht <;> rw [ht] <;> exact segLit rfl rfl

/-- Both types of a pair are legal. -/
def PairOk (E : Env) (t : RsTy × RsTy) : Prop := t.1.Ok E ∧ t.2.Ok E

theorem anyOut_ok : PairOk E anyOut := ⟨idLit rfl rfl, idLit rfl rfl⟩

theorem mapType_legal {E : Env} {lt : LocalTypes} {name : Str} {t : RsTy × RsTy} (h : mapType E lt name = .ok t) : PairOk E t := by
  unfold mapType at h
  split at h
  · cases h; exact ⟨trivial, trivial⟩
  · obtain ⟨-, -, h⟩ := Res.bind_ok h
    split at h
    · split at h
      · rename_i hs; cases h
        exact ⟨synOk_path hs, synOk_path hs⟩
      · cases h
    · cases h; exact anyOut_ok

mutual
theorem intoRs_ok {E : Env} {lt : LocalTypes} : ∀ (t : PyTy) {r : RsTy × RsTy}, intoRs E lt t = .ok r → PairOk E r
  | .any, _, h => by rw [intoRs] at h; cases h; exact anyOut_ok
  | .unknown, _, h => by rw [intoRs] at h; cases h; exact anyOut_ok
  | .other name, _, h => by rw [intoRs] at h; exact mapType_legal h
  | .bool, _, h => by rw [intoRs] at h; cases h; exact ⟨trivial, trivial⟩
  | .byteArray, _, h => by rw [intoRs] at h; cases h; exact ⟨trivial, trivial⟩
  | .bytes, _, h => by rw [intoRs] at h; cases h; exact ⟨trivial, trivial⟩
  | .float, _, h => by rw [intoRs] at h; cases h; exact ⟨trivial, trivial⟩
  | .long, _, h => by rw [intoRs] at h; cases h; exact ⟨trivial, trivial⟩
  | .string, _, h => by rw [intoRs] at h; cases h; exact ⟨trivial, trivial⟩
  | .optional t, _, h => by
    rw [intoRs] at h
    obtain ⟨i, hi, h⟩ := Res.bind_ok h
    cases h
    exact ⟨(intoRs_ok t hi).1, (intoRs_ok t hi).1⟩
  | .union _, _, h => by rw [intoRs] at h; cases h; exact anyOut_ok
  | .none, _, h => by rw [intoRs] at h; cases h; exact anyOut_ok
  | .dict k v, _, h => by
    rw [intoRs] at h
    obtain ⟨v', hv, h⟩ := Res.bind_ok h
    split at h
    · obtain ⟨k', hk, h⟩ := Res.bind_ok h
      cases h
      exact ⟨⟨(intoRs_ok k hk).1, (intoRs_ok v hv).1⟩, ⟨(intoRs_ok k hk).1, (intoRs_ok v hv).1⟩⟩
    · cases h; exact ⟨idLit rfl rfl, trivial⟩
  | .frozenSet t, _, h => by
    rw [intoRs] at h
    split at h
    · obtain ⟨i, hi, h⟩ := Res.bind_ok h
      cases h
      exact ⟨(intoRs_ok t hi).1, (intoRs_ok t hi).1⟩
    · cases h; exact ⟨idLit rfl rfl, idLit rfl rfl⟩
  | .list t, _, h => by
    rw [intoRs] at h
    obtain ⟨i, hi, h⟩ := Res.bind_ok h
    cases h
    exact ⟨(intoRs_ok t hi).1, (intoRs_ok t hi).1⟩
  | .set t, _, h => by
    rw [intoRs] at h
    split at h
    · obtain ⟨i, hi, h⟩ := Res.bind_ok h
      cases h
      exact ⟨(intoRs_ok t hi).1, (intoRs_ok t hi).1⟩
    · cases h; exact ⟨idLit rfl rfl, idLit rfl rfl⟩
  | .tuple [], _, h => by rw [intoRs] at h; cases h; exact ⟨idLit rfl rfl, idLit rfl rfl⟩
  | .tuple [_], _, h => by rw [intoRs] at h; cases h; exact ⟨idLit rfl rfl, idLit rfl rfl⟩
  | .tuple [t, u], _, h => by
    rw [intoRs] at h
    split at h
    · obtain ⟨i, hi, h⟩ := Res.bind_ok h
      cases h
      exact ⟨(intoRs_ok t hi).1, (intoRs_ok t hi).1⟩
    · obtain ⟨a, ha, h⟩ := Res.bind_ok h
      obtain ⟨b, hb, h⟩ := Res.bind_ok h
      cases h
      have : RsTy.Ok E (.tuple [a.1, b.1]) := ⟨by simp, (intoRs_ok t ha).1, (intoRs_ok u hb).1, trivial⟩
      exact ⟨this, this⟩
  | .tuple (t :: u :: w :: ts), _, h => by
    rw [intoRs] at h
    obtain ⟨a, ha, h⟩ := Res.bind_ok h
    obtain ⟨b, hb, h⟩ := Res.bind_ok h
    obtain ⟨c, hc, h⟩ := Res.bind_ok h
    obtain ⟨is, his, h⟩ := Res.bind_ok h
    cases h
    have : RsTy.Ok E (.tuple (a.1 :: b.1 :: c.1 :: is)) :=
      ⟨by simp, (intoRs_ok t ha).1, (intoRs_ok u hb).1, (intoRs_ok w hc).1, intoRsList_ok ts his⟩
    exact ⟨this, this⟩
  | .ipV4, _, h => by rw [intoRs] at h; cases h; exact ⟨idLit rfl rfl, idLit rfl rfl⟩
  | .ipV6, _, h => by rw [intoRs] at h; cases h; exact ⟨idLit rfl rfl, idLit rfl rfl⟩
  | .path, _, h => by rw [intoRs] at h; cases h; exact ⟨trivial, trivial⟩
  | .slice, _, h => by rw [intoRs] at h; cases h; exact ⟨idLit rfl rfl, idLit rfl rfl⟩
  | .complex, _, h => by rw [intoRs] at h; cases h; exact ⟨idLit rfl rfl, idLit rfl rfl⟩
  | .date, _, h => by rw [intoRs] at h; cases h; exact ⟨idLit rfl rfl, idLit rfl rfl⟩
  | .dateTime, _, h => by rw [intoRs] at h; cases h; exact ⟨idLit rfl rfl, idLit rfl rfl⟩
  | .delta, _, h => by rw [intoRs] at h; cases h; exact anyOut_ok
  | .time, _, h => by rw [intoRs] at h; cases h; exact ⟨idLit rfl rfl, idLit rfl rfl⟩
  | .tzInfo, _, h => by rw [intoRs] at h; cases h; exact ⟨idLit rfl rfl, idLit rfl rfl⟩
  | .capsule, _, h => by rw [intoRs] at h; cases h; exact ⟨idLit rfl rfl, idLit rfl rfl⟩
  | .cFunction, _, h => by rw [intoRs] at h; cases h; exact ⟨idLit rfl rfl, idLit rfl rfl⟩
  | .code, _, h => by rw [intoRs] at h; cases h; exact ⟨idLit rfl rfl, idLit rfl rfl⟩
  | .ellipsis, _, h => by rw [intoRs] at h; cases h; exact anyOut_ok
  | .frame, _, h => by rw [intoRs] at h; cases h; exact ⟨idLit rfl rfl, idLit rfl rfl⟩
  | .function _ _, _, h => by rw [intoRs] at h; cases h; exact ⟨idLit rfl rfl, idLit rfl rfl⟩
  | .module, _, h => by rw [intoRs] at h; cases h; exact ⟨idLit rfl rfl, idLit rfl rfl⟩
  | .super, _, h => by rw [intoRs] at h; cases h; exact ⟨idLit rfl rfl, idLit rfl rfl⟩
  | .traceback, _, h => by rw [intoRs] at h; cases h; exact ⟨idLit rfl rfl, idLit rfl rfl⟩
  | .type, _, h => by rw [intoRs] at h; cases h; exact ⟨idLit rfl rfl, idLit rfl rfl⟩
theorem intoRsList_ok {E : Env} {lt : LocalTypes} : ∀ (ts : List PyTy) {r : List RsTy}, intoRsList E lt ts = .ok r → RsTy.OkList E r
  | [], _, h => by rw [intoRsList] at h; cases h; trivial
  | t :: ts, _, h => by
    rw [intoRsList] at h
    obtain ⟨i, hi, h⟩ := Res.bind_ok h
    obtain ⟨is, his, h⟩ := Res.bind_ok h
    cases h
    exact ⟨(intoRs_ok t hi).1, intoRsList_ok ts his⟩
end

theorem owned_ok {E : Env} {lt : LocalTypes} {t : PyTy} {r : RsTy} (h : intoRsOwned E lt t = .ok r) : r.Ok E := by
  obtain ⟨i, hi, h⟩ := Res.bind_ok h
  cases h
  exact (intoRs_ok t hi).1

theorem borrowed_ok {E : Env} {lt : LocalTypes} {t : PyTy} {r : RsTy} (h : intoRsBorrowed E lt t = .ok r) : r.Ok E := by
  obtain ⟨i, hi, h⟩ := Res.bind_ok h
  cases h
  exact (intoRs_ok t hi).2

theorem functionIdent_ok {E : Env} {n : Ident} {s : Str} (h : Function.ident E n = some s) : IdOk E s := by
  unfold Function.ident at h
  split at h
  · rename_i hs
    split at h
    · cases h
    · cases h; exact (toSyn_ok hs).2
  · exact (toSyn_ok h).2

theorem zip_mem_left {α β : Type} {a : α} {b : β} {l : List α} {l' : List β} (h : (a, b) ∈ l.zip l') : a ∈ l ∧ b ∈ l' :=
  ⟨(List.of_mem_zip h).1, (List.of_mem_zip h).2⟩

theorem positional_ok {E : Env} {ps : List Param} {r : Option Pos} (h : positionalArgs E ps = .ok r) : ∀ p ∈ r, p.Ok E := by
  obtain ⟨xs, hxs, h⟩ := Res.bind_ok h
  have hid : ∀ x ∈ xs, IdOk E x := by
    intro x hx
    obtain ⟨p, -, hp⟩ := traverse_mem hxs hx
    exact trySyn_idOk hp
  cases h
  split
  · rename_i x hx
    have hx : IdOk E x := by
      rw [Option.bind_eq_some_iff] at hx
      obtain ⟨q, -, hq⟩ := hx
      exact (toSyn_ok hq).2
    rintro p hp
    cases hp
    split
    · exact hx
    · exact ⟨hid, hx⟩
  · split
    · rintro p hp; cases hp
    · rintro p hp; cases hp; exact hid

theorem keyword_ok {E : Env} {ps : List Param} {r : Option Kw} (h : keywordArgs E ps = .ok r) : ∀ p ∈ r, p.Ok E := by
  obtain ⟨xs, hxs, h⟩ := Res.bind_ok h
  have hid : ∀ x ∈ xs, IdOk E x := by
    intro x hx
    obtain ⟨p, -, hp⟩ := traverse_mem hxs hx
    exact trySyn_idOk hp
  have hit : ∀ kx ∈ ((ps.filter (fun p => p.kind = .keywordOnly)).map (fun p => p.name.asPy)).zip xs, IdOk E kx.2 :=
    fun kx hk => hid _ (List.of_mem_zip hk).2
  cases h
  split
  · rename_i x hx
    have hx : IdOk E x := by
      rw [Option.bind_eq_some_iff] at hx
      obtain ⟨q, -, hq⟩ := hx
      exact (toSyn_ok hq).2
    rintro p hp
    cases hp
    split
    · exact hx
    · exact ⟨hx, hit⟩
  · split
    · rintro p hp; cases hp
    · rintro p hp; cases hp; exact hit

theorem contract_ok {E : Env} {typ : FnType} {ident : Str} {taken : List Ident} {params : List (Str × RsTy)} {ret : RsTy} {s : Sig}
    (h : Function.contract E typ ident taken params ret = .ok s) (hi : IdOk E ident) (hp : ∀ p ∈ params, IdOk E p.1 ∧ p.2.Ok E) (hr : ret.Ok E) :
    s.Ok E ∧ s.pub = decide (s.recv = .py) := by
  unfold Function.contract at h
  split at h
  · cases h; exact ⟨⟨hi, hp, hr, nofun⟩, rfl⟩
  · obtain ⟨j, -, h⟩ := Res.bind_ok h
    obtain ⟨k, hk, h⟩ := Res.bind_ok h
    cases h; exact ⟨⟨trySyn_idOk hk, hp, hr, nofun⟩, rfl⟩
  · obtain ⟨j, -, h⟩ := Res.bind_ok h
    obtain ⟨k, hk, h⟩ := Res.bind_ok h
    cases h; exact ⟨⟨trySyn_idOk hk, hp, trivial, nofun⟩, rfl⟩
  · cases h; exact ⟨⟨hi, hp, hr, nofun⟩, rfl⟩

/-- The functions of an implementation are legal: the free ones are `pub`, the methods are not. -/
def ImplOk (E : Env) : FnImpl → Prop
  | .func fns => ∀ f ∈ fns, f.Ok E ∧ f.sig.pub = true
  | .method sigs fns => (∀ s ∈ sigs, s.Ok E ∧ s.pub = false) ∧ ∀ f ∈ fns, f.Ok E

theorem function_ok {E : Env} {cfg : Config} {imp : Str → Bool} {taken : List Ident} {lt : LocalTypes} {f : Function} {r : FnImpl}
    (h : f.generate E cfg imp taken lt = .ok r) : ImplOk E r := by
  unfold Function.generate at h
  obtain ⟨name, -, h⟩ := Res.bind_ok h
  split at h
  · cases h; exact fun _ h => nomatch h
  · rename_i ident hid
    obtain ⟨idents, h1, h⟩ := Res.bind_ok h
    obtain ⟨pres, h2, h⟩ := Res.bind_ok h
    obtain ⟨types, h3, h⟩ := Res.bind_ok h
    obtain ⟨ret, h4, h⟩ := Res.bind_ok h
    obtain ⟨sig, h5, h⟩ := Res.bind_ok h
    obtain ⟨d, -, h⟩ := Res.bind_ok h
    have hids : ∀ x ∈ idents, IdOk E x := by
      intro x hx
      obtain ⟨p, -, hp⟩ := traverse_mem h1 hx
      exact trySyn_idOk hp
    have hts : ∀ t ∈ types, t.Ok E := by
      intro x hx
      obtain ⟨p, -, hp⟩ := traverse_mem h3 hx
      exact borrowed_ok hp
    obtain ⟨hs, hpub⟩ := contract_ok h5 (functionIdent_ok hid)
      (fun p hp => ⟨hids _ (List.of_mem_zip hp).1, hts _ (List.of_mem_zip hp).2⟩) (owned_ok h4)
    split at h
    · cases h; exact ⟨fun _ h => (nomatch h), fun _ h => (nomatch h)⟩
    · obtain ⟨pos, h6, h⟩ := Res.bind_ok h
      obtain ⟨kw, h7, h⟩ := Res.bind_ok h
      have hpos := positional_ok h6
      have hkw := keyword_ok h7
      cases h
      have hf : ∀ (isSelf : Bool) meth, Fn.Ok E ⟨docAttr cfg f.doc, sig, isSelf, idents.zip pres,
          .call ‹Obj› meth (if kw.isSome && pos.isNone then some .unit else pos) kw⟩ := by
        intro isSelf meth
        refine ⟨hs, fun xp hxp => hids _ (List.of_mem_zip hxp).1, ?_, hkw⟩
        intro p hp
        split at hp
        · cases hp; trivial
        · exact hpos p hp
      split
      · rename_i hself
        refine ⟨fun s hs' => ?_, fun g hg => ?_⟩
        · rw [List.mem_singleton] at hs'
          subst hs'
          exact ⟨hs, by rw [hpub, hself]; rfl⟩
        · rw [List.mem_singleton] at hg
          subst hg
          exact hf _ _
      · rename_i hself
        intro g hg
        rw [List.mem_singleton] at hg
        subst hg
        refine ⟨hf _ _, ?_⟩
        simp only [hpub]
        cases hr : sig.recv with
        | py => rfl
        | self => exact absurd hr hself

theorem getterIdent_ok {E : Env} {taken : List Ident} {n : Ident} {s : Str} (h : getterIdent E taken n = .ok (some s)) : IdOk E s := by
  have hf : getterFallback E taken n = .ok (some s) → IdOk E s := by
    intro h
    unfold getterFallback at h
    simp only at h
    split at h
    · cases h
    · obtain ⟨i, hi, h⟩ := Res.bind_ok h
      cases h
      exact trySyn_idOk hi
  unfold getterIdent at h
  split at h
  · rename_i hs
    split at h
    · exact hf h
    · cases h; exact (toSyn_ok hs).2
  · exact hf h

theorem setterIdent_ok {E : Env} {taken : List Ident} {n : Ident} {s : Str} (h : setterIdent E taken n = .ok (some s)) : IdOk E s := by
  unfold setterIdent at h
  simp only at h
  split at h
  · cases h
  · obtain ⟨i, hi, h⟩ := Res.bind_ok h
    cases h
    exact trySyn_idOk hi

/-- An accessor is legal, is not `pub`, and has one of these docs. -/
def AccessorOk (E : Env) (cfg : Config) (p : Property) (f : Fn) : Prop :=
  f.Ok E ∧ f.sig.pub = false ∧ (f.doc = docAttr cfg p.doc ∨ f.doc = docAttr cfg p.setterDoc)

theorem getter_ok {E : Env} {cfg : Config} {imp : Str → Bool} {taken : List Ident} {lt : LocalTypes} {p : Property} {f : Fn}
    (h : p.generateGetter E cfg imp taken lt = .ok (some f)) : AccessorOk E cfg p f := by
  unfold Property.generateGetter at h
  obtain ⟨name, -, h⟩ := Res.bind_ok h
  obtain ⟨o, ho, h⟩ := Res.bind_ok h
  cases o with
  | none => cases h
  | some ident =>
    obtain ⟨ty, h1, h⟩ := Res.bind_ok h
    obtain ⟨obj, -, h⟩ := Res.bind_ok h
    cases h
    exact ⟨⟨⟨getterIdent_ok ho, fun _ h => (nomatch h), owned_ok h1, nofun⟩, fun _ h => (nomatch h), trivial⟩, rfl, Or.inl rfl⟩

theorem setter_ok {E : Env} {cfg : Config} {imp : Str → Bool} {taken : List Ident} {lt : LocalTypes} {p : Property} {f : Fn}
    (h : p.generateSetter E cfg imp taken lt = .ok (some f)) : AccessorOk E cfg p f := by
  unfold Property.generateSetter at h
  obtain ⟨name, -, h⟩ := Res.bind_ok h
  obtain ⟨o, ho, h⟩ := Res.bind_ok h
  cases o with
  | none => cases h
  | some ident =>
    obtain ⟨pre, -, h⟩ := Res.bind_ok h
    obtain ⟨ty, h1, h⟩ := Res.bind_ok h
    obtain ⟨obj, -, h⟩ := Res.bind_ok h
    cases h
    refine ⟨⟨⟨setterIdent_ok ho, fun q hq => ?_, trivial, fun _ => by simp⟩, fun q hq => ?_, idLit rfl rfl⟩, rfl, Or.inr rfl⟩
    · rw [List.mem_singleton] at hq
      subst hq
      exact ⟨idLit rfl rfl, borrowed_ok h1⟩
    · rw [List.mem_singleton] at hq
      subst hq
      exact idLit rfl rfl

theorem property_ok {E : Env} {cfg : Config} {imp : Str → Bool} {taken : List Ident} {lt : LocalTypes} {p : Property} {l : List (Option Fn)}
    (h : p.generate E cfg imp taken lt = .ok l) {f : Fn} (hf : some f ∈ l) : AccessorOk E cfg p f := by
  unfold Property.generate at h
  obtain ⟨g, hg, h⟩ := Res.bind_ok h
  split at h
  · obtain ⟨s, hs, h⟩ := Res.bind_ok h
    cases h
    simp only [List.mem_cons, List.not_mem_nil, or_false] at hf
    rcases hf with rfl | rfl
    · exact getter_ok hg
    · exact setter_ok hs
  · cases h
    rw [List.mem_singleton] at hf
    subst hf
    exact getter_ok hg

/-- The parts of a class are legal. -/
def PartsOk (E : Env) (a : ClassParts) : Prop :=
  (∀ f ∈ a.inherent, f.Ok E) ∧ (∀ s ∈ a.traitSigs, s.Ok E ∧ s.pub = false) ∧ ∀ f ∈ a.traitImpls, f.Ok E

theorem parts_fold_ok : ∀ {l : List FnImpl} {a : ClassParts}, PartsOk E a → (∀ i ∈ l, ImplOk E i) → PartsOk E (l.foldl ClassParts.add a)
  | [], _, ha, _ => ha
  | i :: l, a, ha, h => by
    refine parts_fold_ok (l := l) ?_ (fun j hj => h j (by simp [hj]))
    have hi := h i (by simp)
    obtain ⟨h1, h2, h3⟩ := ha
    cases i with
    | func fns =>
      refine ⟨fun f hf => ?_, h2, h3⟩
      rcases List.mem_append.mp hf with hf | hf
      · exact h1 f hf
      · exact (hi f hf).1
    | method sigs fns =>
      refine ⟨h1, fun s hs => ?_, fun f hf => ?_⟩
      · rcases List.mem_append.mp hs with hs | hs
        · exact h2 s hs
        · exact hi.1 s hs
      · rcases List.mem_append.mp hf with hf | hf
        · exact h3 f hf
        · exact hi.2 f hf

theorem class_ok {E : Env} {cfg : Config} {imp : Str → Bool} {lt : LocalTypes} {c : Class} {k : ClassItem}
    (h : c.generate E cfg imp lt = .ok (some k)) : k.Ok E := by
  unfold Class.generate at h
  obtain ⟨name, -, h⟩ := Res.bind_ok h
  split at h
  · cases h
  · rename_i ident hid
    have hid : IdOk E ident := by
      unfold Class.ident at hid
      split at hid
      · rename_i hs; cases hid; exact (toSyn_ok hs).2
      · exact (toSyn_ok hid).2
    obtain ⟨taken, -, h⟩ := Res.bind_ok h
    obtain ⟨impls, h1, h⟩ := Res.bind_ok h
    obtain ⟨props, h2, h⟩ := Res.bind_ok h
    obtain ⟨t, ht, h⟩ := Res.bind_ok h
    cases h
    have hp : PartsOk E ((impls ++ props.map propImpl).foldl ClassParts.add ⟨[], [], []⟩) := by
      refine parts_fold_ok ⟨fun _ h => (nomatch h), fun _ h => (nomatch h), fun _ h => (nomatch h)⟩ fun i hi => ?_
      rcases List.mem_append.mp hi with hi | hi
      · obtain ⟨m, -, hm⟩ := traverse_mem h1 hi
        exact function_ok hm
      · obtain ⟨l, hl, rfl⟩ := List.mem_map.mp hi
        obtain ⟨p, -, hp⟩ := traverse_mem h2 hl
        have ha : ∀ f ∈ l.filterMap id, AccessorOk E cfg p f := by
          intro f hf
          rw [List.mem_filterMap] at hf
          obtain ⟨o, ho, rfl⟩ := hf
          exact property_ok hp ho
        refine ⟨fun s hs => ?_, fun f hf => (ha f hf).1⟩
        obtain ⟨f, hf, rfl⟩ := List.mem_map.mp hs
        exact ⟨(ha f hf).1.1, (ha f hf).2.1⟩
    exact ⟨hid, trySyn_idOk ht, hp.1, hp.2.1, hp.2.2⟩

theorem exports_ok {E : Env} {m : Module} : ∀ {l : List Ident} {es : List Str}, m.preludeExports E l = .ok es → ∀ x ∈ es, IdOk E x
  | [], _, h => by cases h; exact fun _ h => nomatch h
  | i :: l, es, h => by
    unfold Module.preludeExports at h
    obtain ⟨b, -, h⟩ := Res.bind_ok h
    split at h
    · obtain ⟨s, hs, h⟩ := Res.bind_ok h
      obtain ⟨es', he, h⟩ := Res.bind_ok h
      cases h
      intro x hx
      rcases List.mem_cons.mp hx with rfl | hx
      · exact trySyn_idOk hs
      · exact exports_ok he x hx
    · exact exports_ok h

theorem import_ok {E : Env} {i : Import} {p : Path} {a : Option Str} (h : Import.generate E i = .ok (some (.use p a))) :
    PathOk E p ∧ ∀ x ∈ a, IdOk E x := by
  unfold Import.generate at h
  split at h
  · cases h
  · split at h
    · cases h
    · obtain ⟨rel, -, h⟩ := Res.bind_ok h
      split at h
      · rename_i hs
        obtain ⟨o, -, h⟩ := Res.bind_ok h
        obtain ⟨t, -, h⟩ := Res.bind_ok h
        split at h
        · cases h; exact ⟨synOk_path hs, fun _ h => nomatch h⟩
        · obtain ⟨b, hb, h⟩ := Res.bind_ok h
          cases h
          exact ⟨synOk_path hs, fun x hx => by cases hx; exact trySyn_idOk hb⟩
      · cases h

/-- An item by itself is legal. -/
def Item.Loc (E : Env) : Item → Prop
  | .use p a => PathOk E p ∧ ∀ x ∈ a, IdOk E x
  | .prelude n es => IdOk E n ∧ ∀ x ∈ es, IdOk E x
  | .typeAlias n => IdOk E n
  | .class c => c.Ok E
  | .func f => f.Ok E ∧ f.sig.pub = true
  | .prop f => f.Ok E ∧ f.doc = none ∧ f.sig.pub = false
  | .strayPub => True
  | .embed _ _ _ => True
  | .mod _ _ n _ => IdOk E n

theorem from_loc {E : Env} {cfg : Config} {imp : Str → Bool} {tops : List Module} {ts : List Path} {L : List Module} {x : Item}
    (hd : ∀ M, InTree M L → ∀ p ∈ M.properties, p.owner = .module → p.doc = none ∧ p.setterDoc = none)
    (h : From E cfg imp tops ts L x) : x.Loc E := by
  cases h with
  | mod M x hM hg =>
    obtain ⟨q⟩ := generate_parts hg
    rw [q.item]
    show IdOk E _
    exact (toSyn_ok q.identOk).2
  | embed M x hM hm =>
    unfold embedItems at hm
    split at hm
    · rw [List.mem_singleton] at hm; subst hm; trivial
    · cases hm
  | content M o q x hM hm hc =>
    cases hc with
    | use i p a _ _ _ hg => exact import_ok hg
    | prelude n es _ hg =>
      obtain ⟨n', es', names, i, he, h1, -, -, -, h2⟩ := generatePrelude_prelude hg
      cases he
      exact ⟨trySyn_idOk h2, exports_ok h1⟩
    | typeVar t n _ _ hg =>
      obtain ⟨i, -, hg⟩ := Res.bind_ok hg
      obtain ⟨s, hs, hg⟩ := Res.bind_ok hg
      cases hg
      exact trySyn_idOk hs
    | class' c k _ _ hg => exact class_ok hg
    | function f fns fn _ _ hg hf => exact function_ok hg fn hf
    | property p l fn _ hp ho hg hf =>
      obtain ⟨h1, h2, h3⟩ := property_ok hg hf
      obtain ⟨d1, d2⟩ := hd M hM p hp ho
      refine ⟨h1, ?_, h2⟩
      rcases h3 with h3 | h3 <;> rw [h3] <;> simp [docAttr, d1, d2]
    | stray => trivial

/-! ## Files -/

mutual
/-- An item and all items in it are legal by themselves. -/
def Item.LocAll (E : Env) : Item → Prop
  | .mod _ _ n items => IdOk E n ∧ Item.LocList E items
  | x => x.Loc E
/-- The same for all. -/
def Item.LocList (E : Env) : List Item → Prop
  | [] => True
  | i :: is => i.LocAll E ∧ Item.LocList E is
end

mutual
/-- The item is or contains a `pub` without anything. -/
def Item.Stray : Item → Prop
  | .strayPub => True
  | .mod _ _ _ items => Item.StrayList items
  | _ => False
/-- One of the items is or contains it. -/
def Item.StrayList : List Item → Prop
  | [] => False
  | i :: is => i.Stray ∨ Item.StrayList is
end

mutual
theorem locAll_of : ∀ (i : Item), i.Loc E → (∀ a d n inner, i = .mod a d n inner → ∀ x, Within x inner → x.Loc E) → i.LocAll E
  | .use .., h, _ => h
  | .prelude .., h, _ => h
  | .typeAlias .., h, _ => h
  | .class .., h, _ => h
  | .func .., h, _ => h
  | .prop .., h, _ => h
  | .strayPub, h, _ => h
  | .embed .., h, _ => h
  | .mod a d n inner, h, h' => ⟨h, locList_of inner (h' a d n inner rfl)⟩
theorem locList_of : ∀ (is : List Item), (∀ x, Within x is → x.Loc E) → Item.LocList E is
  | [], _ => trivial
  | i :: is, h => ⟨locAll_of i (h i (.top (by simp))) (fun _ _ _ _ e x hx => h x (.sub (by rw [← e]; simp) hx)),
      locList_of is (fun x hx => h x (by
        cases hx with
        | top hm => exact .top (by simp [hm])
        | sub hm hs => exact .sub (List.mem_cons_of_mem _ hm) hs))⟩
end

mutual
theorem stray_of : ∀ (i : Item), i.Stray ↔ i = .strayPub ∨ ∃ a d n inner, i = .mod a d n inner ∧ Within .strayPub inner
  | .use .. => by simp [Item.Stray]
  | .prelude .. => by simp [Item.Stray]
  | .typeAlias .. => by simp [Item.Stray]
  | .class .. => by simp [Item.Stray]
  | .func .. => by simp [Item.Stray]
  | .prop .. => by simp [Item.Stray]
  | .strayPub => by simp [Item.Stray]
  | .embed .. => by simp [Item.Stray]
  | .mod a d n inner => by
    rw [Item.Stray, strayList_of inner]
    constructor
    · exact fun h => .inr ⟨a, d, n, inner, rfl, h⟩
    · rintro (h | ⟨a', d', n', inner', h, hw⟩)
      · cases h
      · cases h; exact hw
theorem strayList_of : ∀ (is : List Item), Item.StrayList is ↔ Within .strayPub is
  | [] => by
    rw [Item.StrayList]
    refine ⟨False.elim, fun h => ?_⟩
    cases h with
    | top hm => cases hm
    | sub hm _ => cases hm
  | i :: is => by
    rw [Item.StrayList, stray_of i, strayList_of is]
    constructor
    · rintro ((rfl | ⟨a, d, n, inner, rfl, hw⟩) | h)
      · exact .top (by simp)
      · exact .sub (List.mem_cons_self ..) hw
      · cases h with
        | top hm => exact .top (by simp [hm])
        | sub hm hs => exact .sub (List.mem_cons_of_mem _ hm) hs
    · intro h
      cases h with
      | top hm =>
        rcases List.mem_cons.mp hm with rfl | hm
        · exact .inl (.inl rfl)
        · exact .inr (.top hm)
      | sub hm hs =>
        rcases List.mem_cons.mp hm with rfl | hm
        · exact .inl (.inr ⟨_, _, _, _, rfl, hs⟩)
        · exact .inr (.sub hm hs)
end

mutual
theorem ok_of_loc : ∀ (i : Item), i.LocAll E → ¬ i.Stray → i.Ok E
  | .use .., h, _ => h
  | .prelude .., h, _ => h
  | .typeAlias .., h, _ => h
  | .class .., h, _ => h
  | .func .., h, _ => h.1
  | .prop .., h, _ => h
  | .strayPub, _, h => (h trivial).elim
  | .embed .., h, _ => h
  | .mod _ _ _ inner, h, h' => ⟨h.1, okList_of_loc inner h.2 h'⟩
theorem okList_of_loc : ∀ (is : List Item), Item.LocList E is → ¬ Item.StrayList is → Item.OkList E is
  | [], _, _ => trivial
  | i :: is, h, h' => ⟨ok_of_loc i h.1 (fun s => h' (.inl s)), okList_of_loc is h.2 (fun s => h' (.inr s))⟩
end

theorem startsItem_doc {d : Option Str} {ts : List Tok} (h : startsItem ts = true) : startsItem (docToks d ++ ts) = true := by
  cases d with
  | none => exact h
  | some d => rfl

theorem starts : ∀ (is : List Item), Item.LocList E is → startsItem (Item.toksList is) = true
  | [], _ => rfl
  | .use p a :: is, _ => by cases a <;> simp [Item.toksList, Item.toks, startsItem]
  | .prelude .. :: is, _ => by simp [Item.toksList, Item.toks, startsItem]
  | .typeAlias .. :: is, _ => by simp [Item.toksList, Item.toks, startsItem]
  | .class c :: is, _ => by
    simp only [Item.toksList, Item.toks, ClassItem.toks, ClassItem.structToks, List.append_assoc]
    exact startsItem_doc rfl
  | .func f :: is, h => by
    have hp : f.sig.pub = true := h.1.2
    simp only [Item.toksList, Item.toks, Fn.toks_eq, hp, if_true]
    exact startsItem_doc rfl
  | .prop .. :: is, _ => by simp [Item.toksList, Item.toks, startsItem]
  | .strayPub :: is, _ => by simp [Item.toksList, Item.toks, startsItem]
  | .embed .. :: is, _ => rfl
  | .mod allow d n inner :: is, _ => by
    simp only [Item.toksList, Item.toks, List.append_assoc]
    cases allow with
    | true => rfl
    | false => exact startsItem_doc rfl

/-- The tokens are not a list of items. -/
def Fails (ts : List Tok) : Prop := ∃ N c, ∀ n ≥ N, ∀ k ≥ c, pMany (pItem n) k ts = none

theorem fails_of_item {ts : List Tok} (hne : ts ≠ []) (h : ∃ N, ∀ n ≥ N, pItem n ts = none) : Fails ts := by
  obtain ⟨N, h⟩ := h
  refine ⟨N, 0, fun n hn k _ => ?_⟩
  cases k with
  | zero => rfl
  | succ k =>
    cases ts with
    | nil => exact absurd rfl hne
    | cons t ts => simp only [pMany, h n hn]

theorem fails_after {ts us : List Tok} {l : List RItem} (h : PM pItem ts l) (h' : Fails us) : Fails (ts ++ us) := by
  obtain ⟨N, c, h⟩ := h
  obtain ⟨N', c', h'⟩ := h'
  refine ⟨N + N', c' + c, fun n hn k hk => ?_⟩
  have := h n (by omega) (k - c) us
  rw [show k - c + c = k by omega, h' n (by omega) (k - c) (by omega)] at this
  exact this

theorem fails_stray {ts : List Tok} (h : startsItem ts = true) : Fails (.kw .pub :: ts) := by
  refine fails_of_item (by simp) ⟨0, fun n _ => ?_⟩
  cases n with
  | zero => rfl
  | succ n =>
    simp only [pItem, pItemStep]
    rw [attrs_none (ts := .kw .pub :: ts) rfl]
    simp only [pVis]
    unfold startsItem at h
    split at h <;> first | rfl | cases h

theorem fails_mod (allow : Bool) (doc : Option Str) (x : Str) {ts : List Tok} (h : Fails ts) (rest : List Tok) :
    Fails ((if allow then allowToks else []) ++ docToks doc ++ t!"pub mod" ++ [.id x] ++ [.brace ts] ++ rest) := by
  obtain ⟨N, c, h⟩ := h
  refine fails_of_item (by simp) ⟨N + c + 6, fun n hn => ?_⟩
  obtain ⟨k, rfl⟩ : ∃ k, n = k + 6 := ⟨n - 6, by omega⟩
  have h := h (k + 5) (by omega) (k + 5) (by omega)
  show pItemStep (k + 5) (pItem (k + 5)) _ = none
  simp only [pItemStep, mod_attrs]
  simp only [List.cons_append, List.nil_append, pVis, h]
  rfl

mutual
theorem fails_head : ∀ (i : Item), i.LocAll E → i.Stray → ∀ us, startsItem us = true → Fails (i.toks ++ us)
  | .use .., _, h, _, _ => h.elim
  | .prelude .., _, h, _, _ => h.elim
  | .typeAlias .., _, h, _, _ => h.elim
  | .class .., _, h, _, _ => h.elim
  | .func .., _, h, _, _ => h.elim
  | .prop .., _, h, _, _ => h.elim
  | .embed .., _, h, _, _ => h.elim
  | .strayPub, _, _, us, hu => by
    rw [Item.toks]
    exact fails_stray hu
  | .mod allow d n inner, hl, h, us, _ => by
    have hn : Tok.ident n = .id n := hl.1.1
    rw [Item.toks, hn]
    exact fails_mod allow d n (fails_list inner hl.2 h) us
theorem fails_list : ∀ (is : List Item), Item.LocList E is → Item.StrayList is → Fails (Item.toksList is)
  | [], _, h => h.elim
  | i :: is, hl, h => by
    rw [Item.toksList]
    by_cases hs : i.Stray
    · exact fails_head i hl.1 hs _ (starts is hl.2)
    · exact fails_after (Item.parses i (ok_of_loc i hl.1 hs)) (fails_list is hl.2 (h.resolve_left hs))
end

theorem invalid_stray {is : List Item} (hl : ∀ x, Within x is → x.Loc E) (h : Within .strayPub is) : Invalid (Item.toksList is) := by
  obtain ⟨N, c, h⟩ := fails_list is (locList_of is hl) ((strayList_of is).mpr h)
  exact ⟨N + c, fun k hk => h k (by omega) k (by omega)⟩

mutual
theorem dangling_head : ∀ (i : Item), i.LocAll E → i.Stray → ∀ {ts us : List Tok} {l : List RItem}, PM pItem ts l → startsItem us = true →
    Dangling (ts ++ (i.toks ++ us))
  | .use .., _, h, _, _, _, _, _ => h.elim
  | .prelude .., _, h, _, _, _, _, _ => h.elim
  | .typeAlias .., _, h, _, _, _, _, _ => h.elim
  | .class .., _, h, _, _, _, _, _ => h.elim
  | .func .., _, h, _, _, _, _, _ => h.elim
  | .prop .., _, h, _, _, _, _, _ => h.elim
  | .embed .., _, h, _, _, _, _, _ => h.elim
  | .strayPub, _, _, ts, us, _, hp, hu => by
    rw [Item.toks]
    exact .here hp.all hu
  | .mod allow d n inner, hl, h, ts, us, _, hp, _ => by
    have hn : Tok.ident n = .id n := hl.1.1
    have h1 := (PM.append hp (PI.many (by simp) (PI.mod allow d n PM.nil))).all
    have h2 := dangling_list inner hl.2 h PM.nil
    rw [List.nil_append] at h2
    rw [Item.toks, hn]
    have e : ts ++ ((if allow then allowToks else []) ++ docToks d ++ t!"pub mod" ++ [.id n] ++ [.brace (Item.toksList inner)] ++ us) =
        (ts ++ ((if allow then allowToks else []) ++ docToks d ++ [.kw .pub])) ++ [.kw .mod, .id n, .group .brace (Item.toksList inner)] ++ us := by
      simp only [List.append_assoc, List.cons_append, List.nil_append]
    rw [e]
    have e' : ts ++ ((if allow then allowToks else []) ++ docToks d ++ t!"pub mod" ++ [.id n] ++ [.brace []]) =
        (ts ++ ((if allow then allowToks else []) ++ docToks d ++ [.kw .pub])) ++ [.kw .mod, .id n, .group .brace []] := by
      simp only [List.append_assoc, List.cons_append, List.nil_append]
    rw [e'] at h1
    exact .inside h1 h2
theorem dangling_list : ∀ (is : List Item), Item.LocList E is → Item.StrayList is → ∀ {ts : List Tok} {l : List RItem}, PM pItem ts l →
    Dangling (ts ++ Item.toksList is)
  | [], _, h, _, _, _ => h.elim
  | i :: is, hl, h, ts, l, hp => by
    rw [Item.toksList]
    by_cases hs : i.Stray
    · exact dangling_head i hl.1 hs hp (starts is hl.2)
    · have := dangling_list is hl.2 (h.resolve_left hs) (PM.append hp (Item.parses i (ok_of_loc i hl.1 hs)))
      rwa [List.append_assoc] at this
end

theorem dangling_stray {is : List Item} (hl : ∀ x, Within x is → x.Loc E) (h : Within .strayPub is) : Dangling (Item.toksList is) :=
  dangling_list is (locList_of is hl) ((strayList_of is).mpr h) PM.nil

theorem parses_clean {is : List Item} (hl : ∀ x, Within x is → x.Loc E) (h : ¬ Within .strayPub is) :
    Parses (Item.toksList is) (Item.treesList is) :=
  parses_ok (okList_of_loc is (locList_of is hl) (fun s => h ((strayList_of is).mp s)))

end Bindgen
