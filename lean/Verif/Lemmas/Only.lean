import Verif.Props.Accessors
import Verif.Props.Annotations
import Verif.Model.Codegen
import Verif.Lemmas.Checks
import Verif.Spec.Builds
/-! # Which failures a computation can have -/
namespace Bindgen
open Spec

/-- Every failure of the computation satisfies `P`. -/
structure Only {α : Type} (P : Fail → Prop) (r : Res α) : Prop where
  out : ∀ f, r = .error f → P f

theorem Only.ok {α : Type} {P : Fail → Prop} (a : α) : Only P (.ok a : Res α) := ⟨fun _ h => by cases h⟩

theorem Only.pure {α : Type} {P : Fail → Prop} (a : α) : Only P (Pure.pure a : Res α) := ⟨fun _ h => by cases h⟩

theorem Only.error {α : Type} {P : Fail → Prop} {f : Fail} (h : P f) : Only P (.error f : Res α) :=
  ⟨fun g hg => by cases hg; exact h⟩

theorem Only.bind {α β : Type} {P : Fail → Prop} {r : Res α} {f : α → Res β} (h : Only P r)
    (hf : ∀ a, r = .ok a → Only P (f a)) : Only P (r >>= f) := by
  cases r with
  | ok a => exact hf a rfl
  | error e => exact ⟨fun g hg => by cases hg; exact h.out _ rfl⟩

theorem Only.mono {α : Type} {P Q : Fail → Prop} {r : Res α} (h : Only P r) (hpq : ∀ f, P f → Q f) : Only Q r :=
  ⟨fun f hf => hpq f (h.out f hf)⟩

theorem Only.traverse {α β : Type} {P : Fail → Prop} {f : α → Res β} {l : List α} (h : ∀ a ∈ l, Only P (f a)) :
    Only P (Res.traverse f l) := by
  induction l with
  | nil => exact Only.ok _
  | cons a l ih =>
    unfold Res.traverse
    exact Only.bind (h a (by simp)) fun b _ => Only.bind (ih fun x hx => h x (by simp [hx])) fun c _ => Only.pure _

theorem Only.foldRes {α β : Type} {P : Fail → Prop} {f : α → β → Res α} {l : List β} {a : α}
    (h : ∀ a, ∀ b ∈ l, Only P (f a b)) : Only P (foldRes f a l) := by
  induction l generalizing a with
  | nil => exact Only.ok _
  | cons b l ih =>
    unfold Bindgen.foldRes
    exact Only.bind (h a b (by simp)) fun c _ => ih fun a x hx => h a x (by simp [hx])

theorem Only.ofOption {α : Type} {P : Fail → Prop} {p : PanicSite} {o : Option α} (h : o = none → P (.panic p)) :
    Only P (Res.ofOption p o) := by
  cases o with
  | none => exact Only.error (h rfl)
  | some a => exact Only.ok _

theorem Only.orErr {α : Type} {P : Fail → Prop} {e : PyBindgenError} {o : Option α} (h : o = none → P (.err e)) :
    Only P (Res.orErr e o) := by
  cases o with
  | none => exact Only.error (h rfl)
  | some a => exact Only.ok _

theorem Calm.only {α : Type} {P : Fail → Prop} {r : Res α} (h : Calm r) (hp : ∀ p, p ≠ .stackOverflow → P (.panic p)) : Only P r := by
  rcases h with ⟨a, rfl⟩ | ⟨p, rfl, hs⟩
  · exact Only.ok _
  · exact Only.error (hp p hs)

theorem only_ite {α : Type} {P : Fail → Prop} {b : Prop} [Decidable b] {r s : Res α} (hr : Only P r) (hs : Only P s) :
    Only P (if b then r else s) := by split <;> assumption

theorem only_ifOn {α : Type} {P : Fail → Prop} {b : Bool} {r : Res α} {d : α} (hr : Only P r) :
    Only P (ifOn b r d) := only_ite hr (Only.ok _)

/-! ## Overflow checks while reading types -/

/-- A check of the debug profile fails only in that profile. -/
def Checked (E : Env) (f : Fail) : Prop := DebugOnly f → E.debug = true

local macro "calm_opt" : term => `(Only.ofOption fun _ h => by cases h)

theorem checked_usizeSub (E : Env) (n : Int) (m : Nat) : Only (Checked E) (usizeSub E n m) := by
  unfold usizeSub
  split
  · rename_i h
    exact Only.error fun _ => (Bool.and_eq_true _ _ ▸ h).1
  · exact Only.ok _

theorem checked_repairScan (E : Env) (l : List Str) (n : Int) : Only (Checked E) (repairScan E n l) := by
  induction l generalizing n with
  | nil => exact Only.ok _
  | cons y ys ih =>
    unfold repairScan
    exact Only.bind (checked_usizeSub ..) fun n _ => only_ite (Only.pure _) (Only.bind (ih n) fun _ _ => Only.pure _)

theorem checked_repairGo (E : Env) (sep : Char) (fuel : Nat) (l : List Str) : Only (Checked E) (repairGo E sep fuel l) := by
  induction fuel generalizing l with
  | zero => exact Only.error fun h => by cases h
  | succ n ih =>
    match l with
    | [] => exact Only.ok _
    | [x] => exact Only.ok _
    | x :: y :: ys =>
      unfold repairGo
      refine Only.bind (checked_usizeSub ..) fun k _ => only_ite (Only.bind (ih _) fun _ _ => Only.pure _)
        (Only.bind (checked_repairScan ..) fun o _ => ?_)
      cases o with
      | none => exact Only.bind (ih _) fun _ _ => Only.pure _
      | some k => exact only_ite (ih _) (Only.pure _)

theorem checked_repair (E : Env) (sep : Char) {l : List Str} (h : l ≠ []) : Only (Checked E) (repair E sep l) := by
  unfold repair
  rw [if_neg h]
  exact checked_repairGo ..

theorem checked_split (E : Env) (c : Char) (s : Str) : Only (Checked E) (repair E ',' ((Str.splitChar c s).map Str.trim)) :=
  checked_repair E _ (by simp [Str.splitChar_ne_nil])

theorem checked_mkFunction (E : Env) (ts : List PyTy) : Only (Checked E) (mkFunction ts) := by
  unfold mkFunction
  split
  · exact Only.error fun h => by cases h
  · exact Only.ok _

theorem checked_fromStrGo (E : Env) (n : Nat) (s : Str) : Only (Checked E) (fromStrGo E n s) := by
  induction n generalizing s with
  | zero => exact Only.error fun h => by cases h
  | succ n ih =>
    have ht : ∀ l, Only (Checked E) (Res.traverse (fromStrGo E n) l) := fun l => Only.traverse fun a _ => ih a
    unfold fromStrGo
    split
    · exact Only.ok _
    refine only_ite ?_ (only_ite ?_ ?_)
    · split
      · exact Only.error fun h => by cases h
      · exact Only.bind (ih _) fun _ _ => Only.pure _
    · exact Only.bind (checked_split ..) fun _ _ => Only.bind (ht _) fun _ _ => Only.pure _
    split
    · exact Only.ok _
    split
    · rename_i w inner hw
      obtain ⟨pre, suf, -, -, -, rfl⟩ := matchWrap_some hw
      refine Only.bind calm_opt fun i _ => ?_
      cases w
      · exact Only.bind (checked_split ..) fun _ _ => Only.bind (ht _) fun _ _ => Only.bind calm_opt fun _ _ =>
          Only.bind calm_opt fun _ _ => Only.pure _
      · exact Only.bind (ih _) fun _ _ => Only.pure _
      · exact Only.bind (ih _) fun _ _ => Only.pure _
      · exact Only.bind (ih _) fun _ _ => Only.pure _
      · exact Only.bind (checked_split ..) fun _ _ => Only.bind (ht _) fun _ _ => Only.pure _
      · exact Only.bind (checked_split ..) fun _ _ => Only.bind (ht _) fun _ _ => checked_mkFunction ..
      · exact ih _
    split
    · exact ih _
    · exact only_ite (Only.ok _) (Only.ok _)

theorem checked_fromClass (E : Env) (b : List PyBase) (s : Str) : Only (Checked E) (fromClass E b s) := by
  unfold fromClass
  split
  · exact Only.ok _
  · exact checked_fromStrGo ..

theorem checked_applyArgs (E : Env) (w : PyTy) (ts : List PyTy) : Only (Checked E) (applyArgs w ts) := by
  unfold applyArgs
  split
  · refine only_ite ?_ (Only.ok _)
    split
    · exact Only.ok _
    · exact Only.error fun h => by cases h
  · exact Only.bind calm_opt fun _ _ => Only.pure _
  · exact Only.bind calm_opt fun _ _ => Only.bind calm_opt fun _ _ => Only.pure _
  · exact Only.bind calm_opt fun _ _ => Only.pure _
  · exact Only.bind calm_opt fun _ _ => Only.pure _
  · exact Only.bind calm_opt fun _ _ => Only.pure _
  · exact Only.ok _
  · exact checked_mkFunction ..
  · exact calm_opt
  · exact Only.ok _

mutual
theorem checked_fromAnn (E : Env) (a : PyAnn) : Only (Checked E) (fromAnn E a) := by
  cases a with
  | none => simp only [fromAnn]; exact Only.ok _
  | cls => simp only [fromAnn]; exact checked_fromClass ..
  | typingPlain => simp only [fromAnn]; exact checked_fromStrGo ..
  | typingOrigin o => simp only [fromAnn]; exact checked_fromAnn E o
  | typingArgs o as =>
    simp only [fromAnn]
    exact Only.bind (checked_fromAnn E o) fun _ _ => Only.bind (checked_fromAnns E as) fun _ _ => checked_applyArgs ..
  | str => simp only [fromAnn]; exact checked_fromStrGo ..
  | other => simp only [fromAnn]; exact checked_fromStrGo ..
theorem checked_fromAnns (E : Env) (l : List PyAnn) : Only (Checked E) (fromAnns E l) := by
  match l with
  | [] => simp only [fromAnns]; exact Only.ok _
  | a :: l =>
    simp only [fromAnns]
    exact Only.bind (checked_fromAnn E a) fun _ _ => Only.bind (checked_fromAnns E l) fun _ _ => Only.pure _
end

/-! ## The engine -/

/-- The failures of parsing and generation: Python exceptions, names that are not identifiers, panics; the recursion bound is
reached only if `deep`, the checks of the debug profile fail only if `dbg`. -/
inductive EngineFail (deep dbg : Prop) : Fail → Prop
  | py : EngineFail deep dbg (.err .pyError)
  | syn : EngineFail deep dbg (.err .synError)
  | modName : EngineFail deep dbg (.err moduleNameError)
  | panic (p : PanicSite) (h : p = .stackOverflow → deep) (h' : DebugOnly (.panic p) → dbg) : EngineFail deep dbg (.panic p)

variable {deep dbg : Prop}

local macro "of_opt" : term => `(Only.ofOption fun _ => EngineFail.panic _ (fun h => by cases h) (fun h => by cases h))
local macro "py_err" : term => `(Only.orErr fun _ => EngineFail.py)

theorem calm_checked {α : Type} {E : Env} {r : Res α} (h : Calm r) (hc : Only (Checked E) r) :
    Only (EngineFail deep (E.debug = true)) r := by
  rcases h with ⟨a, rfl⟩ | ⟨p, rfl, hs⟩
  · exact Only.ok _
  · exact Only.error (.panic p (fun hp => absurd hp hs) (hc.out _ rfl))

theorem only_debugAssert (E : Env) (b : Bool) : Only (EngineFail deep (E.debug = true)) (debugAssert E b) := by
  rcases debugAssert_cases E b with h | h <;> rw [h]
  · exact Only.ok _
  · exact Only.error (.panic _ (fun h => by cases h) fun _ => (debugAssert_panics.mp h).1)

theorem only_pathCheck (E : Env) (l : List Str) : Only (EngineFail deep (E.debug = true)) (Path.checkPy E l) := only_debugAssert ..

theorem only_identCheck (E : Env) (l : List Str) : Only (EngineFail deep (E.debug = true)) (Ident.checkPy E l) := only_debugAssert ..

theorem only_checkDir (E : Env) (b : Bool) (l : List Str) : Only (EngineFail deep (E.debug = true)) (checkDir E b l) := by
  unfold checkDir
  split
  · exact Only.error (.panic _ (fun h => by cases h) (fun h => by cases h))
  · exact only_identCheck ..

theorem only_trySyn (E : Env) (i : Ident) : Only (EngineFail deep (E.debug = true)) (i.trySyn E) := Only.orErr fun _ => .syn

theorem only_name (p : Path) : Only (EngineFail deep dbg) p.name := of_opt

theorem only_readDoc (d : Option Str) : Only (EngineFail deep dbg) (readDoc d) := Only.bind py_err fun _ _ => Only.pure _

theorem only_readAnn (E : Env) (a : Option PyAnn) : Only (EngineFail deep (E.debug = true)) (readAnn E a) := by
  cases a with
  | none => exact Only.ok _
  | some a => exact calm_checked (fromAnn_calm E a) (checked_fromAnn E a)

theorem only_ownType (E : Env) (o : PyObj) : Only (EngineFail deep (E.debug = true)) (ownType E o) := by
  unfold ownType fromClass
  split
  · exact Only.ok _
  · exact calm_checked (fromStr_calm E _) (checked_fromStrGo ..)

theorem only_fresh (E : Env) (b : Str) (hb : b = c!"new" ∨ b = c!"call") (l : List Ident) : Only (EngineFail deep (E.debug = true)) (fresh E b l) := by
  obtain ⟨k, hk, -⟩ := fresh_eq E (base := b) (by intro i; rcases hb with rfl | rfl <;> simp) l
  rw [hk]
  exact Only.ok _

theorem only_mapType (E : Env) (lt : LocalTypes) (s : Str) : Only (EngineFail deep (E.debug = true)) (mapType E lt s) := by
  unfold mapType
  split
  · exact Only.ok _
  · refine Only.bind (only_pathCheck ..) fun _ _ => ?_
    split
    · split <;> [exact Only.ok _; exact Only.error (.panic _ (fun h => by cases h) (fun h => by cases h))]
    · exact Only.ok _

mutual
theorem only_intoRs (E : Env) (lt : LocalTypes) (t : PyTy) : Only (EngineFail deep (E.debug = true)) (intoRs E lt t) := by
  cases t with
  | other s => simp only [intoRs]; exact only_mapType ..
  | optional t => simp only [intoRs]; exact Only.bind (only_intoRs E lt t) fun _ _ => Only.pure _
  | dict k v =>
    simp only [intoRs]
    refine Only.bind (only_intoRs E lt v) fun _ _ => ?_
    split
    · exact Only.bind (only_intoRs E lt k) fun _ _ => Only.pure _
    · exact Only.pure _
  | frozenSet t =>
    simp only [intoRs]
    split
    · exact Only.bind (only_intoRs E lt t) fun _ _ => Only.pure _
    · exact Only.ok _
  | set t =>
    simp only [intoRs]
    split
    · exact Only.bind (only_intoRs E lt t) fun _ _ => Only.pure _
    · exact Only.ok _
  | list t => simp only [intoRs]; exact Only.bind (only_intoRs E lt t) fun _ _ => Only.pure _
  | tuple ts =>
    match ts with
    | [] => simp only [intoRs]; exact Only.ok _
    | [_] => simp only [intoRs]; exact Only.ok _
    | [t, u] =>
      simp only [intoRs]
      split
      · exact Only.bind (only_intoRs E lt t) fun _ _ => Only.pure _
      · exact Only.bind (only_intoRs E lt t) fun _ _ => Only.bind (only_intoRs E lt u) fun _ _ => Only.pure _
    | t :: u :: w :: ts =>
      simp only [intoRs]
      exact Only.bind (only_intoRs E lt t) fun _ _ => Only.bind (only_intoRs E lt u) fun _ _ =>
        Only.bind (only_intoRs E lt w) fun _ _ => Only.bind (only_intoRsList E lt ts) fun _ _ => Only.pure _
  | _ => simp only [intoRs]; exact Only.ok _
theorem only_intoRsList (E : Env) (lt : LocalTypes) (ts : List PyTy) : Only (EngineFail deep (E.debug = true)) (intoRsList E lt ts) := by
  match ts with
  | [] => simp only [intoRsList]; exact Only.ok _
  | t :: ts =>
    simp only [intoRsList]
    exact Only.bind (only_intoRs E lt t) fun _ _ => Only.bind (only_intoRsList E lt ts) fun _ _ => Only.pure _
end

theorem only_owned (E : Env) (lt : LocalTypes) (t : PyTy) : Only (EngineFail deep (E.debug = true)) (intoRsOwned E lt t) :=
  Only.bind (only_intoRs ..) fun _ _ => Only.pure _

theorem only_borrowed (E : Env) (lt : LocalTypes) (t : PyTy) : Only (EngineFail deep (E.debug = true)) (intoRsBorrowed E lt t) :=
  Only.bind (only_intoRs ..) fun _ _ => Only.pure _

theorem only_dictConv (E : Env) (lt : LocalTypes) (k v : PyTy) : Only (EngineFail deep (E.debug = true)) (dictNeedsConversion E lt k v) := by
  unfold dictNeedsConversion
  split
  · exact Only.ok _
  · exact Only.bind (only_intoRs ..) fun _ _ => Only.pure _

theorem only_preprocess (E : Env) (lt : LocalTypes) (t : PyTy) : Only (EngineFail deep (E.debug = true)) (preprocess E lt t) := by
  unfold preprocess
  split <;> first | exact Only.ok _ | exact Only.bind (only_dictConv ..) fun _ _ => Only.pure _ |
    exact only_ite (Only.ok _) (Only.bind (only_pathCheck ..) fun _ _ => Only.pure _)

theorem only_importQuote (imp : Str → Bool) (p : Path) : Only (EngineFail deep dbg) (p.importQuote imp) := by
  unfold Path.importQuote
  split
  · exact Only.error (.panic _ (fun h => by cases h) (fun h => by cases h))
  · exact Only.ok _

theorem only_determine (E : Env) (o : PyObj) (a w : Path) (b : Bool) : Only (EngineFail deep (E.debug = true)) (determine E o a w b) :=
  Only.bind (Only.bind (only_identCheck ..) fun _ _ => only_pathCheck ..) fun _ _ => Only.bind py_err fun _ _ => Only.bind py_err fun _ _ => Only.pure _

theorem only_parseParam (E : Env) (p : PyParam) : Only (EngineFail deep (E.debug = true)) (parseParam E p) := by
  unfold parseParam
  refine Only.bind (only_identCheck ..) fun _ _ => ?_
  dsimp only
  split
  · exact Only.bind (Only.ok _) fun _ _ => Only.pure _
  · exact Only.bind (Only.ok _) fun _ _ => Only.pure _
  · exact Only.bind (only_readAnn ..) fun _ _ => Only.pure _

theorem only_dropReceiver (t : FnType) (ps : List Param) : Only (EngineFail deep dbg) (dropReceiver t ps) := by
  unfold dropReceiver
  repeat' split
  all_goals first | exact Only.ok _ | exact Only.error (.panic _ (fun h => by cases h) (fun h => by cases h))

theorem only_functionParse (E : Env) (f : PyFn) (n : Path) (t : FnType) : Only (EngineFail deep (E.debug = true)) (Function.parse E f n t) := by
  unfold Function.parse
  refine Only.bind (only_readDoc _) fun _ _ => ?_
  split
  · exact Only.pure _
  · exact Only.bind (Only.traverse fun _ _ => only_parseParam ..) fun _ _ =>
      Only.bind (only_readAnn ..) fun _ _ => Only.bind (only_dropReceiver ..) fun _ _ => Only.pure _

theorem only_parseGetter (E : Env) (o : PyObj) : Only (EngineFail deep (E.debug = true)) (parseGetter E o) := by
  unfold parseGetter
  split
  · dsimp only
    split
    · exact Only.bind (only_readAnn ..) fun _ _ => Only.bind (only_readDoc _) fun _ _ => Only.pure _
    · exact Only.bind (only_ownType ..) fun _ _ => Only.bind (only_readDoc _) fun _ _ => Only.pure _
  · exact Only.bind (only_ownType ..) fun _ _ => Only.pure _

theorem only_parseSetter (E : Env) (o : PyObj) (d : Option Str) : Only (EngineFail deep (E.debug = true)) (parseSetter E o d) := by
  unfold parseSetter
  split
  · dsimp only
    split
    · exact Only.bind of_opt fun _ _ => Only.bind (only_readAnn ..) fun _ _ => Only.bind (only_readDoc _) fun _ _ =>
        Only.pure _
    · exact Only.bind (Only.ok _) fun _ _ => Only.bind (only_readDoc _) fun _ _ => Only.pure _
  · exact Only.ok _

theorem only_propertyParse (E : Env) (o : PyObj) (n : Path) (w : Owner) : Only (EngineFail deep (E.debug = true)) (Property.parse E o n w) := by
  unfold Property.parse
  split
  · exact Only.bind (only_ownType ..) fun _ _ => Only.pure _
  · exact Only.bind (only_parseGetter ..) fun _ _ => Only.bind (only_parseSetter ..) fun _ _ => Only.pure _

theorem only_classParse (E : Env) (cfg : Config) (c : PyClass) (n : Path) : Only (EngineFail deep (E.debug = true)) (Class.parse E cfg c n) := by
  unfold Class.parse
  refine Only.bind (Only.bind (only_checkDir ..) fun _ _ => only_pathCheck ..) fun _ _ => Only.bind (Only.foldRes fun a m _ => ?_) fun _ _ => Only.bind (only_readDoc _) fun _ _ => Only.pure _
  unfold Class.step
  refine Only.bind (only_determine ..) fun v _ => ?_
  split
  · exact Only.bind (only_functionParse ..) fun _ _ => Only.pure _
  · exact Only.bind (only_functionParse ..) fun _ _ => Only.pure _
  · exact Only.bind (only_propertyParse ..) fun _ _ => Only.pure _
  · exact Only.pure _

theorem only_moduleStep (E : Env) (cfg : Config) (n : Path) (st : ParseState) (m : Ident × PyAttr) :
    Only (EngineFail deep (E.debug = true)) (moduleStep E cfg n st m) := by
  unfold moduleStep
  refine Only.bind (only_determine ..) fun v _ => ?_
  split
  · exact Only.bind (only_pathCheck ..) fun _ _ => Only.pure _
  · exact Only.pure _
  · exact Only.bind (only_classParse ..) fun _ _ => Only.pure _
  · exact Only.pure _
  · exact Only.bind (only_functionParse ..) fun _ _ => Only.pure _
  · exact Only.pure _
  · exact Only.bind (only_functionParse ..) fun _ _ => Only.pure _
  · exact Only.bind (only_propertyParse ..) fun _ _ => Only.pure _

theorem only_okOrDrop {α : Type} {r : Res α} (h : Only (EngineFail deep dbg) r) : Only (EngineFail deep dbg) (okOrDrop r) := by
  unfold okOrDrop
  split
  · exact Only.ok _
  · exact Only.ok _
  · exact Only.error (h.out _ rfl)

theorem only_checkPrelude (E : Env) (cfg : Config) (m : PyMod) (n : Path) : Only (EngineFail deep (E.debug = true)) (checkPrelude E cfg m n) := by
  unfold checkPrelude
  refine Only.bind (only_identCheck ..) fun _ _ => Only.bind (only_checkDir ..) fun _ _ => ?_
  exact only_ite (Only.ok _) (only_pathCheck ..)

theorem only_checkAttrs (E : Env) (m : PyMod) : Only (EngineFail deep (E.debug = true)) (checkAttrs E m) :=
  Only.bind (only_checkDir ..) fun _ _ => only_pathCheck ..

/-- Parsing a module fails in these ways if parsing its submodules does. -/
theorem only_parseStep (E : Env) (cfg : Config) (W : World) (n id : Nat)
    (ih : ∀ m nm i id', W.get? id = some m → m.name = some nm →
      (∃ st subs, ifOn m.isPackage (extractSubmodules E cfg m (Path.fromPy E nm)) [] = .ok subs ∧
        foldRes (moduleStep E cfg (Path.fromPy E nm)) { subs := subs } (moduleCandidates E cfg m) = .ok st ∧ i ∈ st.subs) →
      (W.importMod ((Path.fromPy E nm).join (Path.ofIdent i)).toPy = some id' ∨ submoduleId W m (Path.fromPy E nm) i = some id') →
      Only (EngineFail deep (E.debug = true)) (Module.parse E cfg W n id')) :
    Only (EngineFail deep (E.debug = true)) (Module.parse E cfg W (n + 1) id) := by
  unfold Module.parse
  refine Only.bind of_opt fun m hm => Only.bind of_opt fun nm hnm => Only.bind (only_pathCheck ..) fun _ _ =>
    Only.bind (only_ifOn (only_checkPrelude ..)) fun _ _ => Only.bind ?_ fun subs hsubs =>
    Only.bind (only_checkAttrs ..) fun _ _ => Only.bind (Only.foldRes fun _ _ _ => only_moduleStep ..) fun st hst => Only.bind ?_ fun _ _ =>
    Only.bind (only_readDoc _) fun _ _ => Only.pure _
  · exact only_ifOn (Only.bind py_err fun _ _ => Only.bind (only_identCheck ..) fun _ _ => Only.pure _)
  · have hm' : W.get? id = some m := by cases h : W.get? id <;> rw [h] at hm <;> cases hm; rfl
    have hnm' : m.name = some nm := by cases h : m.name <;> rw [h] at hnm <;> cases hnm; rfl
    refine only_ifOn (Only.foldRes fun acc i hi => ?_)
    have hi : i ∈ st.subs := (E.set_mem _ _).mp hi
    unfold submoduleStep
    simp only
    split
    · split
      · exact Only.ok _
      · rename_i id' hid
        refine Only.bind (only_okOrDrop (ih m nm i id' hm' hnm' ⟨st, subs, hsubs, hst, hi⟩ (Or.inl hid))) fun o _ => ?_
        split <;> exact Only.pure _
    · split
      · exact Only.ok _
      · rename_i id' hid
        exact Only.bind (ih m nm i id' hm' hnm' ⟨st, subs, hsubs, hst, hi⟩ (Or.inr hid)) fun _ _ => Only.pure _

theorem only_moduleParse (hd : deep) (E : Env) (cfg : Config) (W : World) (fuel id : Nat) :
    Only (EngineFail deep (E.debug = true)) (Module.parse E cfg W fuel id) := by
  induction fuel generalizing id with
  | zero => exact Only.error (.panic _ (fun _ => hd) fun h => by cases h)
  | succ n ih => exact only_parseStep E cfg W n id fun _ _ _ id' _ _ _ _ => ih id'

theorem only_empty (W : World) (p : Path) : Only (EngineFail deep dbg) (Module.empty W p) :=
  Only.bind py_err fun _ _ => Only.bind of_opt fun _ _ => Only.bind (only_readDoc _) fun _ _ => Only.pure _

/-! ## Generation -/

theorem only_paramIdent (E : Env) (p : Param) : Only (EngineFail deep (E.debug = true)) (paramIdent E p) := only_trySyn ..

theorem only_positionalArgs (E : Env) (ps : List Param) : Only (EngineFail deep (E.debug = true)) (positionalArgs E ps) :=
  Only.bind (Only.traverse fun _ _ => only_paramIdent ..) fun _ _ => Only.pure _

theorem only_keywordArgs (E : Env) (ps : List Param) : Only (EngineFail deep (E.debug = true)) (keywordArgs E ps) :=
  Only.bind (Only.traverse fun _ _ => only_paramIdent ..) fun _ _ => Only.pure _

theorem only_dispatcher (imp : Str → Bool) (n : Path) (t : FnType) : Only (EngineFail deep dbg) (dispatcher imp n t) := by
  unfold dispatcher
  split <;> first
    | exact Only.ok _
    | exact Only.bind of_opt fun _ _ => Only.bind (only_importQuote ..) fun _ _ => Only.pure _
    | exact Only.bind (only_importQuote ..) fun _ _ => Only.pure _

theorem only_contract (E : Env) (t : FnType) (i : Str) (tk : List Ident) (ps : List (Str × RsTy)) (r : RsTy) :
    Only (EngineFail deep (E.debug = true)) (Function.contract E t i tk ps r) := by
  unfold Function.contract
  split <;> first
    | exact Only.ok _
    | exact Only.bind (only_fresh _ _ (by simp) _) fun _ _ => Only.bind (only_trySyn ..) fun _ _ => Only.pure _

theorem only_functionGenerate (E : Env) (cfg : Config) (imp : Str → Bool) (tk : List Ident) (lt : LocalTypes)
    (f : Function) : Only (EngineFail deep (E.debug = true)) (Function.generate E cfg imp tk lt f) := by
  unfold Function.generate
  refine Only.bind (only_name _) fun n _ => ?_
  split
  · exact Only.pure _
  · refine Only.bind (Only.traverse fun _ _ => only_paramIdent ..) fun _ _ =>
      Only.bind (Only.traverse fun _ _ => only_preprocess ..) fun _ _ =>
      Only.bind (Only.traverse fun _ _ => only_borrowed ..) fun _ _ =>
      Only.bind (only_owned ..) fun _ _ => Only.bind (only_contract ..) fun _ _ =>
      Only.bind (only_dispatcher ..) fun d _ => ?_
    split
    · exact Only.pure _
    · exact Only.bind (only_positionalArgs ..) fun _ _ => Only.bind (only_keywordArgs ..) fun _ _ => Only.pure _

theorem only_getterIdent (E : Env) (tk : List Ident) (n : Ident) : Only (EngineFail deep (E.debug = true)) (getterIdent E tk n) := by
  have h : Only (EngineFail deep (E.debug = true)) (getterFallback E tk n) := by
    unfold getterFallback
    simp only
    split
    · exact Only.ok _
    · exact Only.bind (only_trySyn ..) fun _ _ => Only.pure _
  unfold getterIdent
  split
  · split
    · exact h
    · exact Only.ok _
  · exact h

theorem only_setterIdent (E : Env) (tk : List Ident) (n : Ident) : Only (EngineFail deep (E.debug = true)) (setterIdent E tk n) := by
  unfold setterIdent
  simp only
  split
  · exact Only.ok _
  · exact Only.bind (only_trySyn ..) fun _ _ => Only.pure _

theorem only_target (imp : Str → Bool) (p : Property) : Only (EngineFail deep dbg) (p.target imp) := by
  unfold Property.target
  split
  · exact Only.bind of_opt fun _ _ => only_importQuote ..
  · exact Only.ok _

theorem only_propertyGenerate (E : Env) (cfg : Config) (imp : Str → Bool) (tk : List Ident) (lt : LocalTypes)
    (p : Property) : Only (EngineFail deep (E.debug = true)) (Property.generate E cfg imp tk lt p) := by
  unfold Property.generate
  refine Only.bind ?_ fun _ _ => ?_
  · unfold Property.generateGetter
    refine Only.bind (only_name _) fun _ _ => Only.bind (only_getterIdent ..) fun o _ => ?_
    split
    · exact Only.pure _
    · exact Only.bind (only_owned ..) fun _ _ => Only.bind (only_target ..) fun _ _ => Only.pure _
  · split
    · refine Only.bind ?_ fun _ _ => Only.pure _
      unfold Property.generateSetter
      refine Only.bind (only_name _) fun _ _ => Only.bind (only_setterIdent ..) fun o _ => ?_
      split
      · exact Only.pure _
      · exact Only.bind (only_preprocess ..) fun _ _ => Only.bind (only_borrowed ..) fun _ _ =>
          Only.bind (only_target ..) fun _ _ => Only.pure _
    · exact Only.pure _

theorem only_classGenerate (E : Env) (cfg : Config) (imp : Str → Bool) (lt : LocalTypes) (c : Class) :
    Only (EngineFail deep (E.debug = true)) (Class.generate E cfg imp lt c) := by
  unfold Class.generate
  refine Only.bind (only_name _) fun n _ => ?_
  split
  · exact Only.pure _
  · exact Only.bind (Only.traverse fun _ _ => only_name _) fun _ _ =>
      Only.bind (Only.traverse fun _ _ => only_functionGenerate ..) fun _ _ =>
      Only.bind (Only.traverse fun _ _ => only_propertyGenerate ..) fun _ _ =>
      Only.bind (only_trySyn ..) fun _ _ => Only.pure _

theorem only_relativeTo (a b : Path) (f : Bool) : Only (EngineFail deep dbg) (a.relativeTo b f) := by
  unfold Path.relativeTo
  simp only
  repeat' split
  all_goals first | exact Only.pure _ | exact Only.bind (only_name _) fun _ _ => Only.pure _

theorem only_importGenerate (E : Env) (i : Import) : Only (EngineFail deep (E.debug = true)) (i.generate E) := by
  unfold Import.generate
  split
  · exact Only.ok _
  · split
    · exact Only.ok _
    · refine Only.bind (only_relativeTo ..) fun _ _ => ?_
      split
      · refine Only.bind (only_name _) fun _ _ => Only.bind (only_name _) fun _ _ => ?_
        split
        · exact Only.pure _
        · exact Only.bind (only_trySyn ..) fun _ _ => Only.pure _
      · exact Only.pure _

theorem only_anyName (i : Ident) (l : List Path) : Only (EngineFail deep dbg) (anyName i l) := by
  induction l with
  | nil => exact Only.ok _
  | cons p l ih =>
    unfold anyName
    exact Only.bind (only_name _) fun _ _ => only_ite (Only.pure _) ih

theorem only_preludeExports (E : Env) (m : Module) (l : List Ident) : Only (EngineFail deep (E.debug = true)) (m.preludeExports E l) := by
  induction l with
  | nil => exact Only.ok _
  | cons i l ih =>
    unfold Module.preludeExports
    refine Only.bind (only_anyName ..) fun _ _ => ?_
    split
    · exact Only.bind (only_trySyn ..) fun _ _ => Only.bind ih fun _ _ => Only.pure _
    · exact ih

theorem only_prelude (E : Env) (m : Module) : Only (EngineFail deep (E.debug = true)) (m.generatePrelude E) := by
  unfold Module.generatePrelude
  split
  · exact Only.ok _
  · refine Only.bind (only_preludeExports ..) fun _ _ => ?_
    split
    · exact Only.pure _
    · exact Only.bind (Only.traverse fun p _ => only_name _) fun _ _ => Only.bind (only_fresh _ _ (by simp) _) fun _ _ =>
        Only.bind (only_trySyn ..) fun _ _ => Only.pure _

theorem only_typeVarGenerate (E : Env) (t : TypeVar) : Only (EngineFail deep (E.debug = true)) (t.generate E) :=
  Only.bind (only_name _) fun _ _ => Only.bind (only_trySyn ..) fun _ _ => Only.pure _

theorem only_importedPath (E : Env) (i : Import) (p : Path) : Only (EngineFail deep (E.debug = true)) (importedPath E i p) := by
  unfold importedPath
  split
  · refine Only.bind (only_pathCheck ..) fun _ _ => ?_
    split
    · exact Only.error (.panic _ (fun h => by cases h) (fun h => by cases h))
    · exact Only.bind (only_name _) fun _ _ => Only.pure _
  · exact Only.bind (only_name _) fun _ _ => Only.pure _

theorem only_localTypes (E : Env) (ts : List Path) (n : Path) (is : List Import) :
    Only (EngineFail deep (E.debug = true)) (Module.localTypes E ts n is) :=
  Only.bind (Only.traverse fun _ _ => Only.bind (only_relativeTo ..) fun _ _ => Only.pure _) fun _ _ =>
    Only.bind (Only.traverse fun _ _ => Only.traverse fun _ _ => Only.bind (only_importedPath ..) fun _ _ =>
      Only.bind (only_relativeTo ..) fun _ _ => Only.pure _) fun _ _ => Only.pure _

theorem only_moduleFns (i : FnImpl) : Only (EngineFail deep dbg) (moduleFns i) := by
  cases i with
  | func => exact Only.ok _
  | method => exact Only.error (.panic _ (fun h => by cases h) (fun h => by cases h))

theorem only_moduleProps (o : Owner) (l : List (Option Fn)) : Only (EngineFail deep dbg) (moduleProps o l) := by
  cases o with
  | module => exact Only.ok _
  | «class» => exact Only.error (.panic _ (fun h => by cases h) (fun h => by cases h))

theorem only_content (E : Env) (cfg : Config) (imp : Str → Bool) (tops : List Module) (ts : List Path) (m : Module) :
    Only (EngineFail deep (E.debug = true)) (m.content E cfg imp tops ts) := by
  unfold Module.content
  exact Only.bind (Only.traverse fun _ _ => only_name _) fun _ _ =>
    Only.bind (only_localTypes ..) fun _ _ =>
    Only.bind (only_ifOn (Only.traverse fun _ _ => only_importGenerate ..)) fun _ _ =>
    Only.bind (only_ifOn (only_okOrDrop (only_prelude ..))) fun _ _ =>
    Only.bind (only_ifOn (Only.traverse fun _ _ => only_typeVarGenerate ..)) fun _ _ =>
    Only.bind (only_ifOn (Only.traverse fun _ _ => only_classGenerate ..)) fun _ _ =>
    Only.bind (only_ifOn (Only.traverse fun _ _ => Only.bind (only_functionGenerate ..) fun _ _ => only_moduleFns _)) fun _ _ =>
    Only.bind (only_ifOn (Only.traverse fun _ _ => Only.bind (only_propertyGenerate ..) fun _ _ => only_moduleProps ..)) fun _ _ => Only.pure _

mutual
theorem only_generate (E : Env) (cfg : Config) (imp : Str → Bool) (tops : List Module) (ts : List Path) (m : Module) :
    Only (EngineFail deep (E.debug = true)) (Module.generate E cfg imp tops ts m) := by
  match m with
  | ⟨_, _, _, subs, _, _, _, _, _, _, _⟩ =>
    simp only [Module.generate]
    exact Only.bind (only_content ..) fun _ _ =>
      Only.bind (only_ifOn (only_generateList E cfg imp tops ts subs)) fun _ _ =>
      Only.bind (only_name _) fun _ _ => Only.bind (Only.orErr fun _ => .modName) fun _ _ => Only.pure _
theorem only_generateList (E : Env) (cfg : Config) (imp : Str → Bool) (tops : List Module) (ts : List Path)
    (l : List Module) : Only (EngineFail deep (E.debug = true)) (Module.generateList E cfg imp tops ts l) := by
  match l with
  | [] => simp only [Module.generateList]; exact Only.ok _
  | m :: l =>
    simp only [Module.generateList]
    exact Only.bind (only_generate E cfg imp tops ts m) fun _ _ =>
      Only.bind (only_generateList E cfg imp tops ts l) fun _ _ => Only.pure _
end

theorem only_orUnreachable {α : Type} {r : Res α} (h : Only (EngineFail deep dbg) r) : Only (EngineFail deep dbg) (orUnreachable r) := by
  unfold orUnreachable
  split
  · exact Only.error (.panic _ (fun h => by cases h) (fun h => by cases h))
  · exact h

theorem only_wrap (W : World) (m : Module) : Only (EngineFail deep dbg) (m.wrap W) := by
  unfold Module.wrap
  exact only_ite (Only.foldRes fun _ _ _ => Only.bind (only_orUnreachable (only_empty ..)) fun _ _ => Only.pure _) (Only.ok _)

theorem only_canonicalize (E : Env) (W : World) (l : List Module) : Only (EngineFail deep (E.debug = true)) (canonicalize E W l) :=
  Only.bind (Only.traverse fun _ _ => only_wrap ..) fun _ _ => Only.pure _

theorem only_lastModule (W : World) (o : Path) : Only (EngineFail deep dbg) (lastModule W o) :=
  Only.bind of_opt fun _ _ => Only.bind of_opt fun _ _ => Only.pure _

theorem only_dependencies (E : Env) (cfg : Config) (W : World) (fuel : Nat)
    (h : ∀ id, Only (EngineFail deep (E.debug = true)) (Module.parse E cfg W fuel id)) (l : List Module) :
    Only (EngineFail deep (E.debug = true)) (parseDependencies E cfg W fuel l) := by
  unfold parseDependencies
  refine Only.bind (Only.foldRes fun st o _ => ?_) fun _ _ => Only.pure _
  unfold depStep
  refine Only.bind (only_lastModule ..) fun _ _ => Only.bind of_opt fun _ _ => Only.bind of_opt fun _ _ => ?_
  exact only_ite (Only.pure _) (Only.bind (Only.bind (only_identCheck ..) fun _ _ => only_pathCheck ..) fun _ _ => only_ite (Only.bind (h _) fun _ _ => Only.pure _) (Only.pure _))

theorem only_prepare (E : Env) (W : World) (fuel : Nat) (c : Codegen)
    (h : c.cfg.generateDependencies = true → ∀ id, Only (EngineFail deep (E.debug = true)) (Module.parse E c.cfg W fuel id)) :
    Only (EngineFail deep (E.debug = true)) (c.prepare E W fuel) := by
  refine Only.bind ?_ fun _ _ => Only.bind (only_canonicalize ..) fun _ _ => Only.pure _
  unfold ifOn
  split
  · rename_i hd
    exact only_dependencies _ _ _ _ (h hd) _
  · exact Only.ok _

end Bindgen
