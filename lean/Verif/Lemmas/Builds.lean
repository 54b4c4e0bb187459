import Verif.Spec.Builds
import Verif.Lemmas.Checks
import Verif.Model.Live
/-! # The debug build against the release build -/
namespace Bindgen
open Spec

theorem sc_refl {α : Type} (r : Res α) : SameOrCheck r r := Or.inl rfl

theorem sc_check {α : Type} {f : Fail} {r : Res α} (h : DebugOnly f) : SameOrCheck (.error f) r := Or.inr ⟨f, h, rfl⟩

theorem sc_bind {α β : Type} {r r' : Res α} {f g : α → Res β} (h : SameOrCheck r r') (hf : ∀ a, SameOrCheck (f a) (g a)) :
    SameOrCheck (r >>= f) (r' >>= g) := by
  rcases h with rfl | ⟨e, he, rfl⟩
  · cases r with
    | ok a => exact hf a
    | error e => simp only [error_bind]; exact sc_refl _
  · simp only [error_bind]; exact sc_check he

theorem sc_ite {α : Type} {b : Prop} [Decidable b] {r r' s s' : Res α} (hr : SameOrCheck r r') (hs : SameOrCheck s s') :
    SameOrCheck (if b then r else s) (if b then r' else s') := by
  split <;> assumption

theorem sc_ifOn {α : Type} {b : Bool} {r r' : Res α} {d : α} (h : SameOrCheck r r') :
    SameOrCheck (ifOn b r d) (ifOn b r' d) := sc_ite h (sc_refl _)

theorem sc_traverse {α β : Type} {f g : α → Res β} (h : ∀ a, SameOrCheck (f a) (g a)) (l : List α) :
    SameOrCheck (Res.traverse f l) (Res.traverse g l) := by
  induction l with
  | nil => exact sc_refl _
  | cons a l ih => unfold Res.traverse; exact sc_bind (h a) fun _ => sc_bind ih fun _ => sc_refl _

theorem sc_foldRes {α β : Type} {f g : α → β → Res α} (h : ∀ a b, SameOrCheck (f a b) (g a b)) (a : α) (l : List β) :
    SameOrCheck (foldRes f a l) (foldRes g a l) := by
  induction l generalizing a with
  | nil => exact sc_refl _
  | cons b l ih => unfold foldRes; exact sc_bind (h a b) fun c => ih c

theorem sc_okOrDrop {α : Type} {r r' : Res α} (h : SameOrCheck r r') : SameOrCheck (okOrDrop r) (okOrDrop r') := by
  rcases h with rfl | ⟨e, he, rfl⟩
  · exact sc_refl _
  · cases he <;> exact sc_check (by constructor)


theorem same_debugAssert (E : Env) (b : Bool) : SameOrCheck (debugAssert E b) (debugAssert (releaseOf E) b) := by
  have h : debugAssert (releaseOf E) b = .ok () := rfl
  rw [h]
  rcases debugAssert_cases E b with h | h <;> rw [h]
  · exact sc_refl _
  · exact sc_check .assertion

theorem same_pathCheck (E : Env) (l : List Str) : SameOrCheck (Path.checkPy E l) (Path.checkPy (releaseOf E) l) := same_debugAssert ..

theorem same_identCheck (E : Env) (l : List Str) : SameOrCheck (Ident.checkPy E l) (Ident.checkPy (releaseOf E) l) := same_debugAssert ..

theorem same_checkDir (E : Env) (b : Bool) (l : List Str) : SameOrCheck (checkDir E b l) (checkDir (releaseOf E) b l) := by
  unfold checkDir
  exact sc_ite (sc_refl _) (same_identCheck ..)

/-! ## Types -/

theorem same_usizeSub (E : Env) (n : Int) (m : Nat) : SameOrCheck (usizeSub E n m) (usizeSub (releaseOf E) n m) := by
  have h : usizeSub (releaseOf E) n m = .ok (n - m) := rfl
  rw [h]
  unfold usizeSub
  split
  · exact sc_check .overflow
  · exact sc_refl _

theorem same_repairScan (E : Env) (l : List Str) (n : Int) : SameOrCheck (repairScan E n l) (repairScan (releaseOf E) n l) := by
  induction l generalizing n with
  | nil => exact sc_refl _
  | cons y ys ih =>
    unfold repairScan
    exact sc_bind (same_usizeSub ..) fun n => sc_ite (sc_refl _) (sc_bind (ih n) fun _ => sc_refl _)

theorem same_repairGo (E : Env) (sep : Char) (fuel : Nat) (l : List Str) :
    SameOrCheck (repairGo E sep fuel l) (repairGo (releaseOf E) sep fuel l) := by
  induction fuel generalizing l with
  | zero => exact sc_refl _
  | succ n ih =>
    match l with
    | [] => exact sc_refl _
    | [x] => exact sc_refl _
    | x :: y :: ys =>
      unfold repairGo
      refine sc_bind (same_usizeSub ..) fun k => sc_ite (sc_bind (ih _) fun _ => sc_refl _) (sc_bind (same_repairScan ..) fun o => ?_)
      cases o with
      | none => exact sc_bind (ih _) fun _ => sc_refl _
      | some k => exact sc_ite (ih _) (sc_refl _)

theorem same_repair (E : Env) (sep : Char) (l : List Str) : SameOrCheck (repair E sep l) (repair (releaseOf E) sep l) :=
by
  unfold repair
  exact sc_ite (sc_refl _) (same_repairGo ..)

theorem same_fromStrGo (E : Env) (n : Nat) (s : Str) : SameOrCheck (fromStrGo E n s) (fromStrGo (releaseOf E) n s) := by
  induction n generalizing s with
  | zero => exact sc_refl _
  | succ n ih =>
    unfold fromStrGo
    split
    · exact sc_refl _
    refine sc_ite ?_ (sc_ite ?_ ?_)
    · split
      · exact sc_refl _
      · exact sc_bind (ih _) fun _ => sc_refl _
    · exact sc_bind (same_repair ..) fun _ => sc_bind (sc_traverse ih _) fun _ => sc_refl _
    split
    · exact sc_refl _
    split
    · rename_i w inner _
      refine sc_bind (sc_refl inner) fun i => ?_
      cases w
      · exact sc_bind (same_repair ..) fun _ => sc_bind (sc_traverse ih _) fun _ => sc_refl _
      · exact sc_bind (ih _) fun _ => sc_refl _
      · exact sc_bind (ih _) fun _ => sc_refl _
      · exact sc_bind (ih _) fun _ => sc_refl _
      · exact sc_bind (same_repair ..) fun _ => sc_bind (sc_traverse ih _) fun _ => sc_refl _
      · exact sc_bind (same_repair ..) fun _ => sc_bind (sc_traverse ih _) fun _ => sc_refl _
      · exact ih _
    split
    · exact ih _
    · exact sc_refl _

theorem same_fromStr (E : Env) (s : Str) : SameOrCheck (fromStr E s) (fromStr (releaseOf E) s) := same_fromStrGo ..

theorem same_fromClass (E : Env) (b : List PyBase) (s : Str) : SameOrCheck (fromClass E b s) (fromClass (releaseOf E) b s) := by
  unfold fromClass
  split
  · exact sc_refl _
  · exact same_fromStr ..

mutual
theorem same_fromAnn (E : Env) (a : PyAnn) : SameOrCheck (fromAnn E a) (fromAnn (releaseOf E) a) := by
  cases a with
  | none => simp only [fromAnn]; exact sc_refl _
  | cls => simp only [fromAnn]; exact same_fromClass ..
  | typingPlain => simp only [fromAnn]; exact same_fromStr ..
  | typingOrigin o => simp only [fromAnn]; exact same_fromAnn E o
  | typingArgs o as => simp only [fromAnn]; exact sc_bind (same_fromAnn E o) fun _ => sc_bind (same_fromAnns E as) fun _ => sc_refl _
  | str => simp only [fromAnn]; exact same_fromStr ..
  | other => simp only [fromAnn]; exact same_fromStr ..
theorem same_fromAnns (E : Env) (l : List PyAnn) : SameOrCheck (fromAnns E l) (fromAnns (releaseOf E) l) := by
  match l with
  | [] => simp only [fromAnns]; exact sc_refl _
  | a :: l => simp only [fromAnns]; exact sc_bind (same_fromAnn E a) fun _ => sc_bind (same_fromAnns E l) fun _ => sc_refl _
end

theorem same_readAnn (E : Env) (a : Option PyAnn) : SameOrCheck (readAnn E a) (readAnn (releaseOf E) a) := by
  cases a with
  | none => exact sc_refl _
  | some a => exact same_fromAnn E a

theorem same_ownType (E : Env) (o : PyObj) : SameOrCheck (ownType E o) (ownType (releaseOf E) o) := same_fromClass ..

theorem same_mapType (E : Env) (lt : LocalTypes) (s : Str) : SameOrCheck (mapType E lt s) (mapType (releaseOf E) lt s) := by
  unfold mapType
  exact sc_ite (sc_refl _) (sc_bind (same_pathCheck ..) fun _ => sc_refl _)

mutual
theorem same_intoRs (E : Env) (lt : LocalTypes) (t : PyTy) : SameOrCheck (intoRs E lt t) (intoRs (releaseOf E) lt t) := by
  cases t with
  | other s => simp only [intoRs]; exact same_mapType ..
  | optional t => simp only [intoRs]; exact sc_bind (same_intoRs E lt t) fun _ => sc_refl _
  | dict k v =>
    simp only [intoRs]
    exact sc_bind (same_intoRs E lt v) fun _ => sc_ite (sc_bind (same_intoRs E lt k) fun _ => sc_refl _) (sc_refl _)
  | frozenSet t => simp only [intoRs]; exact sc_ite (sc_bind (same_intoRs E lt t) fun _ => sc_refl _) (sc_refl _)
  | set t => simp only [intoRs]; exact sc_ite (sc_bind (same_intoRs E lt t) fun _ => sc_refl _) (sc_refl _)
  | list t => simp only [intoRs]; exact sc_bind (same_intoRs E lt t) fun _ => sc_refl _
  | tuple ts =>
    match ts with
    | [] => simp only [intoRs]; exact sc_refl _
    | [_] => simp only [intoRs]; exact sc_refl _
    | [t, u] =>
      simp only [intoRs]
      exact sc_ite (sc_bind (same_intoRs E lt t) fun _ => sc_refl _)
        (sc_bind (same_intoRs E lt t) fun _ => sc_bind (same_intoRs E lt u) fun _ => sc_refl _)
    | t :: u :: w :: ts =>
      simp only [intoRs]
      exact sc_bind (same_intoRs E lt t) fun _ => sc_bind (same_intoRs E lt u) fun _ =>
        sc_bind (same_intoRs E lt w) fun _ => sc_bind (same_intoRsList E lt ts) fun _ => sc_refl _
  | _ => simp only [intoRs]; exact sc_refl _
theorem same_intoRsList (E : Env) (lt : LocalTypes) (ts : List PyTy) :
    SameOrCheck (intoRsList E lt ts) (intoRsList (releaseOf E) lt ts) := by
  match ts with
  | [] => simp only [intoRsList]; exact sc_refl _
  | t :: ts => simp only [intoRsList]; exact sc_bind (same_intoRs E lt t) fun _ => sc_bind (same_intoRsList E lt ts) fun _ => sc_refl _
end

theorem same_owned (E : Env) (lt : LocalTypes) (t : PyTy) : SameOrCheck (intoRsOwned E lt t) (intoRsOwned (releaseOf E) lt t) :=
  sc_bind (same_intoRs ..) fun _ => sc_refl _

theorem same_borrowed (E : Env) (lt : LocalTypes) (t : PyTy) :
    SameOrCheck (intoRsBorrowed E lt t) (intoRsBorrowed (releaseOf E) lt t) :=
  sc_bind (same_intoRs ..) fun _ => sc_refl _

theorem same_dictConv (E : Env) (lt : LocalTypes) (k v : PyTy) :
    SameOrCheck (dictNeedsConversion E lt k v) (dictNeedsConversion (releaseOf E) lt k v) :=
  sc_ite (sc_refl _) (sc_bind (same_intoRs ..) fun _ => sc_refl _)

theorem same_preprocess (E : Env) (lt : LocalTypes) (t : PyTy) : SameOrCheck (preprocess E lt t) (preprocess (releaseOf E) lt t) := by
  unfold preprocess
  split <;> first | exact sc_refl _ | exact sc_bind (same_dictConv ..) fun _ => sc_refl _ |
    exact sc_ite (sc_refl _) (sc_bind (same_pathCheck ..) fun _ => sc_refl _)

/-! ## Parsing -/

theorem same_determine (E : Env) (o : PyObj) (a w : Path) (b : Bool) :
    SameOrCheck (determine E o a w b) (determine (releaseOf E) o a w b) :=
  sc_bind (sc_bind (same_identCheck ..) fun _ => same_pathCheck ..) fun _ => sc_refl _

theorem same_parseParam (E : Env) (p : PyParam) : SameOrCheck (parseParam E p) (parseParam (releaseOf E) p) := by
  unfold parseParam
  refine sc_bind (same_identCheck ..) fun _ => ?_
  dsimp only
  split
  · exact sc_refl _
  · exact sc_refl _
  · exact sc_bind (same_readAnn ..) fun _ => sc_refl _

theorem same_functionParse (E : Env) (f : PyFn) (n : Path) (t : FnType) :
    SameOrCheck (Function.parse E f n t) (Function.parse (releaseOf E) f n t) := by
  unfold Function.parse
  refine sc_bind (sc_refl _) fun _ => ?_
  split
  · exact sc_refl _
  · exact sc_bind (sc_traverse (same_parseParam E) _) fun _ => sc_bind (same_readAnn ..) fun _ => sc_refl _

theorem same_parseGetter (E : Env) (o : PyObj) : SameOrCheck (parseGetter E o) (parseGetter (releaseOf E) o) := by
  unfold parseGetter
  split
  · dsimp only
    split
    · exact sc_bind (same_readAnn ..) fun _ => sc_refl _
    · exact sc_bind (same_ownType ..) fun _ => sc_refl _
  · exact sc_bind (same_ownType ..) fun _ => sc_refl _

theorem same_parseSetter (E : Env) (o : PyObj) (d : Option Str) :
    SameOrCheck (parseSetter E o d) (parseSetter (releaseOf E) o d) := by
  unfold parseSetter
  split
  · dsimp only
    split
    · exact sc_bind (sc_refl _) fun _ => sc_bind (same_readAnn ..) fun _ => sc_refl _
    · exact sc_refl _
  · exact sc_refl _

theorem same_propertyParse (E : Env) (o : PyObj) (n : Path) (w : Owner) :
    SameOrCheck (Property.parse E o n w) (Property.parse (releaseOf E) o n w) := by
  unfold Property.parse
  split
  · exact sc_bind (same_ownType ..) fun _ => sc_refl _
  · exact sc_bind (same_parseGetter ..) fun _ => sc_bind (same_parseSetter ..) fun _ => sc_refl _

theorem same_classStep (E : Env) (n : Path) (acc : List Function × List Property) (m : Ident × PyObj) :
    SameOrCheck (Class.step E n acc m) (Class.step (releaseOf E) n acc m) := by
  unfold Class.step
  refine sc_bind (same_determine ..) fun v => ?_
  cases v
  case function => exact sc_bind (same_functionParse ..) fun _ => sc_refl _
  case method => exact sc_bind (same_functionParse ..) fun _ => sc_refl _
  case property => exact sc_bind (same_propertyParse ..) fun _ => sc_refl _
  all_goals exact sc_refl _

theorem same_classParse (E : Env) (cfg : Config) (c : PyClass) (n : Path) :
    SameOrCheck (Class.parse E cfg c n) (Class.parse (releaseOf E) cfg c n) := by
  unfold Class.parse
  exact sc_bind (sc_bind (same_checkDir ..) fun _ => same_pathCheck ..) fun _ =>
    sc_bind (sc_foldRes (same_classStep E n) _ _) fun _ => sc_refl _

theorem same_moduleStep (E : Env) (cfg : Config) (n : Path) (st : ParseState) (m : Ident × PyAttr) :
    SameOrCheck (moduleStep E cfg n st m) (moduleStep (releaseOf E) cfg n st m) := by
  unfold moduleStep
  refine sc_bind (same_determine ..) fun v => ?_
  cases v
  case «import» => exact sc_bind (same_pathCheck ..) fun _ => sc_refl _
  case «class» => exact sc_bind (same_classParse ..) fun _ => sc_refl _
  case function => exact sc_bind (same_functionParse ..) fun _ => sc_refl _
  case closure => exact sc_bind (same_functionParse ..) fun _ => sc_refl _
  case property => exact sc_bind (same_propertyParse ..) fun _ => sc_refl _
  all_goals exact sc_refl _

theorem same_checkPrelude (E : Env) (cfg : Config) (m : PyMod) (n : Path) :
    SameOrCheck (checkPrelude E cfg m n) (checkPrelude (releaseOf E) cfg m n) := by
  unfold checkPrelude
  exact sc_bind (same_identCheck ..) fun _ => sc_bind (same_checkDir ..) fun _ => sc_ite (sc_refl _) (same_pathCheck ..)

theorem same_checkAttrs (E : Env) (m : PyMod) : SameOrCheck (checkAttrs E m) (checkAttrs (releaseOf E) m) :=
  sc_bind (same_checkDir ..) fun _ => same_pathCheck ..

theorem same_extractSubmodules (E : Env) (cfg : Config) (m : PyMod) (n : Path) :
    SameOrCheck (extractSubmodules E cfg m n) (extractSubmodules (releaseOf E) cfg m n) :=
  sc_bind (sc_refl _) fun _ => sc_bind (same_identCheck ..) fun _ => sc_refl _

theorem same_submoduleStep (W : World) (m : PyMod) (n : Path) {r r' : Nat → Res Module} (h : ∀ id, SameOrCheck (r id) (r' id))
    (acc : ParseState × List Module) (i : Ident) :
    SameOrCheck (submoduleStep W m n r acc i) (submoduleStep W m n r' acc i) := by
  unfold submoduleStep
  dsimp only
  split
  · split
    · exact sc_refl _
    · exact sc_bind (sc_okOrDrop (h _)) fun _ => sc_refl _
  · split
    · exact sc_refl _
    · exact sc_bind (h _) fun _ => sc_refl _

theorem same_moduleParse (E : Env) (cfg : Config) (W : World) (fuel id : Nat) :
    SameOrCheck (Module.parse E cfg W fuel id) (Module.parse (releaseOf E) cfg W fuel id) := by
  induction fuel generalizing id with
  | zero => exact sc_refl _
  | succ n ih =>
    unfold Module.parse
    exact sc_bind (sc_refl _) fun m => sc_bind (sc_refl _) fun nm => sc_bind (same_pathCheck ..) fun _ =>
      sc_bind (sc_ifOn (same_checkPrelude ..)) fun _ => sc_bind (sc_ifOn (same_extractSubmodules ..)) fun _ =>
      sc_bind (same_checkAttrs ..) fun _ => sc_bind (sc_foldRes (same_moduleStep E cfg _) _ _) fun _ =>
      sc_bind (sc_ifOn (sc_foldRes (same_submoduleStep W m _ ih) _ _)) fun _ => sc_refl _

/-! ## Generation -/

theorem freshGo_release (E : Env) (b : Str) (u : Ident → Bool) (f i : Nat) : freshGo (releaseOf E) b u f i = freshGo E b u f i := by
  induction f generalizing i with
  | zero => rfl
  | succ f ih => unfold freshGo; rw [ih]; rfl

theorem fresh_release (E : Env) (b : Str) (l : List Ident) : fresh (releaseOf E) b l = fresh E b l := freshGo_release ..

theorem contract_release (E : Env) (t : FnType) (i : Str) (tk : List Ident) (ps : List (Str × RsTy)) (r : RsTy) :
    Function.contract (releaseOf E) t i tk ps r = Function.contract E t i tk ps r := by
  unfold Function.contract
  simp only [fresh_release]
  rfl

theorem preludeExports_release (E : Env) (m : Module) (l : List Ident) :
    m.preludeExports (releaseOf E) l = m.preludeExports E l := by
  induction l with
  | nil => rfl
  | cons i l ih => unfold Module.preludeExports; rw [ih]; rfl

theorem prelude_release (E : Env) : Module.generatePrelude (releaseOf E) = Module.generatePrelude E := by
  funext m
  unfold Module.generatePrelude
  rw [preludeExports_release]
  simp only [fresh_release]
  rfl

theorem same_functionGenerate (E : Env) (cfg : Config) (imp : Str → Bool) (tk : List Ident) (lt : LocalTypes) (f : Function) :
    SameOrCheck (Function.generate E cfg imp tk lt f) (Function.generate (releaseOf E) cfg imp tk lt f) := by
  unfold Function.generate
  refine sc_bind (sc_refl _) fun n => ?_
  have h : Function.ident (releaseOf E) n = Function.ident E n := rfl
  rw [h]
  split
  · exact sc_refl _
  · exact sc_bind (sc_refl _) fun _ => sc_bind (sc_traverse (fun p => same_preprocess ..) _) fun _ =>
      sc_bind (sc_traverse (fun p => same_borrowed ..) _) fun _ => sc_bind (same_owned ..) fun _ => by
        rw [contract_release]; exact sc_refl _

theorem same_generateGetter (E : Env) (cfg : Config) (imp : Str → Bool) (tk : List Ident) (lt : LocalTypes) (p : Property) :
    SameOrCheck (Property.generateGetter E cfg imp tk lt p) (Property.generateGetter (releaseOf E) cfg imp tk lt p) := by
  unfold Property.generateGetter
  refine sc_bind (sc_refl _) fun n => sc_bind (sc_refl _) fun o => ?_
  cases o with
  | none => exact sc_refl _
  | some i => exact sc_bind (same_owned ..) fun _ => sc_refl _

theorem same_generateSetter (E : Env) (cfg : Config) (imp : Str → Bool) (tk : List Ident) (lt : LocalTypes) (p : Property) :
    SameOrCheck (Property.generateSetter E cfg imp tk lt p) (Property.generateSetter (releaseOf E) cfg imp tk lt p) := by
  unfold Property.generateSetter
  refine sc_bind (sc_refl _) fun n => sc_bind (sc_refl _) fun o => ?_
  cases o with
  | none => exact sc_refl _
  | some i => exact sc_bind (same_preprocess ..) fun _ => sc_bind (same_borrowed ..) fun _ => sc_refl _

theorem same_propertyGenerate (E : Env) (cfg : Config) (imp : Str → Bool) (tk : List Ident) (lt : LocalTypes) (p : Property) :
    SameOrCheck (Property.generate E cfg imp tk lt p) (Property.generate (releaseOf E) cfg imp tk lt p) := by
  unfold Property.generate
  exact sc_bind (same_generateGetter ..) fun _ => sc_ite (sc_bind (same_generateSetter ..) fun _ => sc_refl _) (sc_refl _)

theorem same_classGenerate (E : Env) (cfg : Config) (imp : Str → Bool) (lt : LocalTypes) (c : Class) :
    SameOrCheck (Class.generate E cfg imp lt c) (Class.generate (releaseOf E) cfg imp lt c) := by
  unfold Class.generate
  refine sc_bind (sc_refl _) fun n => ?_
  have h : Class.ident (releaseOf E) n = Class.ident E n := rfl
  rw [h]
  split
  · exact sc_refl _
  · exact sc_bind (sc_refl _) fun _ => sc_bind (sc_traverse (same_functionGenerate E cfg imp _ lt) _) fun _ =>
      sc_bind (sc_traverse (same_propertyGenerate E cfg imp _ lt) _) fun _ => sc_refl _

theorem same_importedPath (E : Env) (i : Import) (p : Path) :
    SameOrCheck (importedPath E i p) (importedPath (releaseOf E) i p) := by
  unfold importedPath
  split
  · exact sc_bind (same_pathCheck ..) fun _ => sc_refl _
  · exact sc_refl _

theorem same_localTypes (E : Env) (ts : List Path) (n : Path) (is : List Import) :
    SameOrCheck (Module.localTypes E ts n is) (Module.localTypes (releaseOf E) ts n is) :=
  sc_bind (sc_refl _) fun _ => sc_bind (sc_traverse (fun _ => sc_traverse (fun _ =>
    sc_bind (same_importedPath ..) fun _ => sc_refl _) _) _) fun _ => sc_refl _

theorem same_content (E : Env) (cfg : Config) (imp : Str → Bool) (tops : List Module) (ts : List Path) (m : Module) :
    SameOrCheck (m.content E cfg imp tops ts) (m.content (releaseOf E) cfg imp tops ts) := by
  have hi : Import.generate (releaseOf E) = Import.generate E := rfl
  have hp : Module.generatePrelude (releaseOf E) = Module.generatePrelude E := prelude_release E
  have ht : TypeVar.generate (releaseOf E) = TypeVar.generate E := rfl
  unfold Module.content
  rw [hi, hp, ht]
  exact sc_bind (sc_refl _) fun _ => sc_bind (same_localTypes ..) fun _ => sc_bind (sc_refl _) fun _ =>
    sc_bind (sc_refl _) fun _ => sc_bind (sc_refl _) fun _ =>
    sc_bind (sc_ifOn (sc_traverse (same_classGenerate E cfg imp _) _)) fun _ =>
    sc_bind (sc_ifOn (sc_traverse (fun _ => sc_bind (same_functionGenerate ..) fun _ => sc_refl _) _)) fun _ =>
    sc_bind (sc_ifOn (sc_traverse (fun _ => sc_bind (same_propertyGenerate ..) fun _ => sc_refl _) _)) fun _ => sc_refl _

mutual
theorem same_generate (E : Env) (cfg : Config) (imp : Str → Bool) (tops : List Module) (ts : List Path) (m : Module) :
    SameOrCheck (Module.generate E cfg imp tops ts m) (Module.generate (releaseOf E) cfg imp tops ts m) := by
  match m with
  | ⟨_, _, _, subs, _, _, _, _, _, _, _⟩ =>
    simp only [Module.generate]
    exact sc_bind (same_content ..) fun _ => sc_bind (sc_ifOn (same_generateList E cfg imp tops ts subs)) fun _ => sc_refl _
theorem same_generateList (E : Env) (cfg : Config) (imp : Str → Bool) (tops : List Module) (ts : List Path) (l : List Module) :
    SameOrCheck (Module.generateList E cfg imp tops ts l) (Module.generateList (releaseOf E) cfg imp tops ts l) := by
  match l with
  | [] => simp only [Module.generateList]; exact sc_refl _
  | m :: l =>
    simp only [Module.generateList]
    exact sc_bind (same_generate E cfg imp tops ts m) fun _ => sc_bind (same_generateList E cfg imp tops ts l) fun _ => sc_refl _
end

/-! ## The engine -/

theorem same_depStep (E : Env) (cfg : Config) (W : World) (fuel : Nat) (st : List Str × List Module) (o : Path) :
    SameOrCheck (depStep E cfg W fuel st o) (depStep (releaseOf E) cfg W fuel st o) := by
  unfold depStep
  refine sc_bind (sc_refl _) fun _ => sc_bind (sc_refl _) fun _ => sc_bind (sc_refl _) fun _ => sc_ite (sc_refl _) ?_
  exact sc_bind (sc_bind (same_identCheck ..) fun _ => same_pathCheck ..) fun _ =>
    sc_ite (sc_bind (same_moduleParse ..) fun _ => sc_refl _) (sc_refl _)

theorem same_dependencies (E : Env) (cfg : Config) (W : World) (fuel : Nat) (l : List Module) :
    SameOrCheck (parseDependencies E cfg W fuel l) (parseDependencies (releaseOf E) cfg W fuel l) :=
  sc_bind (sc_foldRes (same_depStep E cfg W fuel) _ _) fun _ => sc_refl _

theorem mergeModules_release (E : Env) : mergeModules (releaseOf E) = mergeModules E := by
  funext n
  induction n with
  | zero => rfl
  | succ n ih => funext l; simp only [mergeModules, ih]; rfl

theorem canonicalize_release (E : Env) (W : World) (l : List Module) : canonicalize (releaseOf E) W l = canonicalize E W l := by
  unfold canonicalize mergeTop
  simp only [mergeModules_release]

theorem same_prepare (E : Env) (W : World) (fuel : Nat) (c : Codegen) :
    SameOrCheck (c.prepare E W fuel) (c.prepare (releaseOf E) W fuel) := by
  unfold Codegen.prepare
  refine sc_bind (sc_ifOn (same_dependencies ..)) fun _ => ?_
  rw [canonicalize_release]
  exact sc_refl _

theorem same_codegenGenerate (E : Env) (W : World) (fuel : Nat) (c : Codegen) :
    SameOrCheck (c.generate E W fuel) (c.generate (releaseOf E) W fuel) := by
  unfold Codegen.generate
  exact sc_ite (sc_refl _) (sc_bind (same_prepare ..) fun _ => same_generateList ..)

theorem same_module (E : Env) (W : World) (fuel : Nat) (c : Codegen) (id : Nat) :
    SameOrCheck (c.module E W fuel id) (c.module (releaseOf E) W fuel id) :=
  sc_bind (same_moduleParse ..) fun _ => sc_refl _

theorem same_moduleName (E : Env) (W : World) (fuel : Nat) (c : Codegen) (n : Str) :
    SameOrCheck (c.moduleName E W fuel n) (c.moduleName (releaseOf E) W fuel n) :=
  sc_bind (sc_refl _) fun _ => same_module ..

theorem same_request (E : Env) (W : World) (fuel : Nat) (c : Codegen) (r : Request) :
    SameOrCheck (c.request E W fuel r) (c.request (releaseOf E) W fuel r) := by
  cases r with
  | handle => exact same_module ..
  | name => exact same_moduleName ..
  | source => exact sc_bind (sc_refl _) fun _ => same_module ..

theorem same_runLive (E : Env) (fuel : Nat) (cfg : Config) (steps : List (World × Request)) (W : World) :
    SameOrCheck (runLive E fuel cfg steps W) (runLive (releaseOf E) fuel cfg steps W) :=
  sc_bind (sc_foldRes (fun _ _ => same_request ..) _ _) fun _ => same_codegenGenerate ..

/-! ## The engine with the standard streams -/

/-- Two steps that do the same to the streams and in their outcome, unless the first stops at a check. -/
def SameStep {α : Type} (x y : Step α) : Prop := ∀ s, x s = y s ∨ ∃ f, DebugOnly f ∧ (x s).2 = .error f

theorem ss_refl {α : Type} (x : Step α) : SameStep x x := fun _ => Or.inl rfl

theorem ss_bind {α β : Type} {x y : Step α} {f g : α → Step β} (h : SameStep x y) (hf : ∀ a, SameStep (f a) (g a)) :
    SameStep (Step.bind x f) (Step.bind y g) := by
  intro s
  unfold Step.bind
  rcases h s with he | ⟨e, hd, he⟩
  · rw [← he]
    rcases x s with ⟨s', a | a⟩
    · exact Or.inl rfl
    · exact hf a s'
  · rcases hx : x s with ⟨s', a | a⟩
    · rw [hx] at he; cases he; exact Or.inr ⟨e, hd, rfl⟩
    · rw [hx] at he; cases he

theorem ss_look {α : Type} {f g : Sys → Res α} (h : ∀ s, SameOrCheck (f s) (g s)) : SameStep (Step.look f) (Step.look g) := by
  intro s
  rcases h s with he | ⟨e, hd, he⟩
  · exact Or.inl (by simp only [Step.look, he])
  · exact Or.inr ⟨e, hd, he⟩

theorem ss_fold {α β : Type} {f g : α → β → Step α} (h : ∀ a b, SameStep (f a b) (g a b)) (a : α) (l : List β) :
    SameStep (Step.fold f a l) (Step.fold g a l) := by
  induction l generalizing a with
  | nil => exact ss_refl _
  | cons b l ih => simp only [Step.fold]; exact ss_bind (h a b) fun a => ih a

theorem ss_suppressed {α : Type} {f g : Step α} (so se : Bool) (h : SameStep f g) :
    SameStep (withSuppressed so se f) (withSuppressed so se g) := by
  intro s
  unfold withSuppressed
  split
  · exact h s
  split
  · dsimp only
    rcases h ⟨if so then some .sink else s.stdout, if se then some .sink else s.stderr⟩ with he | ⟨e, hd, he⟩
    · rw [he]; exact Or.inl rfl
    · refine Or.inr ⟨e, hd, ?_⟩
      split
      · rename_i hx; rw [hx] at he; cases he; rfl
      · rename_i hx; rw [hx] at he; cases he
  · exact Or.inl rfl

theorem ss_moduleIo (E : Env) (W : Sys → World) (fuel : Nat) (c : Codegen) (id : Nat) :
    SameStep (c.moduleIo E W fuel id) (c.moduleIo (releaseOf E) W fuel id) :=
  ss_suppressed _ _ (ss_look fun s => same_module E (W s) fuel c id)

theorem ss_requestIo (E : Env) (W : Sys → World) (fuel : Nat) (c : Codegen) (r : Request) :
    SameStep (c.requestIo E W fuel r) (c.requestIo (releaseOf E) W fuel r) := by
  cases r with
  | handle id => exact ss_moduleIo E W fuel c id
  | name n => exact ss_bind (ss_refl _) fun id => ss_moduleIo E W fuel c id
  | source code n => exact ss_bind (ss_refl _) fun id => ss_moduleIo E W fuel _ id

theorem ss_depStepIo (E : Env) (cfg : Config) (W : Sys → World) (fuel : Nat) (st : List Str × List Module) (o : Path) :
    SameStep (depStepIo E cfg W fuel st o) (depStepIo (releaseOf E) cfg W fuel st o) := by
  unfold depStepIo
  refine ss_bind (ss_refl _) fun d => ?_
  split
  · exact ss_refl _
  · refine ss_bind (ss_look fun _ => sc_bind (same_identCheck ..) fun _ => same_pathCheck ..) fun _ => ?_
    have h : cfg.isAttrAllowed (Ident.fromPy (releaseOf E) d.2.2) (Path.fromPy (releaseOf E) d.2.1.modPath) =
      cfg.isAttrAllowed (Ident.fromPy E d.2.2) (Path.fromPy E d.2.1.modPath) := rfl
    rw [h]
    split
    · exact ss_bind (ss_suppressed _ _ (ss_look fun s => same_moduleParse ..)) fun _ => ss_refl _
    · exact ss_refl _

theorem ss_generateIo (E : Env) (W : Sys → World) (fuel : Nat) (c : Codegen) :
    SameStep (c.generateIo E W fuel) (c.generateIo (releaseOf E) W fuel) := by
  unfold Codegen.generateIo
  split
  · exact ss_refl _
  · refine ss_bind ?_ fun _ => ss_look fun s => ?_
    · split
      · exact ss_bind (ss_fold (ss_depStepIo E c.cfg W fuel) _ _) fun _ => ss_refl _
      · exact ss_refl _
    · rw [canonicalize_release]
      exact sc_bind (sc_refl _) fun _ => same_generateList ..

theorem ss_runIo (E : Env) (W : Sys → World) (fuel : Nat) (cfg : Config) (rs : List Request) :
    SameStep (runIo E W fuel cfg rs) (runIo (releaseOf E) W fuel cfg rs) :=
  ss_bind (ss_fold (fun c r => ss_requestIo E W fuel c r) _ _) fun c => ss_generateIo E W fuel c

end Bindgen
