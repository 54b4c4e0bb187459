import Verif.Model.Res
/-! # Specification: sequences of requests -/
namespace Bindgen.Spec

/-- Single requests one after the other: each starts from the engine left by the previous one; the first failure ends the
sequence and is its result. -/
inductive Requests {σ β : Type} (step : σ → β → Res σ) : σ → List β → Res σ → Prop
  | done (c : σ) : Requests step c [] (.ok c)
  | next {c c' : σ} {x : β} {xs : List β} {r : Res σ} : step c x = .ok c' → Requests step c' xs r → Requests step c (x :: xs) r
  | fail {c : σ} {x : β} {xs : List β} {e : Fail} : step c x = .error e → Requests step c (x :: xs) (.error e)

end Bindgen.Spec
