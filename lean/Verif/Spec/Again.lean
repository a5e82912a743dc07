import Verif.Model.Settings
/-! Results that are a function of the instance, from the history of calls alone. -/
namespace Verif.Spec.Again
variable {D X : Type}

/-- Results where each solve may start from the result of the one before (`warm`), from `x` at first. -/
def chained (F : D → Option X → X) (warm : D → Bool) : X → List D → List X
  | _, [] => []
  | x, d :: ds => let y := F d (if warm d then some x else none); y :: chained F warm y ds

end Verif.Spec.Again
