import Verif.Model.ExGrad
import Verif.Spec.ExClamp
import Verif.Spec.GradPipe
/-!
What a user expects of differentiation in explicit mode: after any history, `cpg_gradient` assigns to each parameter the gradient
of the scalar function whose gradient with respect to the stored entries of the variables is given, where the solution is the
affine function of the parameters that is valid in the critical region of the last solve (or of the solve whose region is given).
-/
namespace Verif.Spec.ExGrad
open Verif.Model Verif.Model.Pipeline Verif.Model.Flatten Verif.Model.Explicit Verif.Model.ExPipe Verif.Model.GradPipe Verif.Model.ExGrad
open Verif.Spec Verif.Spec.Pipeline Verif.Spec.Explicit Verif.Spec.ExPipe Verif.Spec.GradPipe Finset

variable {R S : Type} [Field R] [LinearOrder R]

/-- The parameters of the explicit solution at a parameter vector. -/
def thetaAt (E : EProb R) (F : EFiles R) (θ : List R) : List R :=
  thetaUpdate E.n E.m F.M.thMask (problemAt E θ).q (problemAt E θ).u

/-- The variables that are stored. -/
def storedVars (E : EProb R) : List UVar := E.vs.filter fun v => (E.reqs.map Prod.fst).contains v.name

/-- What is expected of PDAQP's code: for every `theta`, the search ends at a leaf with an affine law, the law is evaluated. -/
structure TableOK (E : EProb R) (F : EFiles R) (T : XTab R) (sol : List R → Nat → R) : Prop where
  params : T.K = F.M.F.length
  leaf : ∀ th : List R, th.length = T.K → ∃ h, T.hps[T.leaf th]? = some h ∧ h < T.nLaws ∧
    ∀ i k, E.exGen.store.outInds[i]? = some k → sol th k = affLaw T.K (feedback T.K E.exGen.nSol T.fb h) (fn th) i

/-- The user's view: values of the parameters and those last transferred, gradients of the variables, the region the next
gradient refers to (`none`: there is none yet). -/
structure XAbs (R : Type) where
  u : UAbs R
  vgrad : String → Option (Backward.Arr R)
  region : Option Nat

open Classical in
/-- One operation. -/
noncomputable def astep (E : EProb R) (F : EFiles R) (T : XTab R) (a : XAbs R) : XOp R S → XAbs R
  | .setVal m t => { a with u := { a.u with vals := fun m' => if m' = m then some t else a.u.vals m' } }
  | .setGrad m g => { a with vgrad := fun m' => if m' = m then g else a.vgrad m' }
  | .solve u _ =>
    if EGood E a.u u then
      { a with
        u := a.u.transfer u
        region := some (T.leaf (thetaAt E F (limitVec E (vector E.prob (a.u.transfer u).sent)))) }
    else a
  | .gradient r => if Fits (storedVars E) a.vgrad then { a with region := r.or a.region } else a

noncomputable def aafter (E : EProb R) (F : EFiles R) (T : XTab R) (a : XAbs R) (ops : List (XOp R S)) : XAbs R :=
  ops.foldl (astep E F T) a

/-- `r` is the number of a leaf. -/
def IsLeaf (T : XTab R) (r : Nat) : Prop := ∃ h, T.hps[r]? = some h ∧ h < T.nLaws

/-- Gradients are asked for only after a solve, and only for regions that exist. -/
def Asked (E : EProb R) (T : XTab R) (a : XAbs R) (r : Option Nat) : Prop :=
  Fits (storedVars E) a.vgrad → ∃ r', r.or a.region = some r' ∧ IsLeaf T r'

def AllAsked (E : EProb R) (F : EFiles R) (T : XTab R) (a : XAbs R) (ops : List (XOp R S)) : Prop :=
  ∀ pre post r, ops = pre ++ .gradient r :: post → Asked E T (aafter E F T a pre) r

/-- The canonical point `x` has the values of the affine law of the leaf `r` at the parameter vector `θ`, as far as it is
stored. -/
def OnLaw (E : EProb R) (F : EFiles R) (T : XTab R) (r : Nat) (θ : List R) (x : Nat → R) : Prop :=
  ∀ h, T.hps[r]? = some h → ∀ i k, E.exGen.store.outInds[i]? = some k →
    x k = affLaw T.K (feedback T.K E.exGen.nSol T.fb h) (fn (thetaAt E F θ)) i

/-- Inner product of gradients with a direction of the canonical solution, over the stored entries. -/
def reqDot (E : EProb R) (g : String → List Nat → R) (z : Nat → R) : R :=
  (E.reqs.map fun q => match E.vs.find? fun v => v.name == q.1 with
    | some v => ∑ i ∈ range v.size, if q.2 = [] ∨ i ∈ q.2 then g q.1 (unpos v.shape i) * z (v.offset + i) else 0
    | none => 0).sum

/-- The attributes `gradient` of the parameters are right for the region `r`: for any two parameter values and points on the
law of this region, the inner product with the difference of the parameters is that of the given gradients with the difference of
the points. -/
def RightX (E : EProb R) (F : EFiles R) (T : XTab R) (r : Nat) (gr : String → List Nat → R)
    (pgrad : String → Option (List Nat → Option R)) : Prop :=
  ∃ f : String → List Nat → R,
    (∀ p ∈ E.tps, ∃ h, pgrad p.name = some h ∧ ∀ idx, Flatten.InBounds p.shape idx → h idx = some (f p.name idx)) ∧
    ∀ (t t' : String → List Nat → R) (x x' : Nat → R),
      OnLaw E F T r (vector E.prob t) x → OnLaw E F T r (vector E.prob t') x' →
      parDot E.tps f (fun m idx => t' m idx - t m idx) = reqDot E gr fun k => x' k - x k

end Verif.Spec.ExGrad
