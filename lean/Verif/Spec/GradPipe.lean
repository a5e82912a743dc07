import Verif.Model.GradPipe
import Verif.Spec.Pipeline
import Verif.Spec.Gradient
/-!
What a user expects of differentiation in Python: after any history, `cpg_gradient` assigns to each parameter the gradient of
the scalar function whose gradient with respect to the variables is given, at the instance that was solved last.
-/
namespace Verif.Spec.GradPipe
open Verif.Model Verif.Model.Pipeline Verif.Model.Flatten Verif.Model.Factor Verif.Model.Grad Verif.Model.GradPipe
open Verif.Spec.Pipeline Verif.Spec.Grad Verif.Spec.Factor Verif.Spec Finset

variable {R S : Type}

/-- The user's view: values of the parameters and those last transferred, gradients of the variables, solution of the last
successful solve, number of solves. -/
structure GAbs (R : Type) where
  u : UAbs R
  vgrad : String → Option (Backward.Arr R)
  sol : (Nat → R) × (Nat → R)
  n : Nat

open Classical in
/-- One operation. A solve with good arguments solves the problem at the values transferred; gradients change nothing. -/
noncomputable def gstep [CommRing R] [DecidableEq R] (P : Prob R) (sg : Stgs S) (solver : SolverFn R S) (a : GAbs R) :
    GradPipe.Op R S → GAbs R
  | .setVal m t => { a with u := { a.u with vals := fun m' => if m' = m then some t else a.u.vals m' } }
  | .setGrad m g => { a with vgrad := fun m' => if m' = m then g else a.vgrad m' }
  | .solve u kw =>
    if Good P sg a.u u kw then
      let out := solver a.n (dataAt P (vector P (a.u.transfer u).sent)) (settingFor sg kw)
      { a with
        u := a.u.transfer u
        sol := (fn out.sol, fn (out.duals 0))
        n := a.n + 1 }
    else a
  | .gradient => a

noncomputable def gafter [CommRing R] [DecidableEq R] (P : Prob R) (sg : Stgs S) (solver : SolverFn R S) (a : GAbs R)
    (ops : List (GradPipe.Op R S)) : GAbs R := ops.foldl (gstep P sg solver) a

/-- The matrices of the canonical problem at a parameter vector. -/
def matP [CommRing R] [DecidableEq R] (G : GProb R) (θ : List R) : CscL R :=
  { G.patP with x := fn ((dataAt G.prob θ .P).getD []) }

def matA [CommRing R] [DecidableEq R] (G : GProb R) (θ : List R) : CscL R :=
  { G.patA with x := fn ((dataAt G.prob θ .A).getD []) }

/-- The vectors of the canonical problem. -/
def vec [CommRing R] [DecidableEq R] (G : GProb R) (θ : List R) (c : CId) (i : Nat) : R := fn ((dataAt G.prob θ c).getD []) i

/-- `(x', y')` is the derivative of the solution `(x, y)` of the canonical problem at `θ` in the direction of `θ'`: all data
change by the difference of those at `θ'` and at `θ`. -/
def IsDerivative [Field R] [DecidableEq R] [LinearOrder R] (tol : R) (G : GProb R) (θ θ' : List R) (s : (Nat → R) × (Nat → R))
    (x' y' : Nat → R) : Prop :=
  Linearised G.dims.n G.dims.nu (ent (matP G θ)) (ent (matA G θ))
    (fun r c => ent (matP G θ') r c - ent (matP G θ) r c) (fun r c => ent (matA G θ') r c - ent (matA G θ) r c)
    (Active tol s.2) (fun i => vec G θ' .q i - vec G θ .q i) (fun i => vec G θ' .u i - vec G θ .u i) s.1 s.2 x' y'

/-- Inner product of the gradients of the variables with a direction of the canonical solution. -/
def varDot [CommRing R] (vs : List UVar) (g : String → List Nat → R) (x' : Nat → R) : R :=
  (vs.map fun v => ∑ k ∈ range v.size, g v.name (unpos v.shape k) * x' (entryPos v k)).sum

/-- Inner product of the gradients of the parameters with a direction, over all entries of all parameters. -/
def parDot [CommRing R] (tps : List TParam) (f d : String → List Nat → R) : R :=
  (tps.map fun p => ∑ k ∈ range (size p.shape), f p.name (unpos p.shape k) * d p.name (unpos p.shape k)).sum

/-- All gradients of variables are present, with the right number of entries. -/
def Fits (vs : List UVar) (gr : String → Option (Backward.Arr R)) : Prop :=
  ∀ v ∈ vs, ∃ a, gr v.name = some a ∧ size a.shape = size v.shape

/-- Every entry of every parameter is transferred: there are no diagonal or sparse parameters (except trivial ones). -/
def Full (tps : List TParam) : Prop := ∀ p ∈ tps, slots p = size p.shape

end Verif.Spec.GradPipe
