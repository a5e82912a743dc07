import Verif.Model.GradArr
import Verif.Spec.GradRef
/-!
What the arrays of the process represent, and what is assumed of the generated arrays.
-/
namespace Verif.Spec.GradArr
open Verif.Model Verif.Model.GradArr Verif.Spec.GradRef

variable {R S : Type}

/-- The process with index functions in place of the arrays of the differentiation code. -/
def view [Zero R] {G : GradPipe.GProb R} (st : GradArr.St R S G) : GradPipe.St R S G where
  pipe := st.pipe
  vgrad := st.vgrad
  pgrad := st.pgrad
  og := st.og
  sol := (fn st.x, fn st.y)
  ws := workspace st.mem
  dx := st.mem.dx
  dp := st.mem.dp

/-- The libraries and constants as functions of what the arrays represent. -/
def libOf [Zero R] (A : AProb R) (Q : GradMem.Qdldl R) (sqrt : R → R) (eps tol : R) : GradPipe.Lib R :=
  ⟨factorOf A.toG.N Q.factor, sqrt, eps, tol⟩

/-- The generated arrays: compressed matrices with as many entries as the canonical parameters have, the pattern of the factor, and a
factorization library whose pattern depends on the pattern of the matrix only. -/
structure ArraysOK [Field R] [DecidableEq R] [LT R] [DecidableRel (fun x y : R => x < y)] (F : GradMem.Flops R) (A : AProb R)
    (θ0 : A.prob.Vec) (pL iL : List Nat) (Q : GradMem.Qdldl R) : Prop where
  patP : GradMem.Lines A.dims.n A.dims.n A.pP A.iP
  patA : GradMem.Lines A.dims.n A.dims.nu A.pA A.iA
  wholeP : A.iP.length = A.dims.nnzP
  wholeA : A.iA.length = A.dims.nnzA
  sym : GradMem.Symbolic A.toG.N (Model.GradMem.kInit F A.dims.n A.toG.N (P0 A θ0) (A0 A θ0)).p
    (Model.GradMem.kInit F A.dims.n A.toG.N (P0 A θ0) (A0 A θ0)).i pL iL
  lib : GradMem.QdldlOK A.toG.N (GradMem.patternsOf F A.dims.n A.toG.N (P0 A θ0) (A0 A θ0) pL iL) Q
  solve : SolveOK A.toG.N Q.solve

end Verif.Spec.GradArr
