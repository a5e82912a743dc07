import Verif.Model.Methods
/-! What it means that code belongs to a problem, and that a problem holds a solution. -/
namespace Verif.Spec.Methods
open Verif.Model.Methods
variable {R : Type}

/-- Names and sizes of the code are those of the problem. -/
structure Fits (q : Prob R) (c : Code R) : Prop where
  params : ∀ n k, (n, k) ∈ c.params → ∃ p, q.params.lookup n = some p ∧
    ((p.size = 1 ∧ k = 1) ∨ (p.size ≠ 1 ∧ k ≠ 1 ∧ ∀ l, p.data = some l → l.length = k))
  vars : ∀ n ∈ c.vars, n ∈ q.vars.map Prod.fst
  nodup : c.vars.Nodup
  duals : c.nDuals ≤ q.duals.length
  primSize : ∀ v, (c.solution v).1.length = c.vars.length
  dualSize : ∀ v, (c.solution v).2.length = c.nDuals

/-- The values of parameters, in the order of the code. -/
def Values (q : Prob R) (c : Code R) (vals : List (List R)) : Prop :=
  vals.length = c.params.length ∧ ∀ (i : Nat) n k, c.params[i]? = some (n, k) → ∃ (p : Param R) (l : List R), q.params.lookup n = some p ∧ p.data = some l ∧ vals[i]? = some l

/-- The problem `q'` is `q` with the given values of variables and constraints, and none for the others. -/
structure Holds (q q' : Prob R) (names : List String) (x y : List (List R)) : Prop where
  params : q'.params = q.params
  same : q'.vars.map Prod.fst = q.vars.map Prod.fst
  prim : ∀ (i : Nat) n, names[i]? = some n → ∃ v, x[i]? = some v ∧ q'.vars.lookup n = some (some v)
  rest : ∀ n o, n ∉ names → q'.vars.lookup n = some o → o = none
  count : q'.duals.length = q.duals.length
  dual : ∀ i, i < q.duals.length → q'.duals[i]? = some y[i]?

/-- The last function stored under the name `name` is that of code `c`, stored when code was generated for problem `i`. -/
def LastRegistered (ops : List (Op R)) (name : String) (i : Nat) (c : Code R) : Prop :=
  ∃ l r, ops = l ++ .register i name c :: r ∧ ∀ j d, Op.register j name d ∉ r

/-- Every function stored is that of the code generated for the problem. -/
def Owned (own : Nat → Code R) (ops : List (Op R)) : Prop := ∀ i name c, Op.register i name c ∈ ops → c = own i

end Verif.Spec.Methods
