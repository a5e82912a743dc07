/-!
Model of the data flow between `cpg_update_*`, `cpg_solve` and `cpg_gradient`: which values of the
canonical matrices and of the solution a call of `cpg_gradient` works with.

Sources: /repo/cvxpygen/utils.py:904-935 (flags set by updates), 937-944 and 1008-1052 (canonicalization
in `cpg_solve`, flags reset), 1272-1299 (`gradient_cpp`), /repo/cvxpygen/writer.py:234-246, 304-311
(`cpg_gradient`), /repo/cvxpygen/templates/cpg_solver.py.jinja2:176-212 (`forward`, `backward`).

What `cpg_gradient` computes from these inputs is in `Verif.Model.Gradient`; here a call only records its
inputs. Canonicalization of one canonical parameter is a function of the user parameters (its loops are
modelled in `Verif.Model.Sparse`), the solver is a function of the canonical parameters.
-/
namespace Verif.Model.GradFlow

/-- `ι`: canonical parameter ids, `ν`: names of user parameters, `θ`: values of all user parameters,
`V`: values of canonical parameters, `S`: primal and dual solution, `D`: incoming gradient. -/
structure Gen (ι ν θ V S : Type) where
  /-- `p_id_to_changes` -/
  changes : ι → Bool
  /-- `p_id.isupper()` -/
  matrix : ι → Bool
  /-- `user_p_name_to_canon_outdated` -/
  deps : ν → List ι
  canonOf : ι → θ → V
  solver : (ι → V) → S

/-- The inputs of one call of `cpg_gradient`: the matrices refreshed in `K` and `K_true`, the content of
`sol_x`, `sol_y`, and `dx`. -/
structure Emit (ι V S D : Type) where
  refresh : ι → Option V
  sol : S
  dx : D

structure St (ι θ V S D : Type) where
  params : θ
  outdated : ι → Bool
  outdatedGrad : ι → Bool
  canon : ι → V
  sol : S
  log : List (Emit ι V S D)

/-- The calls: an update of the named parameter (by `f`), a solve, an overwrite of `sol_x`, `sol_y`
(utils.py:1284-1295, `use_sol`), a gradient. -/
inductive Op (ν θ S D : Type) where
  | update (name : ν) (f : θ → θ)
  | solve
  | setSol (s : S)
  | gradient (dx : D)

variable {ι ν θ V S D : Type} [DecidableEq ι]

/-- One call, differentiation in one stage. -/
def step (G : Gen ι ν θ V S) (s : St ι θ V S D) : Op ν θ S D → St ι θ V S D
  -- utils.py:904-929
  | .update name f =>
    { s with
      params := f s.params
      outdated := fun i => if i ∈ G.deps name then true else s.outdated i
      outdatedGrad := fun i => if i ∈ G.deps name ∧ G.matrix i then true else s.outdatedGrad i }
  -- utils.py:1012-1016, 1036-1052
  | .solve =>
    let canon := fun i => if G.changes i && s.outdated i then G.canonOf i s.params else s.canon i
    { s with
      canon := canon
      sol := G.solver canon
      outdated := fun i => if G.changes i then false else s.outdated i }
  | .setSol sol => { s with sol := sol }
  -- writer.py:240-246, 308-311
  | .gradient dx =>
    { s with
      log := s.log ++ [⟨fun i => if G.matrix i && G.changes i && s.outdatedGrad i then some (s.canon i)
        else none, s.sol, dx⟩]
      outdatedGrad := fun i => if G.changes i then false else s.outdatedGrad i }

def run (G : Gen ι ν θ V S) (s : St ι θ V S D) (ops : List (Op ν θ S D)) : St ι θ V S D :=
  ops.foldl (step G) s

/-- The generated initial state: the canonical parameters belong to the initial user parameters;
arbitrary initial flags. -/
def init (G : Gen ι ν θ V S) (p : θ) (o og : ι → Bool) (sol : S) : St ι θ V S D :=
  { params := p, outdated := o, outdatedGrad := og, canon := fun i => G.canonOf i p, sol := sol, log := [] }

/-- One call, differentiation in two stages: `G` is the gradient's own canonicalization (to a QP), of
which the flags are set for all dependent ids (utils.py:930-934) and which `cpg_gradient` performs itself
(writer.py:234-239); the solver (of the first stage) is a function of the user parameters. -/
def step2 (G : Gen ι ν θ V S) (solve1 : θ → S) (s : St ι θ V S D) : Op ν θ S D → St ι θ V S D
  | .update name f =>
    { s with
      params := f s.params
      outdatedGrad := fun i => if i ∈ G.deps name then true else s.outdatedGrad i }
  | .solve => { s with sol := solve1 s.params }
  | .setSol sol => { s with sol := sol }
  | .gradient dx =>
    let canon := fun i => if G.changes i && s.outdatedGrad i then G.canonOf i s.params else s.canon i
    { s with
      canon := canon
      log := s.log ++ [⟨fun i => if G.matrix i && G.changes i && s.outdatedGrad i then some (canon i)
        else none, s.sol, dx⟩]
      outdatedGrad := fun i => if G.changes i then false else s.outdatedGrad i }

def run2 (G : Gen ι ν θ V S) (solve1 : θ → S) (s : St ι θ V S D) (ops : List (Op ν θ S D)) : St ι θ V S D :=
  ops.foldl (step2 G solve1) s

/-! ### the differentiable wrapper -/

/-- `forward`: set parameter values and solve; `backward`: differentiate with the solution saved by the
given forward call (number `ctx`). -/
inductive WOp (ν θ D : Type) where
  | forward (us : List (ν × (θ → θ)))
  | backward (ctx : Nat) (dx : D)

/-- The compiled module and the saved `info["gradient_primal"]`, `info["gradient_dual"]`. -/
structure WSt (ι θ V S D : Type) where
  st : St ι θ V S D
  saved : List S

/-- templates/cpg_solver.py.jinja2:176-212 with `cpg_solve_and_gradient_info` (38-117) and
`cpg_gradient` (131-173); a context that does not exist leaves the state as it is. -/
def wstep (G : Gen ι ν θ V S) (w : WSt ι θ V S D) : WOp ν θ D → WSt ι θ V S D
  | .forward us =>
    let st := run G w.st (us.map (fun u => .update u.1 u.2) ++ [.solve])
    { st := st, saved := w.saved ++ [st.sol] }
  | .backward ctx dx =>
    match w.saved[ctx]? with
    | some sol => { w with st := run G w.st [.setSol sol, .gradient dx] }
    | none => w

def wrun (G : Gen ι ν θ V S) (w : WSt ι θ V S D) (ops : List (WOp ν θ D)) : WSt ι θ V S D :=
  ops.foldl (wstep G) w

end Verif.Model.GradFlow
