import Verif.Model.Wrapper
import Verif.Model.Saved
import Verif.Model.Flatten
/-!
The generated Python method as a whole, outside of explicit mode: arrays in, arrays out.

Sources: /repo/cvxpygen/templates/cpg_solver.py.jinja2:40-117, composed of the models of its parts: reading of parameters
(`Flatten.delivered`, template:26-34, 64-68), transfer, canonicalization and update of the solver (`pySolve`), retrieval
(`primReadAll`, `dualRead`, `objVal`), storing (`Saved.save`, template:76-101). The solver is an input: a function of the
number of the solve (so that results may depend on earlier ones), its data and its settings.
-/
namespace Verif.Model.Pipeline
open Verif.Model Verif.Model.Saved Verif.Model.Flatten

variable {R S : Type}

/-- A parameter with its shape and attribute. -/
structure TParam where
  name : String
  shape : List Nat
  attr : PAttr

/-- The parameter as the generator keeps it (`user_p_name_to_size_usp`). -/
def TParam.toU (p : TParam) : UParam := ⟨p.name, sizeUsp p.shape p.attr⟩

/-- What the generator knows of a problem: solver, class, parameters, affine maps, variables, ids of the constraints with
the maps of the reductions, canonical constraints with the number of equality constraints, sense. -/
structure Prob (R : Type) where
  k : Kind
  quad : Bool
  lp : Bool
  tps : List TParam
  maps : CId → Option (RawMap R)
  vs : List UVar
  cons : List Nat
  idMaps : List IdMap
  con : List CCon
  nEq : Nat
  isMax : Bool

def Prob.ps (P : Prob R) : List UParam := P.tps.map TParam.toU

/-- Parameter vectors. -/
abbrev Prob.Vec (P : Prob R) := { θ : List R // θ.length = totalSize P.ps }

/-- What a solver leaves in its workspace: solution, dual vectors, objective value, status, time. -/
structure SolverOut (R : Type) where
  sol : List R
  duals : Nat → List R
  obj : R
  status : String
  time : R

/-- A solver: result by number of the solve, data and settings. -/
abbrev SolverFn (R S : Type) := Nat → (CId → Option (List R)) → (String → S) → SolverOut R

/-- What generation determines: update block, tables of variables and dual variables. -/
structure Files where
  toks : List Tok
  pi : PrimInfo
  ds : List DualEntry

/-- Generation (canonicalizer.py:124-158, 160-224, utils.py:422-467). -/
def gen [CommRing R] [DecidableEq R] (P : Prob R) (θ0 : P.Vec) (order : List CId → List CId) : Except PyErr Files :=
  let g := canonGen P.ps (P.k.canonIds P.quad) P.quad P.maps θ0
  match primInfo P.vs with
  | .error e => .error e
  | .ok pi =>
    match dualIds P.idMaps with
    | .error e => .error e
    | .ok ids =>
      match dualInfo P.k.dualSplit P.nEq P.con ids with
      | .error e => .error e
      | .ok ds =>
        match genBlock (P.k.solver P.quad P.lp).pus g.quad g.changes order with
        | .error e => .error e
        | .ok (toks, _) => .ok ⟨toks, pi, ds⟩

/-- The result object filled by `solve_cpp` (utils.py:1214-1245). `none`: a read outside an array. -/
def readRes [CommRing R] (P : Prob R) (F : Files) (out : SolverOut R) (offset : Option (List R)) : Option (Res R) :=
  match (P.vs.map UVar.name).mapM (fun n => (primReadAll P.k.traits F.pi out.sol n).map fun l => (n, l)),
    F.ds.mapM (fun d => (List.range d.size).mapM (dualRead P.k.traits F.ds out.duals d)), offset with
  | some prims, some duals, some [d] =>
      some ⟨fun n => (prims.lookup n).getD [], fun i => (duals[i]?).getD [],
        objVal P.isMax (nonzeroD (P.maps .d)) out.obj d, out.status, out.time⟩
  | _, _, _ => none

/-- State of the process: values of the parameters (arrays), the compiled module, the problem object, number of solves. -/
structure St (R S : Type) (P : Prob R) where
  tvals : String → Option (List Nat → R)
  py : PyState R S (Option (List R)) P.Vec
  obj : PObj R
  n : Nat

/-- What arrives of the value of a parameter (template:26-34, 66-68); none also if the conversion fails. -/
def Prob.flat (P : Prob R) (tv : String → Option (List Nat → R)) (n : String) : Option (List R) :=
  match P.tps.find? fun p => p.name == n, tv n with
  | some p, some t => delivered p.shape p.attr t
  | _, _ => none

/-- The Python file (utils.py:1580-1595). -/
def Prob.file (P : Prob R) (F : Files) : PyFile := ⟨0, P.vs.map UVar.name, F.ds.length⟩

/-- `cpg_solve(prob, updated_params, **kwargs)`, template:40-117. `none`: not a valid C program. -/
def solve [CommRing R] [DecidableEq R] (P : Prob R) (θ0 : P.Vec) (sg : Stgs S) (big : R) (solver : SolverFn R S)
    (F : Files) (st : St R S P) (u : Option (List String)) (kw : List (String × S)) :
    Option (St R S P × Except PyErr (Ret R)) :=
  match pySolve P.k P.quad P.lp P.ps P.maps θ0 sg F.toks { st.py with vals := P.flat st.tvals } u kw with
  | none => none
  | some (py, .error e) => some ({ st with py := py }, .error e)
  | some (py, .ok obs) =>
    let out := solver st.n obs.obs.data obs.settings
    match readRes P F out obs.obs.offset with
    | none => none
    | some res =>
      match save big (P.file F) (P.vs.map UVar.name) P.cons res st.obj with
      | .error e => some (⟨st.tvals, py, st.obj, st.n + 1⟩, .error e)
      | .ok (o, ret) => some (⟨st.tvals, py, o, st.n + 1⟩, .ok ret)

/-- What a user does: assign an array to a parameter, or solve. -/
inductive TOp (R S : Type) where
  | setVal (name : String) (t : List Nat → R)
  | solve (updated : Option (List String)) (kwargs : List (String × S))

/-- A history; the problem object and the outcome after every solve. -/
def run [CommRing R] [DecidableEq R] (P : Prob R) (θ0 : P.Vec) (sg : Stgs S) (big : R) (solver : SolverFn R S)
    (F : Files) : St R S P → List (TOp R S) → Option (List (PObj R × Except PyErr (Ret R)))
  | _, [] => some []
  | st, .setVal n t :: ops =>
      run P θ0 sg big solver F { st with tvals := fun m => if m = n then some t else st.tvals m } ops
  | st, .solve u kw :: ops =>
      match solve P θ0 sg big solver F st u kw with
      | none => none
      | some (st', r) =>
          match run P θ0 sg big solver F st' ops with
          | none => none
          | some rs => some ((st'.obj, r) :: rs)

end Verif.Model.Pipeline
