import Verif.Model.Pipeline
import Verif.Model.ExMem
import Verif.Model.Stored
/-!
Explicit mode as a whole (without dual variables, `explicit = 1`): generation, the compiled module and the Python method.

Sources: /repo/cvxpygen/solvers/pdaqp.py:76-235, 264-304 (generation), /repo/cvxpygen/utils.py:905-944 (update functions with
clamping), 1008-1052 (`cpg_solve`), 1194-1250 (`solve_cpp`), /repo/cvxpygen/templates/cpg_solver.py.jinja2:40-88. It is composed
of the models of the parts: `paramBounds`, `thetaBound`, `reduceMpqp`, `eqInds`, `storeVars`, `dropUnstored`, `clamp`,
`canonGen`, `thetaUpdate`, `ExGen.solX`, `userPrim`, `Saved.save`. The canonical form is OSQP's (`QPCanonMixin`,
_interface.py:18-77; pdaqp.py:23). PDAQP is an input: the function from `theta` to the canonical solution that
`pdaqp_evaluate` computes. Numbers are exact; PDAQP stores its tables in single or half precision.
-/
namespace Verif.Model.ExPipe
open Verif.Model Verif.Model.Pipeline Verif.Model.Saved Verif.Model.Flatten Verif.Model.Explicit

variable {R : Type}

/-- What the generator knows of a problem: parameters, affine maps, matrices by their data (`csc_matrix` with CVXPY's
structure, canonicalizer.py:476-478), number of canonical variables, of rows and of equality rows, variables (not symmetric),
constraints as far as bounds of parameters are concerned (`pcons`, one per entry of `cons`), requests (`stored_vars`,
pdaqp.py:142-160; an empty list of entries means all). -/
structure EProb (R : Type) where
  tps : List TParam
  maps : CId → Option (RawMap R)
  mat : CId → List R → Nat → Nat → R
  (n m eqM : Nat)
  vs : List UVar
  cons : List Nat
  pcons : List (PCon R)
  reqs : List (String × List Nat)
  /-- 1e-6 (pdaqp.py:97) and 1e30 (pdaqp.py:270-271) -/
  (reg big : R)

/-- Parameters and maps as for OSQP; nothing else of this is used. -/
def EProb.prob (E : EProb R) : Prob R := ⟨.osqp, true, false, E.tps, E.maps, E.vs, [], [firstMap id []], [], 0, false⟩

/-- `name_to_size` and `name_to_offset`, and the requests. -/
def EProb.exGen (E : EProb R) : ExGen where
  size := fun n => ((E.vs.find? fun v => v.name == n).map UVar.size).getD 0
  offs := E.vs.map fun v => (v.name, v.offset)
  all := E.vs.map UVar.name
  reqs := E.reqs
  nVar := E.n
  K := 0
  nLaws := 0

/-- What generation determines: bounds of the parameters, the reduced problem with the bounds of `theta`, the rows declared
as equalities, the names of stored variables. -/
structure EFiles (R : Type) where
  b : Bounds R
  M : Mpqp R
  (lo up : List R)
  eq : List Nat
  names : List String
  /-- the matrices handed to PDAQP -/
  (H A : Nat → Nat → R)

section
variable [CommRing R] [LinearOrder R]

def EProb.gen (E : EProb R) (θ0 : E.prob.Vec) :=
  canonGen E.prob.ps (E.prob.k.canonIds E.prob.quad) E.prob.quad E.maps θ0

/-- Row `i` of `C_qu` (pdaqp.py:300-301). -/
def EProb.C (E : EProb R) (i c : Nat) : R :=
  let row := fun (id : CId) (r : Nat) => match E.maps id with
    | some m => (m.final id.isUpper).at r c
    | none => 0
  if i < E.n then row .q i else row .u (i - E.n)

/-- `generate_code` (pdaqp.py:76-235) up to the call of PDAQP. -/
def egen (E : EProb R) (θ0 : E.prob.Vec) : Except PyErr (EFiles R) :=
  if (E.gen θ0).chg .P || (E.gen θ0).chg .A then .error .valueError
  else
    match (E.gen θ0).canon0 .A, (E.gen θ0).canon0 .P with
    | some a, some p =>
      let NP := totalSize E.prob.ps + 1
      match paramBounds NP E.big E.pcons with
      | .error _ => .error .valueError
      | .ok b =>
        let thmin := (List.range (E.n + E.m)).map fun i => (thetaBound NP E.C b i).1
        let thmax := (List.range (E.n + E.m)).map fun i => (thetaBound NP E.C b i).2
        let A := E.mat .A a
        let M := reduceMpqp E.n E.m A thmin thmax
        let added := addedNames E.exGen.offs E.reqs
        match Stored.dropUnstored added ⟨E.vs.map fun v => (v.name, ()), E.vs.map UVar.sym, false⟩ with
        | .error e => .error e
        | .ok s => .ok
          { b := b
            M := M
            lo := sel M.thMask thmin
            up := sel M.thMask thmax
            eq := eqInds E.eqM (rowMask E.m E.n A)
            names := s.dict.map Prod.fst
            H := fun i j => E.mat .P p i j + if i = j then E.reg else 0
            A := A }
    | _, _ => .error .keyError

/-- `cpg_update_<name>(idx, val)`: the value is moved into the bounds first (utils.py:909-924), the rest is as without
explicit mode (utils.py:926-935). -/
def clampAct (E : EProb R) (b : Bounds R) (a : { a : UpdCall R // a.Valid E.prob.ps }) : { a : UpdCall R // a.Valid E.prob.ps } :=
  ⟨{ a.1 with val := clamp b (((baseCol E.prob.ps a.1.name).getD 0) + a.1.idx) a.1.val }, a.2⟩

/-- Memory of the module: parameter vector, flags, canonical parameters. -/
abbrev EMem (E : EProb R) := Mem E.prob.Vec (Option (List R))

def eupdate (E : EProb R) (θ0 : E.prob.Vec) (b : Bounds R) (a : { a : UpdCall R // a.Valid E.prob.ps }) (m : EMem E) : EMem E :=
  (E.gen θ0).update (clampAct E b a) m

/-- `cpg_solve` (utils.py:1008-1050): canonicalize, `theta`, evaluate, reset the flags. `none`: there is no `q` or `u`. The
result is the canonical solution. -/
def csolve (E : EProb R) (θ0 : E.prob.Vec) (F : EFiles R) (sol : List R → Nat → R) (m : EMem E) : Option (EMem E × (Nat → R)) :=
  let m' := (E.gen θ0).canonicalize m
  match m'.canon .q, m'.canon .u with
  | some q, some u => some ((E.gen θ0).resetFlags m', sol (thetaUpdate E.n E.m F.M.thMask (fun i => (q[i]?).getD 0) fun i => (u[i]?).getD 0))
  | _, _ => none

/-- The arrays of the result object: entries that are not written are zero (utils.py:1216-1225). -/
def eread (E : EProb R) (x : Nat → R) (n : String) : List R :=
  match E.exGen.store.info.lookup n with
  | some v => (List.range (E.exGen.size n)).map fun i => (userPrim (E.exGen.size n) v (E.exGen.solX x) i).getD 0
  | none => []

/-- State of the process. -/
structure ESt (E : EProb R) where
  tvals : String → Option (List Nat → R)
  mem : EMem E
  obj : PObj R

/-- `cpg_solve(prob, updated_params, **kwargs)` with `explicit = 1` (template:40-88); the keyword arguments are not looked
at, `time` is the time measured. -/
def esolve {S : Type} (E : EProb R) (θ0 : E.prob.Vec) (F : EFiles R) (sol : List R → Nat → R) (time : R) (st : ESt E)
    (u : Option (List String)) (_kw : List (String × S)) : Option (ESt E × Except PyErr (Ret R)) :=
  let L := u.getD (E.prob.ps.map UParam.name)
  if L.any (fun n => !(E.prob.ps.map UParam.name).contains n) then some (st, .error .attributeError)
  else
    match readVals (E.prob.flat st.tvals) E.prob.ps with
    | some e => some (st, .error e)
    | none =>
      match csolve E θ0 F sol ((updateActs E.prob.ps L (E.prob.flat st.tvals)).foldl (fun m a => eupdate E θ0 F.b a m) st.mem) with
      | none => none
      | some (m, x) =>
        match save E.big ⟨1, F.names, 0⟩ (E.vs.map UVar.name) E.cons ⟨eread E x, fun _ => [], 0, "", time⟩ st.obj with
        | .error e => some (⟨st.tvals, m, st.obj⟩, .error e)
        | .ok (o, ret) => some (⟨st.tvals, m, o⟩, .ok ret)

/-- A history; the problem object and the outcome after every solve. `clock` is the time of each solve. -/
def erun {S : Type} (E : EProb R) (θ0 : E.prob.Vec) (F : EFiles R) (sol : List R → Nat → R) (clock : Nat → R) :
    Nat → ESt E → List (TOp R S) → Option (List (PObj R × Except PyErr (Ret R)))
  | _, _, [] => some []
  | k, st, .setVal n t :: ops =>
      erun E θ0 F sol clock k { st with tvals := fun m => if m = n then some t else st.tvals m } ops
  | k, st, .solve u kw :: ops =>
      match esolve E θ0 F sol (clock k) st u kw with
      | none => none
      | some (st', r) =>
          match erun E θ0 F sol clock (k + 1) st' ops with
          | none => none
          | some rs => some ((st'.obj, r) :: rs)

/-- The state at import of the module: everything as written at generation, all flags set (utils.py:485, 505-562). -/
def einit (E : EProb R) (θ0 : E.prob.Vec) : EMem E where
  θ := θ0
  flags := fun _ => true
  canon := (E.gen θ0).canon0
  solver := fun _ => none
  inited := true
  bad := false
  calls := []

end
end Verif.Model.ExPipe
