import Verif.Model.Canon
import Mathlib.Data.List.FinRange
/-!
The generated Python method `cpg_solve` (`cvxpygen/templates/cpg_solver.py.jinja2` 26-117, not explicit),
the binding `solve_cpp` (`cvxpygen/utils.py` 1194-1215) and the settings functions
(`utils.py` 1069-1084, 1032-1034).
-/
namespace Verif.Model

/-- When a value stored by `cpg_set_solver_<name>` reaches the solver. -/
inductive Delivery where
  /-- written to the solver's own settings (`stgs_direct_write_ptr`) -/
  | direct
  /-- written to `Canon_Settings` and copied to the solver at each solve
  (`stgs_dynamically_allocated`, `utils.py:1032-1034`) -/
  | copied
  /-- written to `Canon_Settings`, read by the solver when it is created by one of the calls `fs`; the
  settings in `live` are read at each solve -/
  | atInit (fs : List CId) (live : List String)
  deriving DecidableEq, Repr

/-- `osqp.py:98-101`, `scs.py:88-91` with `scs_init(…, &Canon_Settings)` in the calls `init` and `PA`
(`scs.py:24-35`) and `scs_solve(…, Canon_Settings.warm_start)` (`scs.py:51`), `ecos.py:56-59`,
`clarabel.py:58-61`, `qoco.py:57-61` (QOCOGEN), `qoco.py:230-233` (QOCO). SCS copies the settings when
it is created (SCS's API, external). -/
def Kind.delivery : Kind → Delivery
  | .osqp => .direct
  | .scs => .atInit [.init, .PA] ["warm_start"]
  | .ecos => .copied
  | .clarabel => .copied
  | .qocogen => .direct
  | .qoco => .copied

/-- `stgs_reset_function is not None`. -/
def Kind.hasReset : Kind → Bool
  | .osqp | .scs | .qocogen => true
  | .ecos | .clarabel | .qoco => false

/-- Settings-related result of code generation: names of enabled settings (`stgs_names_enabled`), the
translation `standard_settings_names`, default values, and which values pybind converts to the type of
the setting. -/
structure Stgs (S : Type) where
  enabled : List String
  translate : List (String × String)
  default : String → S
  accepts : String → S → Bool

variable {R S V : Type}

/-- State of the Python process: values of the CVXPY parameters, memory of the generated program,
settings as stored by the settings functions, settings the solver uses, solution stored in the
problem. -/
structure PyState (R S V Θ : Type) where
  vals : String → Option (List R)
  mem : Mem Θ V
  store : String → S
  used : String → S
  saved : Option (Obs V)

/-- Template line 55: `set_solver_default_settings` resets everything through the
solver's function or assigns the default to the enabled settings. -/
def resetStore (k : Kind) (sg : Stgs S) (store : String → S) : String → S :=
  if k.hasReset then sg.default
  else fun n => if sg.enabled.contains n then sg.default n else store n

/-- `standard_settings_names.get(key, key)`. -/
def Stgs.translated (sg : Stgs S) (key : String) : String := (sg.translate.lookup key).getD key

/-- The loop over the keyword arguments, template lines 56-60. A missing attribute `set_solver_<key>`
raises `AttributeError`, a value pybind cannot convert (or an argument for
`set_solver_default_settings`) raises `TypeError`; settings stored before stay. -/
def setKwargs (sg : Stgs S) : (String → S) → List (String × S) → (String → S) × Option PyErr
  | store, [] => (store, none)
  | store, (key, v) :: kw =>
      let n := sg.translated key
      if n = "default_settings" then (store, some .typeError)
      else if !sg.enabled.contains n then (store, some .attributeError)
      else if !sg.accepts n v then (store, some .typeError)
      else setKwargs sg (fun m => if m = n then v else store m) kw

/-- Reading all parameter values, template lines 64-68 (all parameters are read, not only updated
ones): a parameter without value raises, a value of another length than declared cannot occur (CVXPY
checks shapes). -/
def readVals (vals : String → Option (List R)) : List UParam → Option PyErr
  | [] => none
  | p :: ps =>
      match vals p.name with
      | none => some (if p.size = 1 then .typeError else .attributeError)
      | some _ => readVals vals ps

/-- The update calls of `solve_cpp`, `utils.py:1198-1206`: for each parameter whose flag is set, all
entries in order. -/
def updateActs [Zero R] (ps : List UParam) (L : List String) (vals : String → Option (List R)) :
    List { a : UpdCall R // a.Valid ps } :=
  ps.attach.flatMap fun p =>
    if L.contains p.1.name then
      (List.finRange p.1.size).map fun i =>
        ⟨⟨p.1.name, i.1, (((vals p.1.name).getD [])[i.1]?).getD 0⟩, p.1, p.2, rfl, i.2⟩
    else []

/-- The settings the solver works with at a solve, given the solver calls `new` made by it. -/
def deliver (k : Kind) (sg : Stgs S) (new : List CId) (store used : String → S) : String → S :=
  match k.delivery with
  | .direct => store
  | .copied => fun n => if sg.enabled.contains n then store n else used n
  | .atInit fs live => if new.any fs.contains then store
      else fun n => if live.contains n then store n else used n

/-- What the user sees of a successful call: data the solver worked on and its settings. -/
structure PyObs (S V : Type) where
  obs : Obs V
  settings : String → S

/-- `cpg_solve(prob, updated_params, **kwargs)` (template 40-117). `none`: the generated program is not
valid C. -/
def pySolve [CommRing R] [DecidableEq R] (k : Kind) (quad lp : Bool) (ps : List UParam)
    (maps : CId → Option (RawMap R)) (θ0 : { θ : List R // θ.length = totalSize ps })
    (sg : Stgs S) (toks : List Tok)
    (st : PyState R S (Option (List R)) { θ : List R // θ.length = totalSize ps })
    (updated : Option (List String)) (kwargs : List (String × S)) :
    Option (PyState R S (Option (List R)) { θ : List R // θ.length = totalSize ps }
      × Except PyErr (PyObs S (Option (List R)))) :=
  let g := canonGen ps (k.canonIds quad) quad maps θ0
  let L := updated.getD (ps.map UParam.name)
  if L.any (fun n => !(ps.map UParam.name).contains n) then some (st, .error .attributeError)
  else
    match setKwargs sg (resetStore k sg st.store) kwargs with
    | (store, some e) => some ({ st with store := store }, .error e)
    | (store, none) =>
        match readVals st.vals ps with
        | some e => some ({ st with store := store }, .error e)
        | none =>
            match g.runCalls (k.solver quad lp) toks st.mem
                ((updateActs ps L st.vals).map Call.update ++ [Call.solve]) with
            | some (m, [o]) =>
                let new := m.calls.take (m.calls.length - st.mem.calls.length)
                let used := deliver k sg new store st.used
                some ({ st with mem := m, store := store, used := used, saved := some o },
                      .ok ⟨o, used⟩)
            | _ => none

/-- What a user does: assign a parameter value, or solve. -/
inductive PyOp (R S : Type) where
  | setVal (name : String) (v : List R)
  | solve (updated : Option (List String)) (kwargs : List (String × S))

/-- A history of user operations; collects the outcome of every solve. -/
def pyRun [CommRing R] [DecidableEq R] (k : Kind) (quad lp : Bool) (ps : List UParam)
    (maps : CId → Option (RawMap R)) (θ0 : { θ : List R // θ.length = totalSize ps })
    (sg : Stgs S) (toks : List Tok) :
    PyState R S (Option (List R)) { θ : List R // θ.length = totalSize ps } → List (PyOp R S) →
    Option (PyState R S (Option (List R)) { θ : List R // θ.length = totalSize ps }
      × List (Except PyErr (PyObs S (Option (List R)))))
  | st, [] => some (st, [])
  | st, .setVal n v :: ops =>
      pyRun k quad lp ps maps θ0 sg toks
        { st with vals := fun m => if m = n then some v else st.vals m } ops
  | st, .solve u kw :: ops =>
      match pySolve k quad lp ps maps θ0 sg toks st u kw with
      | none => none
      | some (st', r) =>
          match pyRun k quad lp ps maps θ0 sg toks st' ops with
          | none => none
          | some (st'', rs) => some (st'', r :: rs)

end Verif.Model
