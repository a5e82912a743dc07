import Verif.Model.Py
/-!
Model of the parameter-update structure: `cvxpygen/mappings.py` 115-126,
`cvxpygen/utils.py` 348-467 and the six solver tables in `cvxpygen/solvers/*.py`.

Only the names occurring in the tables are enumerated; `other n` stands for any other string, so
that statements about arbitrary tables are not limited to the existing names.
-/
namespace Verif.Model

/-- Canonical parameter ids and update-function names (both are plain strings in Python and
`utils.py:402` looks up a *function* name in the dictionary of canonical parameters). -/
inductive CId where
  | P | q | c | d | A | b | l | u | G | h
  | init | PA | qlu | ql | qu | lu | bc | AbcGh
  | other (n : Nat)
  deriving DecidableEq, Repr

/-- `'&&'`-like and `'||'`-like operators; `operator_map` in `utils.py:427-428`. -/
inductive Op where
  | and | or
  deriving DecidableEq, Repr

/-- The extra conditions used by the solver tables: `'!{prefix}Scs_Work'`, `'!{prefix}solver'`,
`'!{prefix}qoco_solver'`, `'!{prefix}ecos_workspace'`, `'{prefix}qoco_custom_workspace.n <= 0'`
(all: solver not initialised yet) and `'1'` (Clarabel LP, `clarabel.py:161`). -/
inductive Extra where
  | notInit | always
  deriving DecidableEq, Repr

/-- `UpdatePendingLogic`, `mappings.py:115-120`. -/
structure Logic where
  params : List CId
  op : Option Op := none
  fif : Option (List CId) := none
  extra : Option Extra := none
  extraOp : Option Op := none
  deriving DecidableEq, Repr

/-- A parameter update structure: a Python dict, in insertion order. -/
abbrev Pus := List (CId × Logic)

/-- `pus[function]`, raising `KeyError`. -/
def Pus.get (pus : Pus) (f : CId) : Except PyErr Logic :=
  match pus.lookup f with
  | some l => .ok l
  | none => .error .keyError

/-- Write access `pus[function].update_pending_logic = ...` (the key exists). -/
def Pus.set (pus : Pus) (f : CId) (l : Logic) : Pus :=
  pus.map fun kv => if kv.1 = f then (kv.1, l) else kv

/-- `p_id_to_changes`, a dict from canonical ids to Booleans. -/
abbrev Changes := CId → Option Bool

/-- `extend_functions_if_false`, `utils.py:348-362`. The Python recursion has no bound; `fuel`
exhaustion stands for Python's `RecursionError`. -/
def extendFif (pus : Pus) : Nat → Option (List CId) → Except PyErr (List CId)
  | _, none => .ok []
  | 0, some _ => .error .recursionError
  | fuel + 1, some fs =>
      fs.foldlM (init := []) fun acc f => do
        let lg ← pus.get f
        let sub ← extendFif pus fuel lg.fif
        return acc ++ f :: sub

/-- State of the loop in `analyze_pus`: `functions_called`, `functions_secondary`. -/
structure AnState where
  called : List CId
  secondary : List CId
  deriving DecidableEq, Repr

/-- `p_id_to_changes.get(p, False)`. -/
def Changes.getD (ch : Changes) (p : CId) : Bool := (ch p).getD false

/-- One iteration of the loop of `analyze_pus`, `utils.py:382-417`. -/
def analyzeStep (pus : Pus) (fuel : Nat) (ch : Changes) (s : AnState) (f : CId) (lg : Logic) :
    Except PyErr AnState := do
  let fif ← extendFif pus fuel lg.fif
  let cont : AnState → Except PyErr AnState := fun s =>
    if fif.any (fun g => !(pus.map Prod.fst).contains g) then .error .valueError
    else .ok { s with secondary := s.secondary ++ fif }
  match lg.op with
  | some .and =>
      if lg.params.any (fun p => !ch.getD p) then .ok { s with called := s.called.erase f }
      else cont s
  | some .or =>
      if lg.params.all (fun p => !ch.getD p) then .ok { s with called := s.called.erase f }
      else cont s
  | none =>
      if lg.extraOp.isNone && lg.params.length == 1 then
        match ch f with
        | none => .error .keyError
        | some false => .ok { s with called := s.called.erase f }
        | some true => cont s
      else cont s

/-- `analyze_pus`, `utils.py:371-419`. Python sets are represented by duplicate-free lists; the
iteration order of the first result is unspecified (callers quantify over permutations). -/
def analyzePus (pus : Pus) (fuel : Nat) (ch : Changes) : Except PyErr (List CId × List CId) := do
  let keys := pus.map Prod.fst
  let s ← pus.foldlM (init := ({ called := keys, secondary := [] } : AnState))
    fun s kv => analyzeStep pus fuel ch s kv.1 kv.2
  return (s.called.filter (fun f => !s.secondary.contains f),
          keys.filter (fun f => !s.called.contains f))

/-! ### Emitted C text, as tokens -/

/-- Lexical elements of a C condition emitted by `utils.py:450-452`. -/
inductive CTok where
  | extra (e : Extra)
  | flag (p : CId)
  | andand
  | oror
  deriving DecidableEq, Repr

/-- Lexical elements of the emitted update block; whitespace is dropped. -/
inductive Tok where
  | ifOpen (c : List CTok)      -- `if (c) {`       utils.py:454
  | call (f : CId)               -- `<function_call>;` utils.py:455
  | close                       -- `}`               utils.py:456, 467
  | elseOpen                    -- ` else {`         utils.py:436
  deriving DecidableEq, Repr

/-- The C operator of `operator_map.get(op, default)`. -/
def opTok : Option Op → CTok → CTok
  | some .and, _ => .andand
  | some .or, _ => .oror
  | none, dflt => dflt

/-- The text between the parentheses of the emitted `if`, `utils.py:450-452`. -/
def emitCond (lg : Logic) : List CTok :=
  (match lg.extra with | some e => [CTok.extra e] | none => []) ++
  (if lg.extra.isSome && !lg.params.isEmpty then [opTok lg.extraOp .oror] else []) ++
  (lg.params.map CTok.flag).intersperse (opTok lg.op .andand)

/-- The removal of `'P'` when the objective is not quadratic, `utils.py:446-447`. -/
def dropP (quad : Bool) (lg : Logic) : Logic :=
  if lg.params.contains .P && !quad then { lg with params := lg.params.erase .P } else lg

/-- `write_update_structure`, `utils.py:422-467`. Returns the emitted tokens and the
parameter update structure after the in-place mutation of `parameters_outdated` (line 447). -/
def writeUpdate (quad : Bool) (never : List CId) :
    Nat → Pus → Option (List CId) → Nat → Except PyErr (List Tok × Pus)
  | _, pus, none, _ => .ok ([], pus)
  | 0, _, some _, _ => .error .recursionError
  | fuel + 1, pus, some fs, depth => do
      let writeElse := decide (0 < depth) && fs.any (fun f => !never.contains f)
      let fs := if fs.contains .init then CId.init :: fs.erase .init else fs
      let (body, pus) ← fs.foldlM (init := (([] : List Tok), pus)) fun (acc, pus) f => do
        let lg0 ← pus.get f
        let lg := dropP quad lg0
        let pus := pus.set f lg
        if never.contains f then
          let (sub, pus) ← writeUpdate quad never fuel pus lg.fif depth
          return (acc ++ sub, pus)
        else
          let (sub, pus) ← writeUpdate quad never fuel pus lg.fif (depth + 1)
          return (acc ++ (Tok.ifOpen (emitCond lg) :: Tok.call f :: Tok.close :: sub), pus)
      return ((if writeElse then [Tok.elseOpen] else []) ++ body ++
              (if writeElse then [Tok.close] else []), pus)

/-! ### Meaning of the emitted C text -/

/-- Abstract syntax of the C fragment (a statement list). -/
inductive Prog where
  | skip
  | call (f : CId) (rest : Prog)
  | ite (c : List CTok) (t e rest : Prog)
  deriving DecidableEq, Repr

/-- Sequential composition. -/
def Prog.seq : Prog → Prog → Prog
  | .skip, q => q
  | .call f r, q => .call f (r.seq q)
  | .ite c t e r, q => .ite c t e (r.seq q)

/-- Recursive-descent parser for the C fragment: parses a maximal statement list and returns the
remaining tokens. An `else` belongs to the immediately preceding `if`. -/
def parseStmts : Nat → List Tok → Option (Prog × List Tok)
  | 0, _ => none
  | _ + 1, [] => some (.skip, [])
  | _ + 1, .close :: ts => some (.skip, .close :: ts)
  | _ + 1, .elseOpen :: _ => none
  | fuel + 1, .call f :: ts =>
      match parseStmts fuel ts with
      | some (r, rest) => some (.call f r, rest)
      | none => none
  | fuel + 1, .ifOpen c :: ts =>
      match parseStmts fuel ts with
      | some (t, .close :: .elseOpen :: ts') =>
          match parseStmts fuel ts' with
          | some (e, .close :: ts'') =>
              match parseStmts fuel ts'' with
              | some (r, rest) => some (.ite c t e r, rest)
              | none => none
          | _ => none
      | some (t, .close :: ts') =>
          match parseStmts fuel ts' with
          | some (r, rest) => some (.ite c t .skip r, rest)
          | none => none
      | _ => none

/-- Parse a whole block. -/
def parseBlock (ts : List Tok) : Option Prog :=
  match parseStmts (ts.length + 1) ts with
  | some (p, []) => some p
  | _ => none

/-- Value of a C condition without parentheses: `||` binds weaker than `&&`.
`conj` is the value of the current conjunction so far, `disj` of the completed disjuncts.
`none` is a syntax error. -/
def evalC (ev : CTok → Bool) : Bool → Bool → List CTok → Option Bool
  | _, _, [] => none
  | _, _, .andand :: _ => none
  | _, _, .oror :: _ => none
  | conj, disj, [a] => some (disj || (conj && ev a))
  | conj, disj, a :: .andand :: rest => evalC ev (conj && ev a) disj rest
  | conj, disj, a :: .oror :: rest => evalC ev true (disj || (conj && ev a)) rest
  | _, _, _ :: _ => none

/-- Execution of a parsed block on a program state. `none`: the condition is not valid C. -/
def exec {σ : Type} (ev : σ → CTok → Bool) (doCall : CId → σ → σ) : Prog → σ → Option σ
  | .skip, s => some s
  | .call f r, s => exec ev doCall r (doCall f s)
  | .ite c t e r, s =>
      match evalC (ev s) true false c with
      | none => none
      | some true => (exec ev doCall t s).bind (exec ev doCall r)
      | some false => (exec ev doCall e s).bind (exec ev doCall r)

/-- Execution of emitted text: parse, then execute. -/
def execText {σ : Type} (ev : σ → CTok → Bool) (doCall : CId → σ → σ) (ts : List Tok) (s : σ) :
    Option σ :=
  (parseBlock ts).bind fun p => exec ev doCall p s

end Verif.Model
