import Verif.Model.LayersG
import Verif.Spec.GradPipe
import Verif.Spec.Layers
/-!
What a user of CVXPYlayers expects outside of explicit mode: a backward call differentiates the solution that its own forward call
computed, at the parameters of that forward call.
-/
namespace Verif.Spec.LayersG
open Verif.Model Verif.Model.Pipeline Verif.Model.Flatten Verif.Model.Factor Verif.Model.Grad Verif.Model.GradPipe
open Verif.Model.Layers Verif.Model.LayersG
open Verif.Spec.Pipeline Verif.Spec.Grad Verif.Spec.Factor Verif.Spec.GradPipe Verif.Spec.Layers Verif.Spec

variable {R S : Type}

/-- A completed forward call: its context, the parameters of the problem it solved, its solution. -/
structure Past (R : Type) where
  ctx : Ctx
  sent : String → List Nat → R
  sol : (Nat → R) × (Nat → R)

/-- The user's view: that of differentiation in one stage, and the completed forward calls. -/
structure GLAbs (R : Type) where
  g : GAbs R
  past : List (Past R)

def gputV (a : GAbs R) (l : List (String × (List Nat → R))) : GAbs R :=
  l.foldl (fun a e => { a with u := { a.u with vals := fun m => if m = e.1 then some e.2 else a.u.vals m } }) a

def gputG (a : GAbs R) (l : List (String × Backward.Arr R)) : GAbs R :=
  l.foldl (fun a e => { a with vgrad := fun m => if m = e.1 then some e.2 else a.vgrad m }) a

/-- From now on `s` is the solution to be differentiated. -/
def useSol (G : GProb R) (s : (Nat → R) × (Nat → R)) (a : GAbs R) : GAbs R :=
  { a with sol := (fun i => if i < G.dims.n then s.1 i else a.sol.1 i, fun i => if i < G.dims.nu then s.2 i else a.sol.2 i) }

open Classical in
/-- A solution is taken over if all variables have gradients. -/
noncomputable def takeSol (G : GProb R) (s : (Nat → R) × (Nat → R)) (a : GAbs R) : GAbs R :=
  if Fits G.prob.vs a.vgrad then useSol G s a else a

/-- A solution of the right size was passed. -/
def Passed (G : GProb R) (sp sd : Option (List R)) (x y : List R) : Prop :=
  sp = some x ∧ sd = some y ∧ x.length = G.dims.n ∧ y.length = G.dims.nu

variable [Field R] [LinearOrder R]

open Classical in
noncomputable def glaat (G : GProb R) (a : GAbs R) (sp sd : Option (List R)) : GAbs R :=
  if Passed G sp sd (sp.getD []) (sd.getD []) then takeSol G (fn (sp.getD []), fn (sd.getD [])) a else a

open Classical in
/-- After a forward call; `x1`: with the values assigned. -/
noncomputable def glafwd (G : GProb R) (sg : Stgs S) (solver : SolverFn R S) (a : GLAbs R) (x1 : GAbs R) (ctx : Ctx)
    (vals : List (List Nat → R)) (u : Option (List String)) (kw : List (String × S)) : GLAbs R :=
  if AllNamed (G.prob.tps.map (·.name)) ((ctx.params.zip vals).map Prod.fst) then
    { g := gstep G.prob sg solver x1 (.solve u kw)
      past := if Good G.prob sg x1.u u kw ∧ AllNamed (G.prob.vs.map UVar.name) ctx.vars then
        a.past ++ [⟨ctx, (gstep G.prob sg solver x1 (.solve u kw)).u.sent, (gstep G.prob sg solver x1 (.solve u kw)).sol⟩] else a.past }
  else { a with g := x1 }

open Classical in
/-- After a backward call of the forward call `p`; `x1`: with the gradients assigned. -/
noncomputable def glabwd (G : GProb R) (a : GLAbs R) (x1 : GAbs R) (p : Past R) (dvars : List (Backward.Arr R)) : GLAbs R :=
  if AllNamed (G.prob.vs.map UVar.name) ((p.ctx.vars.zip dvars).map Prod.fst) then { a with g := takeSol G p.sol x1 }
  else { a with g := x1 }

/-- One operation. -/
noncomputable def glastep (G : GProb R) (sg : Stgs S) (solver : SolverFn R S) (a : GLAbs R) : GLOp R S → GLAbs R
  | .user op => { a with g := gstep G.prob sg solver a.g op }
  | .gradientAt sp sd => { a with g := glaat G a.g sp sd }
  | .forward ctx vals u kw => glafwd G sg solver a (gputV a.g (known (G.prob.tps.map (·.name)) (ctx.params.zip vals))) ctx vals u kw
  | .backward k dvars =>
    match a.past[k]? with
    | none => a
    | some p => glabwd G a (gputG a.g (known (G.prob.vs.map UVar.name) (p.ctx.vars.zip dvars))) p dvars

noncomputable def glafter (G : GProb R) (sg : Stgs S) (solver : SolverFn R S) (a : GLAbs R) (ops : List (GLOp R S)) : GLAbs R :=
  ops.foldl (glastep G sg solver) a

/-- `(x', y')` is the derivative of the solution `s` if the data change by the difference of those at `θ'` and at `θ`, but with the
matrices at `θm`. With `θm = θ` it is the derivative. -/
def DerivativeWith (tol : R) (G : GProb R) (θm θ θ' : List R) (s : (Nat → R) × (Nat → R)) (x' y' : Nat → R) : Prop :=
  Linearised G.dims.n G.dims.nu (ent (matP G θm)) (ent (matA G θm))
    (fun r c => ent (matP G θ') r c - ent (matP G θ) r c) (fun r c => ent (matA G θ') r c - ent (matA G θ) r c)
    (Active tol s.2) (fun i => vec G θ' .q i - vec G θ .q i) (fun i => vec G θ' .u i - vec G θ .u i) s.1 s.2 x' y'

open Finset in
/-- The results `gs` of a backward call with gradients `gr` of the variables: arrays, for the parameters `ps`, whose inner product
with every direction of the parameters is the derivative of the function with gradient `gr`, for the solution `s` of the problem at
`t` and with the matrices at `θm`; up to `eps` times the last correction `delta` of the iterative refinement. -/
def RightFor (lib : Lib R) (G : GProb R) (θm : List R) (t : String → List Nat → R) (s : (Nat → R) × (Nat → R))
    (gr : String → List Nat → R) (delta : Nat → R) (ps : List String) (gs : List (Option (List Nat → Option R))) : Prop :=
  gs.length = ps.length ∧ ∃ f : String → List Nat → R,
    (∀ p ∈ G.prob.tps, ∀ i : Nat, ps[i]? = some p.name → ∃ h : List Nat → Option R, gs[i]? = some (some h) ∧
      ∀ idx, Flatten.InBounds p.shape idx → h idx = some (f p.name idx)) ∧
    ∀ (t' : String → List Nat → R) (x' y' : Nat → R), DerivativeWith lib.tol G θm (vector G.prob t) (vector G.prob t') s x' y' →
      varDot G.prob.vs gr x' = parDot G.prob.tps f (fun m idx => t' m idx - t m idx) +
        lib.eps * (∑ i ∈ range G.dims.n, delta i * x' i - ∑ k ∈ range G.dims.nu, if Active lib.tol s.2 k then delta (G.dims.n + k) * y' k else 0)

end Verif.Spec.LayersG
