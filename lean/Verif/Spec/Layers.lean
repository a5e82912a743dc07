import Verif.Model.Layers
import Verif.Spec.ExGrad
/-!
What a user of CVXPYlayers expects: a backward call differentiates the solution that its own forward call computed, whatever
happened in between.
-/
namespace Verif.Spec.Layers
open Verif.Model Verif.Model.Pipeline Verif.Model.Flatten Verif.Model.Explicit Verif.Model.ExPipe Verif.Model.GradPipe Verif.Model.ExGrad
open Verif.Model.Layers Verif.Spec Verif.Spec.Pipeline Verif.Spec.Explicit Verif.Spec.ExPipe Verif.Spec.GradPipe Verif.Spec.ExGrad

variable {R S : Type} [Field R] [LinearOrder R]

/-- The user's view: that of explicit mode, and for every completed forward call its context and the parameter vector (moved into
the bounds). -/
structure LAbs (R : Type) where
  x : XAbs R
  past : List (Ctx × List R)

/-- The names up to the first unknown one are assigned. -/
def known (names : List String) (l : List (String × α)) : List (String × α) := l.takeWhile fun e => names.contains e.1

def putV (a : XAbs R) (l : List (String × (List Nat → R))) : XAbs R :=
  l.foldl (fun a e => { a with u := { a.u with vals := fun m => if m = e.1 then some e.2 else a.u.vals m } }) a

def putG (a : XAbs R) (l : List (String × Backward.Arr R)) : XAbs R :=
  l.foldl (fun a e => { a with vgrad := fun m => if m = e.1 then some e.2 else a.vgrad m }) a

def AllNamed (names l : List String) : Prop := ∀ n ∈ l, n ∈ names

open Classical in
/-- After a forward call; `x1`: with the values assigned. -/
noncomputable def lafwd (E : EProb R) (F : EFiles R) (T : XTab R) (a : LAbs R) (x1 : XAbs R) (ctx : Ctx) (vals : List (List Nat → R))
    (u : Option (List String)) (kw : List (String × S)) : LAbs R :=
  if AllNamed (E.tps.map (·.name)) ((ctx.params.zip vals).map Prod.fst) then
    { x := astep E F T x1 (.solve u kw)
      past := if EGood E x1.u u ∧ AllNamed (E.vs.map UVar.name) ctx.vars then
        a.past ++ [(ctx, limitVec E (vector E.prob (x1.u.transfer u).sent))] else a.past }
  else { a with x := x1 }

open Classical in
/-- After a backward call of a forward call with parameter vector `θ`; `x1`: with the gradients assigned. -/
noncomputable def labwd (E : EProb R) (F : EFiles R) (T : XTab R) (a : LAbs R) (x1 : XAbs R) (ctx : Ctx) (θ : List R)
    (dvars : List (Backward.Arr R)) : LAbs R :=
  if AllNamed (E.vs.map UVar.name) ((ctx.vars.zip dvars).map Prod.fst) then
    { a with x := astep (S := Unit) E F T x1 (.gradient (some (T.leaf (thetaAt E F θ)))) }
  else { a with x := x1 }

/-- One operation. -/
noncomputable def lastep (E : EProb R) (F : EFiles R) (T : XTab R) (a : LAbs R) : LOp R S → LAbs R
  | .user op => { a with x := astep E F T a.x op }
  | .forward ctx vals u kw => lafwd E F T a (putV a.x (known (E.tps.map (·.name)) (ctx.params.zip vals))) ctx vals u kw
  | .backward k dvars =>
    match a.past[k]? with
    | none => a
    | some e => labwd E F T a (putG a.x (known (E.vs.map UVar.name) (e.1.vars.zip dvars))) e.1 e.2 dvars

noncomputable def laafter (E : EProb R) (F : EFiles R) (T : XTab R) (a : LAbs R) (ops : List (LOp R S)) : LAbs R :=
  ops.foldl (lastep E F T) a

/-- The user asks for gradients only after a solve, and only for regions that exist. -/
def LAsked (E : EProb R) (F : EFiles R) (T : XTab R) (a : LAbs R) (ops : List (LOp R S)) : Prop :=
  ∀ pre post r, ops = pre ++ .user (.gradient r) :: post → Asked E T (laafter E F T a pre).x r

/-- The results `gs` of a backward call with gradients `gr` of the stored variables: the gradients of the parameters `ps`, with respect
to the affine law that holds in the critical region of `θ`. -/
def RightL (E : EProb R) (F : EFiles R) (T : XTab R) (θ : List R) (gr : String → List Nat → R) (ps : List String)
    (gs : List (Option (List Nat → Option R))) : Prop :=
  gs.length = ps.length ∧ ∃ f : String → List Nat → R,
    (∀ p ∈ E.tps, ∀ i : Nat, ps[i]? = some p.name → ∃ h : List Nat → Option R, gs[i]? = some (some h) ∧ ∀ idx, Flatten.InBounds p.shape idx → h idx = some (f p.name idx)) ∧
    ∀ (t t' : String → List Nat → R) (x x' : Nat → R),
      OnLaw E F T (T.leaf (thetaAt E F θ)) (vector E.prob t) x → OnLaw E F T (T.leaf (thetaAt E F θ)) (vector E.prob t') x' →
      parDot E.tps f (fun m idx => t' m idx - t m idx) = reqDot E gr fun k => x' k - x k

end Verif.Spec.Layers
