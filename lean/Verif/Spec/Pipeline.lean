import Verif.Model.Pipeline
import Verif.Spec.Wrapper
import Verif.Spec.Retrieve
import Verif.Spec.Flatten
/-!
What a user expects of the generated method as a replacement of CVXPY's: a machine whose state are the values of the
parameters, the values last transferred and the problem object. A solve takes the canonical problem at the values last
transferred, asks the solver, and distributes its result over variables, constraints and value.
-/
namespace Verif.Spec.Pipeline
open Verif.Model Verif.Model.Pipeline Verif.Model.Saved Verif.Model.Flatten Verif.Spec.Flatten Verif.Spec Finset

variable {R S : Type}

/-- Multi-index at a column-major position. -/
def unpos : List Nat → Nat → List Nat
  | [], _ => []
  | d :: ds, k => (k % d) :: unpos ds (k / d)

/-- The entry of a parameter that is kept at slot `k`. -/
def slotIdx (p : TParam) (k : Nat) : List Nat :=
  match p.attr with
  | .plain => unpos p.shape k
  | .diag => [k, k]
  | .sparse coords => (coords[k]?).getD []

/-- Number of entries of a parameter that may vary. -/
def slots (p : TParam) : Nat :=
  match p.attr with
  | .plain => p.shape.prod
  | .diag => p.shape.headD 0
  | .sparse coords => coords.length

/-- The entries of a parameter that may vary, in order. -/
def slotVec (p : TParam) (t : List Nat → R) : List R := (List.range (slots p)).map fun k => t (slotIdx p k)

/-- Parameter vector for arrays. -/
def vector (P : Prob R) (sent : String → List Nat → R) : List R := P.tps.flatMap fun p => slotVec p (sent p.name)

/-- Canonical data: the affine maps at a parameter vector. -/
def dataAt [CommRing R] [DecidableEq R] (P : Prob R) (θ : List R) (c : CId) : Option (List R) :=
  (P.maps c).map fun m => (if c.isUpper then nonzeroRows m.signed else List.range m.mapping.rows).map fun r =>
    ∑ j ∈ range (θ.length + 1), (m.mapping.at r j * m.sign r) * fn (θ ++ [1]) j

/-- Constant term of the objective. -/
def constAt [CommRing R] [DecidableEq R] (P : Prob R) (θ : List R) : R := (((dataAt P θ .d).getD [])[0]?).getD 0

/-- The objective of the user. -/
def userObj [CommRing R] (P : Prob R) (obj const : R) : R := if P.isMax then -(obj + const) else obj + const

/-- Infinite from 1e30 on. -/
def asVal [Neg R] [DecidableEq R] (big x : R) : Val R := if x = big then .posInf else if x = -big then .negInf else .fin x

/-- The result `out` of the solver has arrived in the problem object. -/
structure Solved [CommRing R] [DecidableEq R] (P : Prob R) (big : R) (out : SolverOut R) (const : R) (o : PObj R)
    (r : Except PyErr (Ret R)) : Prop where
  /-- every variable is an array of its shape, and each of its entries that of the solution which belongs to it -/
  prim : ∀ v ∈ P.vs, ∃ l f, o.prim v.name = some l ∧ reshapeF v.shape l = some f ∧
    ∀ idx, InBounds v.shape idx → ∃ x, f idx = some x ∧ out.sol[entryPos v (pos v.shape idx)]? = some x
  /-- every constraint has the dual value of its own rows -/
  dual : ∀ c ∈ P.cons, ∃ m cc l, P.con[m]? = some cc ∧ follow P.idMaps c = .ok cc.id ∧ o.dual c = some l ∧
    l.length = cc.size ∧ ∀ i < cc.size, ∃ x, l[i]? = some x ∧
      (out.duals (dualVec P.k.dualSplit P.nEq m))[dualStart P.k.dualSplit P.nEq P.con m + i]? = some x
  value : o.value = some (asVal big (userObj P out.obj const))
  returned : r = .ok (.value (asVal big (userObj P out.obj const)))
  status : o.status = some out.status

/-- State of the user's view: current values, values last transferred. -/
structure UAbs (R : Type) where
  vals : String → Option (List Nat → R)
  sent : String → List Nat → R

/-- Transfer of exactly the named parameters (all if not given). -/
def UAbs.transfer [Zero R] (a : UAbs R) (u : Option (List String)) : UAbs R where
  vals := a.vals
  sent n := if (∀ L, u = some L → n ∈ L) then (a.vals n).getD (fun _ => 0) else a.sent n

/-- Arguments are good and all parameters have values. -/
def Good (P : Prob R) (sg : Stgs S) (a : UAbs R) (u : Option (List String)) (kw : List (String × S)) : Prop :=
  (∀ L, u = some L → ∀ n ∈ L, ∃ p ∈ P.tps, p.name = n) ∧
  (∀ kv ∈ kw, (sg.translate.lookup kv.1).getD kv.1 ∈ sg.enabled ∧
    sg.accepts ((sg.translate.lookup kv.1).getD kv.1) kv.2 = true) ∧
  ∀ p ∈ P.tps, ∃ t, a.vals p.name = some t

/-- The outcomes `rs` are those expected of a history, `o` being the problem object before and `n` the number of solves so
far. A call with bad arguments or missing values raises and leaves the problem object as it is. -/
def Follows [CommRing R] [DecidableEq R] (P : Prob R) (sg : Stgs S) (big : R) (solver : SolverFn R S) :
    UAbs R → Nat → PObj R → List (TOp R S) → List (PObj R × Except PyErr (Ret R)) → Prop
  | _, _, _, [], rs => rs = []
  | a, n, o, .setVal m t :: ops, rs =>
      Follows P sg big solver { a with vals := fun m' => if m' = m then some t else a.vals m' } n o ops rs
  | a, n, o, .solve u kw :: ops, rs => ∃ o' r rs', rs = (o', r) :: rs' ∧
      ((Good P sg a u kw ∧
        Solved P big (solver n (dataAt P (vector P (a.transfer u).sent)) (settingFor sg kw))
          (constAt P (vector P (a.transfer u).sent)) o' r ∧
        Follows P sg big solver (a.transfer u) (n + 1) o' ops rs') ∨
       (¬ Good P sg a u kw ∧ o' = o ∧ (∃ e, r = .error e) ∧ Follows P sg big solver a n o ops rs'))

end Verif.Spec.Pipeline
