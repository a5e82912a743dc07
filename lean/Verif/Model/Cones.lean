import Verif.Model.Dispatch
/-!
Model of the cones that are declared to the conic solvers.

Sources: /repo/cvxpygen/solvers/clarabel.py:127-146 (constants), 197-198 (number passed to the solver),
308-323 (list), scs.py:123-127, 232-240; ecos.py:73-88; qoco.py:80-92, 300-312.
-/
namespace Verif.Model.Cones
open Verif.Model.Dispatch

/-- Cone dimensions of the canonical problem (`param_prob.cone_dims`); power cones by their exponent. -/
structure Dims where
  zero : Nat
  nonneg : Nat
  exp : Nat
  soc : List Nat
  psd : List Nat
  p3d : List String

/-- An entry of the list of cones. -/
inductive Cone where
  | zero (n : Nat)
  | nonneg (n : Nat)
  | exp
  | soc (n : Nat)
  | psd (n : Nat)
  | pow (a : String)
deriving DecidableEq

/-- `n_cone_types` (clarabel.py:141-146). -/
def nConeTypes (d : Dims) : Nat :=
  (if 0 < d.zero then 1 else 0) + (if 0 < d.nonneg then 1 else 0) + (if 0 < d.exp then 1 else 0) +
    d.soc.length + d.psd.length + d.p3d.length

/-- `cone_str_list` (clarabel.py:311-319). -/
def coneList (d : Dims) : List Cone :=
  (if 0 < d.zero then [.zero d.zero] else []) ++ (if 0 < d.nonneg then [.nonneg d.nonneg] else []) ++
    List.replicate d.exp .exp ++ d.soc.map .soc ++ d.psd.map .psd ++ d.p3d.map .pow

/-- The cones that the solver reads: the array has `n_cone_types` elements, further initialisers are
dropped by the compiler. -/
def conesRead (d : Dims) : List Cone := (coneList d).take (nConeTypes d)

/-- What the checks of the interfaces look at. -/
def toCones (d : Dims) : Cones := ⟨d.exp, d.psd.length, d.p3d.length⟩

/-- Cone data of SCS, ECOS and QOCO as cones: zero and nonnegative cone, array of second-order cones with its
length; ECOS and QOCO pass equalities separately. -/
def socData (d : Dims) : List Cone :=
  (if 0 < d.zero then [.zero d.zero] else []) ++ (if 0 < d.nonneg then [.nonneg d.nonneg] else []) ++ d.soc.map .soc

end Verif.Model.Cones
