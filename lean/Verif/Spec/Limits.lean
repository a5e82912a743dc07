import Verif.Model.Limits
/-!
What limits on parameters mean, entry by entry.
-/
namespace Verif.Spec.Limits
open Verif.Model Verif.Model.Limits
variable {R : Type}

/-- A parameter of the problem: id, column of its first entry in the vector of parameters, shape. All entries are stored,
in column-major order. -/
structure Par where
  id : Nat
  col : Nat
  shape : List Nat

def Par.size (p : Par) : Nat := Flatten.size p.shape

/-- A single value. -/
def Single (a : Arr R) : Prop := ∀ d ∈ a.shape, d = 1

instance (a : Arr R) : Decidable (Single a) := inferInstanceAs (Decidable (∀ d ∈ a.shape, d = 1))

/-- At most one axis, the last one, is longer than one. -/
def RowLike (sh : List Nat) : Prop := ∀ d ∈ sh.dropLast, d = 1

/-- Entry `i` (column-major) of a constant that is compared with a parameter of shape `sh`. -/
def valueFor (sh : List Nat) (a : Arr R) (i : Nat) : Option R :=
  if Single a then some (a.val (a.shape.map fun _ => 0))
  else if a.shape = sh then (Flatten.flattenF a.shape a.val)[i]? else none

/-- A constraint between parameters and constants only. -/
def OnPars (c : Con R) : Prop := c.vars = false ∧ c.params = true

instance (c : Con R) : Decidable (OnPars c) := inferInstanceAs (Decidable (_ ∧ _))

/-- The upper limit that `c` states for entry `i` of `p`. -/
def upperOn (p : Par) (i : Nat) (c : Con R) : Option R :=
  if OnPars c then
    match c.lhs, c.rhs with
    | .param id _, .const a => if id = p.id then valueFor p.shape a i else none
    | _, _ => none
  else none

/-- The lower limit that `c` states for entry `i` of `p`. -/
def lowerOn (p : Par) (i : Nat) (c : Con R) : Option R :=
  if OnPars c then
    match c.lhs, c.rhs with
    | .const a, .param id _ => if id = p.id then valueFor p.shape a i else none
    | _, _ => none
  else none

/-- The limit stated last, `none` without limit. -/
def lastOf (f : Con R → Option R) : List (Con R) → Option R
  | [] => none
  | c :: cs => match lastOf f cs with
    | some v => some v
    | none => f c

/-- Parameters lie one beside the other in a vector whose last entry is the constant 1. -/
structure Laid (ps : List Par) (cols : List (Nat × Nat)) (NP : Nat) : Prop where
  col : ∀ p ∈ ps, cols.lookup p.id = some p.col
  fit : ∀ p ∈ ps, p.col + p.size + 1 ≤ NP
  apart : ∀ p ∈ ps, ∀ q ∈ ps, p.id ≠ q.id → p.col + p.size ≤ q.col ∨ q.col + q.size ≤ p.col
  uniq : ∀ p ∈ ps, ∀ q ∈ ps, p.id = q.id → p = q
  pos : 0 < NP

/-- A limit that is supported: one of the parameters against a single value or against a constant of the same shape
with at most one longer axis, the last. -/
def SuppPair (ps : List Par) (l r : Arg R) : Prop :=
  ∃ p ∈ ps, ∃ a : Arr R, l = .param p.id p.size ∧ r = .const a ∧ (Single a ∨ a.shape = p.shape ∧ RowLike p.shape)

def Supported (ps : List Par) (cons : List (Con R)) : Prop :=
  ∀ c ∈ cons, OnPars c → SuppPair ps c.lhs c.rhs ∨ SuppPair ps c.rhs c.lhs

/-- No two constraints state a limit for the same entry. -/
def Once (f : Con R → Option R) (cons : List (Con R)) : Prop := cons.Pairwise fun c c' => f c = none ∨ f c' = none

/-- `x` is allowed as entry `i` of `p` by all constraints. -/
def Allowed [LE R] (p : Par) (i : Nat) (cons : List (Con R)) (x : R) : Prop :=
  ∀ c ∈ cons, (∀ v, upperOn p i c = some v → x ≤ v) ∧ (∀ v, lowerOn p i c = some v → v ≤ x)

end Verif.Spec.Limits
