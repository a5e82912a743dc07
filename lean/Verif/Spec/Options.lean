import Verif.Model.Options
/-!
The options of explicit mode as they are documented (README.md:206-217), and when a dict contains them.
-/
namespace Verif.Spec.Options
open Verif.Model.Options

/-- The options that a user can set; `none`: not set. -/
structure Documented where
  dual : Option Bool
  fp16 : Option Bool
  floats : Option ℚ
  regions : Option ℚ
  stored : Option (List Nat)

/-- A dict contains these options, and possibly entries with other keys (but not the spelling `FP16`). -/
structure Says (l : Opts) (d : Documented) : Prop where
  dual : l.lookup "dual" = d.dual.map Val.bool
  fp16 : l.lookup "fp16" = d.fp16.map Val.bool
  other : l.lookup "FP16" = none
  floats : l.lookup "max_floats" = d.floats.map Val.num
  regions : l.lookup "max_regions" = d.regions.map Val.num
  stored : l.lookup "stored_vars" = d.stored.map Val.list

/-- What the documentation promises: only the primal solution, single precision, 1e6 numbers, 500 regions and all variables unless set
otherwise. -/
def Documented.effect (d : Documented) : Explicit where
  dual := d.dual.getD false
  store := if d.fp16.getD false then .half else .single
  floats := .num (d.floats.getD 1000000)
  regions := .num (d.regions.getD 500)
  stored := (d.stored.map Val.list).getD .absent

/-- Two arguments have the same entries for some keys; `None` is a dict without entries. -/
def Agree (keys : List String) (o o' : Arg) : Prop := ∀ k ∈ keys, (o.getD []).lookup k = (o'.getD []).lookup k

/-- CVXPY's canonicalization depends on the entry `use_quad_obj` only. -/
def CvxReads {D : Type} {I : Type} (cvx : I → Arg → D) : Prop := ∀ i o o', Agree ["use_quad_obj"] o o' → cvx i o = cvx i o'

end Verif.Spec.Options
