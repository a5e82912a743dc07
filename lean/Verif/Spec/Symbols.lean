import Verif.Model.Symbols
/-!
Specification of names in a C program: scope within a file, linking of several files, and clashes.
-/
namespace Verif.Spec.Symbols
open Verif.Model.Text Verif.Model.Dispatch Verif.Model.Symbols

/-- Every definition of the file only mentions names that are declared by an included header, are static variables
of the file, or are defined before it. -/
def InScope (f : CFile) : Prop :=
  ∀ before it after, f.items = before ++ it :: after → ∀ u ∈ it.uses,
    u ∈ f.headers ∨ u ∈ f.statics ∨ u ∈ before.map Item.name

/-- Every name mentioned in the files is a static variable of its file or is defined in some file or in the library. -/
def Linked (files : List CFile) (lib : List Txt) : Prop :=
  ∀ f ∈ files, ∀ it ∈ f.items, ∀ u ∈ it.uses,
    u ∈ f.statics ∨ (∃ g ∈ files, u ∈ g.items.map Item.name) ∨ u ∈ lib

/-- The declared functions are defined in some file. -/
def Defined (files : List CFile) (protos : List Txt) : Prop :=
  ∀ d ∈ protos, ∃ g ∈ files, d ∈ g.items.map Item.name

/-- All names with external linkage in the files. -/
def externs (files : List CFile) : List Txt := files.flatMap fun f => f.items.map Item.name

/-- No name is defined twice, in the files or in the library, and none hides a static variable of its file. -/
def NoClash (files : List CFile) (lib : List Txt) : Prop :=
  (externs files ++ lib).Nodup ∧ ∀ f ∈ files, ∀ s ∈ f.statics, s ∉ f.headers ∧ s ∉ f.items.map Item.name

/-- Two programs that can be linked into one. -/
def Compatible (a b : List Txt) : Prop := ∀ s ∈ a, s ∉ b

/-- What the partial theorem asks of an input: one stage, explicit mode is PDAQP's, derivatives are for OSQP and
explicit mode with `P` and `A` as the only matrices (_interface.py:27), and SCS has constraints and variables. -/
structure Coherent (I : In) : Prop where
  one : I.two = false
  mode : I.explicit ≤ 2
  expl : I.explicit ≠ 0 ↔ I.iface = .pdaqp
  grad : I.gradient = true → I.iface = .osqp ∨ I.iface = .pdaqp
  ids : I.gradient = true → ∀ c ∈ I.canon, upperId c.id = true → c.id = S.P ∨ c.id = S.A
  scs : I.iface = .scs → (∀ m ∈ (if I.quad then [S.P, S.A] else [S.A]) ++ [S.b, S.c],
    ∃ c ∈ keys I.canon, c.id = m ∧ c.len ≠ 0)

/-! ### names chosen by the user -/

def startsWith (s t : Txt) : Bool := s.isPrefixOf t

/-- Names that a variable with storage of its own must not have. -/
def reserved (i : Iface) (t : Txt) : Bool :=
  startsWith "cpg_".toList t || startsWith "CPG_".toList t || startsWith "canon_".toList t ||
  startsWith "Canon_".toList t ||
  match i with
  | .scs => startsWith "scs_".toList t || startsWith "Scs_".toList t
  | .ecos => startsWith "ecos_".toList t
  | .qoco | .qocogen => startsWith "qoco_".toList t
  | .clarabel => ["P", "A", "cones", "settings", "solver", "solution"].any fun s => s.toList == t
  | .osqp | .pdaqp => false

/-- Names with external linkage that never carry the prefix. -/
def bare (I : In) : List Txt :=
  match I.iface with
  | .osqp => ["solver", "sol_x", "sol_y"].map String.toList ++
      (if I.gradient then ["n", "N", "cpg_grad_a", "cpg_grad_a_bar", "cpg_grad_gamma", "insert_nonzero",
        "insert_nonzero_and_value", "remove_nonzero", "symbolic_ldl_update", "symbolic_ldl_downdate",
        "cpg_rank_1_update", "cpg_ldl_delete", "cpg_ldl_add", "cpg_ldl_symbolic", "cpg_ldl_numeric", "cpg_P_to_K",
        "cpg_A_to_K", "cpg_osqp_gradient"].map String.toList else [])
  | .pdaqp => ["sol_x", "sol_y", "pdaqp_evaluate"].map String.toList ++
      (if I.gradient then ["pdaqp_active_region", "pdaqp_feedbacks", "pdaqp_hp_list"].map String.toList else [])
  | _ => []

/-- The names of variables and dual variables that get storage of their own. -/
def owned (I : In) : List Txt :=
  ((I.vars.filter fun v => ownArray I v).map fun v => v.name) ++ ((I.duals.filter fun v => ownDual I v).map fun v => v.1)

/-- What the user has to see to: names of variables, dual variables, parameters and settings are different among
themselves; no variable with storage of its own has a reserved name; with derivatives no parameter is called like a
variable with `d` put before it. -/
structure Distinct (I : In) : Prop where
  norm : ∃ p, I.pre = normPrefix p
  vars : (I.vars.map fun v => v.name).Nodup
  owned : (owned I).Nodup
  params : (I.params.map fun q => q.1).Nodup
  settings : I.settings.Nodup
  default : "default_settings".toList ∉ I.settings
  ids : (I.canon.map fun c => c.id).Nodup
  known : ∀ c ∈ I.canon, c.id ∈ ["P", "q", "d", "A", "l", "u", "b", "c", "G", "h"].map String.toList
  free : ∀ t ∈ Spec.Symbols.owned I, reserved I.iface t = false ∧ I.pre ++ t ∉ bare I
  delta : I.gradient = true → ∀ q ∈ I.params, ∀ v ∈ I.vars, q.1 ≠ 'd' :: v.name
  /-- the header declares `cpg_` followed by the name -/
  extern : I.gradient = true → I.explicit ≠ 0 → I.pre = [] → ∀ t ∈ Spec.Symbols.owned I,
    t ≠ "dx".toList ∧ t ≠ "dtheta".toList

/-- What users expect to be enough: names of the same kind are different. The dual variables are numbered by the
generator, and the canonical parameters are among the ten known ones. -/
structure Named (I : In) : Prop where
  norm : ∃ p, I.pre = normPrefix p
  vars : (I.vars.map fun v => v.name).Nodup
  duals : (I.duals.map fun v => v.1).Nodup
  params : (I.params.map fun q => q.1).Nodup
  settings : I.settings.Nodup
  default : "default_settings".toList ∉ I.settings
  ids : (I.canon.map fun c => c.id).Nodup
  known : ∀ c ∈ I.canon, c.id ∈ ["P", "q", "d", "A", "l", "u", "b", "c", "G", "h"].map String.toList

/-- `r`, put after the prefix of `I`, does not begin any name of `I`. -/
def Clear (I : In) (r : Txt) : Prop := reserved I.iface r = false ∧ ∀ t ∈ Spec.Symbols.owned I, startsWith r t = false

end Verif.Spec.Symbols
