import Verif.Props.Symbols
import Verif.Props.Dispatch
import Verif.Lemmas.SymbolsC
/-!
C52: names do not clash within a generated library. C45: nor between libraries with different prefixes.
-/
namespace Verif.Props
open Verif.Model.Text Verif.Model.Dispatch Verif.Model.Symbols Verif.Spec.Symbols Verif.Lemmas.Symbols
open Verif.Lemmas.SymbolsB Verif.Lemmas.SymbolsC

/-- **C52, full statement** Different names among variables, among parameters and among dual variables are enough for
the names in the generated library to be different. False, see below. -/
def C52_statement : Prop := ∀ I, Coherent I → Named I → NoClash (libFiles I) (extDefs I)

/-- **C52, partial** For every prefix, solver, mode and number of variables, parameters, dual variables and settings:
all names with external linkage in the generated library and in the code of the solver are different, and no static
variable is hidden. Missing: names that the generator also uses itself (`Distinct.free`, `delta`, `extern`). -/
theorem C52_partial (I : In) (hI : Coherent I) (h : Distinct I) : NoClash (libFiles I) (extDefs I) := noClash hI h

/-- **C52** Different variables with storage of their own have it in different objects, each of which is defined once. -/
theorem C52_storage (I : In) (hI : Coherent I) (h : Distinct I) (v w : Var) (hv : v ∈ I.vars) (hw : w ∈ I.vars)
    (ov : ownArray I v = true) (ow : ownArray I w = true) (hne : v ≠ w) :
    I.pre ++ v.name ≠ I.pre ++ w.name ∧ (externs (libFiles I)).count (I.pre ++ v.name) = 1 := by
  have inj := List.inj_on_of_nodup_map h.vars hv hw
  refine ⟨fun he => hne (inj (List.append_cancel_left he)), ?_⟩
  refine List.count_eq_one_of_mem (List.nodup_append.1 (noClash hI h).1).1 ?_
  refine List.mem_flatMap.2 ⟨wsFile I, lib_ws I, ?_⟩
  refine List.mem_map.2 ⟨⟨I.pre ++ v.name, []⟩, ?_, rfl⟩
  have : (⟨I.pre ++ v.name, []⟩ : Item) ∈ ((I.vars.filter fun v => ownArray I v).map fun v => (⟨I.pre ++ v.name, []⟩ : Item)) :=
    List.mem_map.2 ⟨v, List.mem_filter.2 ⟨hv, ov⟩, rfl⟩
  unfold wsFile wsItems
  simp only [List.mem_append]
  tauto

/-! ### the conditions can be met -/

def symEcos : In := { symScs with iface := .ecos, canon := [⟨S.c, true, 3, true⟩, ⟨S.d, true, 1, false⟩, ⟨S.A, true, 2, true⟩,
  ⟨S.b, true, 2, true⟩, ⟨S.G, true, 3, true⟩, ⟨S.h, true, 3, true⟩] }

example : Distinct symOsqp := ⟨⟨"ab".toList, rfl⟩, by decide, by decide, by decide, by decide, by decide, by decide, by decide,
  by decide, by decide, by decide⟩
example : Distinct symScs := ⟨⟨"ab".toList, rfl⟩, by decide, by decide, by decide, by decide, by decide, by decide, by decide,
  by decide, by decide, by decide⟩
example : Distinct symClarabel := ⟨⟨"ab".toList, rfl⟩, by decide, by decide, by decide, by decide, by decide, by decide, by decide,
  by decide, by decide, by decide⟩
example : Distinct symExplicit := ⟨⟨"ab".toList, rfl⟩, by decide, by decide, by decide, by decide, by decide, by decide, by decide,
  by decide, by decide, by decide⟩
example : Distinct symEcos ∧ Coherent symEcos ∧ owned symEcos = ["x", "S", "d0"].map String.toList :=
  ⟨⟨⟨"ab".toList, rfl⟩, by decide, by decide, by decide, by decide, by decide, by decide, by decide, by decide, by decide, by decide⟩,
   ⟨rfl, by decide, by decide, by decide, by decide, by decide⟩, rfl⟩

/-! ### where names clash -/

/-- Clarabel, a variable called `P`. -/
def clashClarabel : In := { symClarabel with vars := [⟨"P".toList, 3, false⟩] }
/-- ECOS, a variable called like the first dual variable. -/
def clashDual : In := { symEcos with vars := [⟨"d0".toList, 3, false⟩] }
/-- Differentiation, a variable `x` and a parameter `dx`. -/
def clashDelta : In := { symOsqp with params := [("dx".toList, 4)] }
/-- Differentiation without prefix, a symmetric variable `n`. -/
def clashBare : In := { symOsqp with pre := [], vars := [⟨"n".toList, 4, true⟩] }
/-- OSQP, prefix `sol`, a symmetric variable `x`. -/
def clashSol : In := { symOsqp with pre := normPrefix "sol".toList, gradient := false, vars := [⟨"x".toList, 4, true⟩] }
/-- Explicit mode with differentiation, no prefix, a symmetric variable `dx`. -/
def clashStatic : In := { symExplicit with pre := [], vars := [⟨"dx".toList, 4, true⟩] }

/-- **C52** It fails: Clarabel's own objects have names like variables. -/
theorem C52_fails_solver : Coherent clashClarabel ∧ Named clashClarabel ∧ ¬ NoClash (libFiles clashClarabel) (extDefs clashClarabel) :=
  ⟨⟨rfl, by decide, by decide, by decide, by decide, by decide⟩,
   ⟨⟨"ab".toList, rfl⟩, by decide, by decide, by decide, by decide, by decide, by decide, by decide⟩,
   fun h => absurd h.1 (by decide +kernel)⟩

/-- **C52** It fails: dual variables have names like variables. -/
theorem C52_fails_dual : Coherent clashDual ∧ Named clashDual ∧ ¬ NoClash (libFiles clashDual) (extDefs clashDual) :=
  ⟨⟨rfl, by decide, by decide, by decide, by decide, by decide⟩,
   ⟨⟨"ab".toList, rfl⟩, by decide, by decide, by decide, by decide, by decide, by decide, by decide⟩,
   fun h => absurd h.1 (by decide +kernel)⟩

/-- **C52** It fails: updating the parameter `dx` and updating the derivative of `x` are functions of the same name. -/
theorem C52_fails_delta : Coherent clashDelta ∧ Named clashDelta ∧ ¬ NoClash (libFiles clashDelta) (extDefs clashDelta) :=
  ⟨⟨rfl, by decide, by decide, by decide, by decide, by decide⟩,
   ⟨⟨"ab".toList, rfl⟩, by decide, by decide, by decide, by decide, by decide, by decide, by decide⟩,
   fun h => absurd h.1 (by decide +kernel)⟩

/-- **C52** It fails: names without prefix. -/
theorem C52_fails_bare : Coherent clashBare ∧ Named clashBare ∧ ¬ NoClash (libFiles clashBare) (extDefs clashBare) :=
  ⟨⟨rfl, by decide, by decide, by decide, by decide, by decide⟩,
   ⟨⟨[], rfl⟩, by decide, by decide, by decide, by decide, by decide, by decide, by decide⟩,
   fun h => absurd h.1 (by decide +kernel)⟩

/-- **C52** It fails: names of the solver's code. -/
theorem C52_fails_sol : Coherent clashSol ∧ Named clashSol ∧ ¬ NoClash (libFiles clashSol) (extDefs clashSol) :=
  ⟨⟨rfl, by decide, by decide, by decide, by decide, by decide⟩,
   ⟨⟨"sol".toList, rfl⟩, by decide, by decide, by decide, by decide, by decide, by decide, by decide⟩,
   fun h => absurd h.1 (by decide +kernel)⟩

/-- **C52** It fails: a static variable is declared as external. -/
theorem C52_fails_static : Coherent clashStatic ∧ Named clashStatic ∧ ¬ NoClash (libFiles clashStatic) (extDefs clashStatic) :=
  ⟨⟨rfl, by decide, by decide, by decide, by decide, by decide⟩,
   ⟨⟨[], rfl⟩, by decide, by decide, by decide, by decide, by decide, by decide, by decide⟩,
   fun h => absurd h.2 (by decide +kernel)⟩

theorem C52_fails : ¬ C52_statement := fun h => C52_fails_solver.2.2 (h _ C52_fails_solver.1 C52_fails_solver.2.1)

/-! ### C45: two libraries -/

/-- **C45, full statement** Libraries generated with different prefixes have no name in common. False, see below. -/
def C45_statement : Prop := ∀ I J, Coherent I → Coherent J → Distinct I → Distinct J → I.pre ≠ J.pre →
  Compatible (libDefs I ++ extDefs I) (libDefs J ++ extDefs J)

theorem one_side (I J : In) (hI : Coherent I) (hJ : Coherent J) (oI : I.iface ≠ .osqp) (eI : I.iface ≠ .pdaqp)
    (oJ : J.iface ≠ .osqp) (eJ : J.iface ≠ .pdaqp) (q r : Txt) (nJ : J.pre = normPrefix q)
    (hr : J.pre = I.pre ++ r) (hne : r ≠ []) (hc : Clear I r) (x : Txt) (hx : x ∈ externs (libFiles I))
    (hy : x ∈ externs (libFiles J)) : False := by
  obtain ⟨u, hu, hs⟩ := lib_shaped hI oI eI x hx
  obtain ⟨w, hw, _⟩ := lib_shaped hJ oJ eJ x hy
  have e : u = r ++ w := by
    rw [hr, List.append_assoc] at hw
    exact List.append_cancel_left (hu.symm.trans hw)
  have he := norm_rest q I.pre r (nJ ▸ hr) hne
  rcases hs with hs | hs
  · have := hc.2 u hs
    have h2 : startsWith r u = true := List.isPrefixOf_iff_prefix.2 (e ▸ List.prefix_append r w)
    rw [h2] at this; cases this
  · rw [e, not_reserved I.iface r w hne he hc.1] at hs
    cases hs

/-- **C45, partial** Libraries for SCS, ECOS, Clarabel, QOCO and QOCOGEN with different prefixes have no name in common,
if, in case one prefix is the beginning of the other, the rest does not begin like a reserved name or a variable. Missing:
OSQP and explicit mode, where it is false (`C45_fails_osqp`, `C45_fails_explicit`). -/
theorem C45_link_partial (I J : In) (hI : Coherent I) (hJ : Coherent J) (p q : Txt) (nI : I.pre = normPrefix p)
    (nJ : J.pre = normPrefix q) (hpq : p ≠ q) (oI : I.iface ≠ .osqp) (eI : I.iface ≠ .pdaqp)
    (oJ : J.iface ≠ .osqp) (eJ : J.iface ≠ .pdaqp) (cI : ∀ r, J.pre = I.pre ++ r → Clear I r)
    (cJ : ∀ r, I.pre = J.pre ++ r → Clear J r) :
    Compatible (libDefs I ++ extDefs I) (libDefs J ++ extDefs J) := by
  have ext : ∀ K : In, K.iface ≠ .osqp → K.iface ≠ .pdaqp → extDefs K = [] := by
    intro K h1 h2
    unfold extDefs libDecls
    cases h : K.iface <;> simp only
    · exact absurd h h1
    · exact absurd h h2
  have hne : I.pre ≠ J.pre := by
    rw [nI, nJ]; exact fun h => hpq (C45_prefix_injective p q h)
  intro x hx hy
  rw [ext I oI eI, List.append_nil] at hx
  rw [ext J oJ eJ, List.append_nil] at hy
  have hx' : x ∈ externs (libFiles I) := hx
  have hy' : x ∈ externs (libFiles J) := hy
  obtain ⟨u, hu, _⟩ := lib_shaped hI oI eI x hx'
  obtain ⟨w, hw, _⟩ := lib_shaped hJ oJ eJ x hy'
  rcases List.prefix_or_prefix_of_prefix ⟨u, hu.symm⟩ ⟨w, hw.symm⟩ with h | h
  · obtain ⟨r, hr⟩ := h
    have hrn : r ≠ [] := by rintro rfl; exact hne (by rw [← hr, List.append_nil])
    exact one_side I J hI hJ oI eI oJ eJ q r nJ hr.symm hrn (cI r hr.symm) x hx' hy'
  · obtain ⟨r, hr⟩ := h
    have hrn : r ≠ [] := by rintro rfl; exact hne (by rw [← hr, List.append_nil])
    exact one_side J I hJ hI oJ eJ oI eI p r nI hr.symm hrn (cJ r hr.symm) x hy' hx'

/-- Two libraries, the second without prefix. -/
example : Compatible (libDefs symClarabel ++ extDefs symClarabel)
    (libDefs { symEcos with pre := [] } ++ extDefs { symEcos with pre := [] }) := by
  refine C45_link_partial symClarabel { symEcos with pre := [] } ⟨rfl, by decide, by decide, by decide, by decide, by decide⟩
    ⟨rfl, by decide, by decide, by decide, by decide, by decide⟩ "ab".toList [] rfl rfl (by decide) (by decide) (by decide)
    (by decide) (by decide) ?_ ?_
  · intro r hr
    exact absurd (congrArg List.length hr) (by rw [List.length_append]; show ¬ (0 = 3 + r.length); omega)
  · intro r hr
    have : r = normPrefix "ab".toList := hr.symm
    subst this
    exact ⟨by decide, by decide⟩

/-- **C45** It fails for OSQP: any two generated solvers have names in common, whatever their prefixes. -/
theorem C45_fails_osqp (I J : In) (hI : I.iface = .osqp) (hJ : J.iface = .osqp) :
    ¬ Compatible (libDefs I ++ extDefs I) (libDefs J ++ extDefs J) := by
  intro h
  have m : ∀ K : In, K.iface = .osqp → S.solver ∈ libDefs K ++ extDefs K := by
    intro K hK
    refine List.mem_append_right _ ?_
    unfold extDefs libDecls
    rw [hK]
    exact List.mem_cons_self
  exact h _ (m I hI) (m J hJ)

/-- **C45** It fails in explicit mode. -/
theorem C45_fails_explicit (I J : In) (hI : I.iface = .pdaqp) (hJ : J.iface = .pdaqp) :
    ¬ Compatible (libDefs I ++ extDefs I) (libDefs J ++ extDefs J) := by
  intro h
  have m : ∀ K : In, K.iface = .pdaqp → S.pdaqp_evaluate ∈ libDefs K ++ extDefs K := by
    intro K hK
    refine List.mem_append_right _ ?_
    unfold extDefs libDecls
    rw [hK]
    exact List.mem_cons_self
  exact h _ (m I hI) (m J hJ)

/-- **C45** It fails between OSQP and explicit mode: the solution has the same name. -/
theorem C45_fails_mixed (I J : In) (hI : I.iface = .osqp) (hJ : J.iface = .pdaqp) (h0 : J.explicit ≠ 0) :
    ¬ Compatible (libDefs I ++ extDefs I) (libDefs J ++ extDefs J) := by
  intro h
  refine h S.sol_x (List.mem_append_right _ ?_) (List.mem_append_left _ ?_)
  · unfold extDefs libDecls
    rw [hI]
    exact List.mem_cons_of_mem _ List.mem_cons_self
  · refine List.mem_flatMap.2 ⟨wsFile J, lib_ws J, List.mem_map.2 ⟨⟨S.sol_x, []⟩, ?_, rfl⟩⟩
    have : (⟨S.sol_x, []⟩ : Item) ∈ (if J.explicit = 0 then [] else [(⟨J.pre ++ S.cpg_theta, []⟩ : Item), ⟨S.sol_x, []⟩]) := by
      rw [if_neg h0]
      exact List.mem_cons_of_mem _ List.mem_cons_self
    unfold wsFile wsItems
    simp only [List.mem_append]
    exact Or.inl <| Or.inl <| Or.inl <| Or.inl <| Or.inl <| Or.inl <| Or.inl <| Or.inl <| Or.inl <| Or.inl <| Or.inl <|
      Or.inl <| Or.inl <| Or.inr this

/-- **C45** It also fails for the other solvers if a prefix continues another one with the name of a variable:
prefix `a` and variable `b_x`, prefix `a_b` and variable `x`. -/
theorem C45_fails_names :
    let I := { symClarabel with pre := normPrefix "a".toList, vars := [⟨"b_x".toList, 3, false⟩] }
    let J := { symClarabel with pre := normPrefix "a_b".toList, vars := [⟨"x".toList, 3, false⟩] }
    Coherent I ∧ Coherent J ∧ Distinct I ∧ Distinct J ∧ I.pre ≠ J.pre ∧
      ¬ Compatible (libDefs I ++ extDefs I) (libDefs J ++ extDefs J) := by
  refine ⟨⟨rfl, by decide, by decide, by decide, by decide, by decide⟩,
    ⟨rfl, by decide, by decide, by decide, by decide, by decide⟩,
    ⟨⟨"a".toList, rfl⟩, by decide, by decide, by decide, by decide, by decide, by decide, by decide, by decide, by decide, by decide⟩,
    ⟨⟨"a_b".toList, rfl⟩, by decide, by decide, by decide, by decide, by decide, by decide, by decide, by decide, by decide, by decide⟩,
    by decide, ?_⟩
  intro h
  exact h "a_b_x".toList (by decide +kernel) (by decide +kernel)

theorem C45_fails : ¬ C45_statement := fun h =>
  C45_fails_names.2.2.2.2.2 (h _ _ C45_fails_names.1 C45_fails_names.2.1 C45_fails_names.2.2.1 C45_fails_names.2.2.2.1
    C45_fails_names.2.2.2.2.1)

end Verif.Props
