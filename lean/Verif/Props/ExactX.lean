import Verif.Props.SymbolsB
/-! C45, C52: conditions on the names of variables that are necessary. -/
namespace Verif.Props
open Verif.Model.Text Verif.Model.Dispatch Verif.Model.Symbols Verif.Spec.Symbols Verif.Lemmas.Symbols
open Verif.Lemmas.SymbolsB Verif.Lemmas.SymbolsC

/-- A variable with storage of its own is a name of the library. -/
theorem owned_defined (I : In) (v : Var) (hv : v ∈ I.vars) (ov : ownArray I v = true) : I.pre ++ v.name ∈ externs (libFiles I) := by
  refine List.mem_flatMap.2 ⟨wsFile I, lib_ws I, ?_⟩
  refine List.mem_map.2 ⟨⟨I.pre ++ v.name, []⟩, ?_, rfl⟩
  have : (⟨I.pre ++ v.name, []⟩ : Item) ∈ ((I.vars.filter fun v => ownArray I v).map fun v => (⟨I.pre ++ v.name, []⟩ : Item)) :=
    List.mem_map.2 ⟨v, List.mem_filter.2 ⟨hv, ov⟩, rfl⟩
  unfold wsFile wsItems
  simp only [List.mem_append]
  tauto

/-- **C45, necessary condition.** For all solvers, modes and prefixes: two libraries can be linked only if no variable with storage of its own
in one has the name, prefix included, of one in the other. In particular the condition of `C45_link_partial` on prefixes that continue
each other cannot be left out. -/
theorem C45_names_necessary (I J : In) (h : Compatible (libDefs I ++ extDefs I) (libDefs J ++ extDefs J))
    (v w : Var) (hv : v ∈ I.vars) (hw : w ∈ J.vars) (ov : ownArray I v = true) (ow : ownArray J w = true) :
    I.pre ++ v.name ≠ J.pre ++ w.name := by
  intro e
  exact h _ (List.mem_append_left _ (owned_defined I v hv ov)) (by
    rw [e]; exact List.mem_append_left _ (owned_defined J w hw ow))

/-- **C52, necessary condition.** For all solvers, modes and prefixes: names are different only if no variable with storage of its own has, behind
the prefix, the name of an object of the solver's code. -/
theorem C52_names_necessary (I : In) (h : NoClash (libFiles I) (extDefs I)) (v : Var) (hv : v ∈ I.vars) (ov : ownArray I v = true) :
    I.pre ++ v.name ∉ extDefs I ∧ (externs (libFiles I)).count (I.pre ++ v.name) = 1 := by
  have hm := owned_defined I v hv ov
  obtain ⟨h1, _, h3⟩ := List.nodup_append.1 h.1
  exact ⟨fun he => h3 _ hm _ he rfl, List.count_eq_one_of_mem h1 hm⟩

/-- Prefix `a` and variable `b_x`, prefix `a_b` and variable `x`. -/
example : ownArray { symClarabel with pre := normPrefix "a".toList, vars := [⟨"b_x".toList, 3, false⟩] } ⟨"b_x".toList, 3, false⟩ = true ∧
    normPrefix "a".toList ++ "b_x".toList = normPrefix "a_b".toList ++ "x".toList := by decide +kernel

end Verif.Props
