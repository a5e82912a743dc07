import Verif.Spec.Files
/-! What a CMake project gets from generated code in a directory `d` of it. -/
namespace Verif.Spec.CMake
open Verif.Model.Files Verif.Spec.Files

/-- The three lists contain the generated files and the solver's, after what they contained before; no other variable changes. -/
structure Exposed (j : Job) (d : Path) (pre : String) (dirs heads srcs : List Path) (before after : String → List Path) : Prop where
  dirs : ∀ p, p ∈ after (pre ++ "cpg_include") ↔ p ∈ before (pre ++ "cpg_include") ∨ p = d ++ ["include"] ∨ ∃ q ∈ dirs, p = d ++ q
  heads : ∀ p, p ∈ after (pre ++ "cpg_head") ↔ p ∈ before (pre ++ "cpg_head") ∨
    (∃ n, CFile (isExplicit j) j.gradient (two j) n ∧ p = d ++ ["include", n ++ ".h"]) ∨ p ∈ heads
  srcs : ∀ p, p ∈ after (pre ++ "cpg_src") ↔ p ∈ before (pre ++ "cpg_src") ∨
    (∃ n, CFile (isExplicit j) j.gradient (two j) n ∧ p = d ++ ["src", n ++ ".c"]) ∨ p ∈ srcs
  rest : ∀ v, v ≠ pre ++ "cpg_include" → v ≠ pre ++ "cpg_head" → v ≠ pre ++ "cpg_src" → after v = before v

end Verif.Spec.CMake
