import Verif.Props.Files
/-! C74: exactly which later calls remove code that was generated elsewhere. -/
namespace Verif.Props
open Verif.Model.Files Verif.Spec.Files Verif.Lemmas.Files

/-- Below a directory in `code_dir` there is no `cpg_solver.py`, except in the directories of solvers. -/
theorem layout_below (k : Job) (s : Path) (hs : s ≠ []) : layout k (s ++ ["cpg_solver.py"]) = none := by
  have hne : ∀ n : String, "cpg_solver.py" ≠ n ++ ".h" ∧ "cpg_solver.py" ≠ n ++ ".c" := by
    intro n
    constructor <;>
    · intro h
      have := congrArg (fun s => s.toList.reverse.head?) h
      simp [String.toList_append] at this
  unfold layout
  rcases s with _ | ⟨a, s⟩
  · exact absurd rfl hs
  rcases s with _ | ⟨b, s⟩
  · rw [if_neg (by simp [IsDirectory]), if_neg (by simp [IsWritten]), if_neg (by simp)]
  rcases s with _ | ⟨c, s⟩
  · rw [if_neg (by simp [IsDirectory]), if_neg, if_neg (by simp)]
    show ¬ (_ ∨ _ ∨ _ ∨ _)
    rintro (⟨_, _, n, _, h⟩ | ⟨_, _, ⟨n, _, h⟩ | h⟩ | ⟨_, _, h⟩ | ⟨_, _, h⟩)
    · exact (hne n).1 h
    · exact (hne n).2 h
    · exact absurd h (by decide)
    · exact absurd h (by decide)
    · exact absurd h (by decide)
  · rw [if_neg (by rcases s with _ | ⟨d, s⟩ <;> simp [IsDirectory]), if_neg (by rcases s with _ | ⟨d, s⟩ <;> simp [IsWritten]), if_neg (by simp)]

/-- **C74, exact condition for nested directories.** For all contents of the file system with a module `cpg_solver.py` in a directory `b`, and all calls that
succeed with another `code_dir`: the module is still there, unchanged, exactly if `code_dir` is not above `b`; otherwise it is gone.
(`b` must not be where a directory of a solver of the new code would be.) -/
theorem C74_nested_iff (fs : FS) (hfs : Tree fs) (b : Path) (x : String) (hx : fs (b ++ ["cpg_solver.py"]) = some (.file x)) (k : Job)
    (hk : (generate fs k).2 = none) (hne : k.base ≠ b) (hs : ∀ s, b = k.base ++ s → ¬ SolverArea (s ++ ["cpg_solver.py"])) :
    ((generate fs k).1 (b ++ ["cpg_solver.py"]) = some (.file x) ↔ ¬ k.base <+: b) ∧
    (k.base <+: b → (generate fs k).1 (b ++ ["cpg_solver.py"]) = none) := by
  have gone : k.base <+: b → (generate fs k).1 (b ++ ["cpg_solver.py"]) = none := by
    rintro ⟨s, rfl⟩
    rw [List.append_assoc, C74_layout fs k hfs hk _ (hs s rfl)]
    exact layout_below k s (by rintro rfl; exact hne (by simp))
  refine ⟨⟨fun h hp => ?_, fun hn => ?_⟩, gone⟩
  · rw [gone hp] at h; cases h
  · obtain ⟨hc, hst⟩ := generate_success hk
    have := ((C74_start fs k hc).1.1 hst).2.2.1
    rw [C74_outside fs k, hx]
    intro hp
    rcases List.prefix_concat_iff.1 hp with h | h
    · exact this x (by rw [h]; simpa using hx)
    · exact hn h

/-- Code in `w/a/b`, then a call for `w/a`, and one for `w/c`. -/
example : (generate (generate exRoom exJob).1 { exJob with base := ["w", "a", "b"] }).1 ["w", "a", "b", "cpg_solver.py"] = some (.file "template") ∧
    (generate (generate (generate exRoom exJob).1 { exJob with base := ["w", "a", "b"] }).1 exJob).2 = none ∧
    (generate (generate (generate exRoom exJob).1 { exJob with base := ["w", "a", "b"] }).1 { exJob with base := ["w", "c"] }).2 = none := by decide

end Verif.Props
