import Verif.Model.Readme
import Verif.Props.Files
import Verif.Props.Structs
import Verif.Lemmas.Register
/-! C76: the generated documentation describes the generated code. -/
namespace Verif.Props
open Verif.Model.Text Verif.Model.Symbols Verif.Model.Structs Verif.Model.Readme

/-- A documented function exists as documented: it is declared in `cpg_solve.h`, defined in `cpg_solve.c`, with these arguments. -/
def Exists (I : In) (f : Txt × List Arg) : Prop :=
  f ∈ prototypes I ∧ f ∈ definitions I ∧ f.1 ∈ solveDecls I ∧ f.1 ∈ (solveItems I).map (·.name)

theorem update_exists (I : In) (q : Txt × Nat) (hq : q ∈ I.params) :
    Exists I (I.pre ++ S.cpg_update_ ++ q.1, if q.2 = 1 then [.float] else [.int, .float]) := by
  refine ⟨?_, ?_, ?_, ?_⟩
  · unfold prototypes
    simp only [List.mem_append, List.mem_map]
    exact Or.inl (Or.inl (Or.inl ⟨q, hq, rfl⟩))
  · unfold definitions
    simp only [List.mem_append, List.mem_map]
    exact Or.inl (Or.inl (Or.inl ⟨q, hq, rfl⟩))
  · unfold solveDecls
    simp only [List.mem_append, List.mem_map, or_assoc]
    exact Or.inl ⟨q, hq, rfl⟩
  · unfold solveItems
    simp only [List.map_append, List.map_map, List.mem_append, List.mem_map, or_assoc]
    exact Or.inl ⟨q, hq, rfl⟩

theorem solve_exists (I : In) : Exists I (I.pre ++ S.cpg_solve, []) := by
  refine ⟨?_, ?_, ?_, ?_⟩
  · unfold prototypes; simp
  · unfold definitions; simp
  · unfold solveDecls; simp
  · unfold solveItems; simp

/-- **C76, functions, all modes.** The documented functions that update parameters and solve exist. -/
theorem C76_calls (I : In) : (∀ q ∈ I.params, ∃ args, (I.pre ++ S.cpg_update_ ++ q.1, args) ∈ docFunctions I ∧ args.length = (if q.2 = 1 then 1 else 2) ∧
    Exists I (I.pre ++ S.cpg_update_ ++ q.1, args)) ∧ (I.pre ++ S.cpg_solve, []) ∈ docFunctions I ∧ Exists I (I.pre ++ S.cpg_solve, []) := by
  refine ⟨fun q hq => ⟨_, ?_, ?_, update_exists I q hq⟩, ?_, solve_exists I⟩
  · unfold docFunctions
    simp only [List.mem_append, List.mem_map]
    exact Or.inl (Or.inl (Or.inl ⟨q, hq, rfl⟩))
  · split <;> rfl
  · unfold docFunctions; simp

/-- **C76, functions.** Outside of explicit mode every documented function, settings included, is declared in `cpg_solve.h` and
defined in `cpg_solve.c` with the documented arguments. -/
theorem C76_functions_partial (I : In) (h : I.explicit = 0) : ∀ f ∈ docFunctions I, Exists I f := by
  intro f hf
  unfold docFunctions at hf
  simp only [List.mem_append, List.mem_map, List.mem_singleton] at hf
  rcases hf with ((⟨q, hq, hf⟩ | hf) | hf) | ⟨s, hs, hf⟩
  · rw [← hf]; exact update_exists I q hq
  · rw [hf]; exact solve_exists I
  · rw [hf]
    refine ⟨?_, ?_, ?_, ?_⟩
    · unfold prototypes; simp [h]
    · unfold definitions; simp [h]
    · unfold solveDecls; simp [h]
    · unfold solveItems
      refine List.mem_map.2 ⟨⟨I.pre ++ S.cpg_set_solver_default_settings, resetUses I⟩, List.mem_append_right _ ?_, rfl⟩
      rw [if_pos h]; exact List.mem_append_left _ (List.mem_singleton.2 rfl)
  · rw [← hf]
    refine ⟨?_, ?_, ?_, ?_⟩
    · unfold prototypes
      refine List.mem_append_right _ ?_
      rw [if_pos h]; exact List.mem_append_right _ (List.mem_map.2 ⟨s, hs, rfl⟩)
    · unfold definitions
      refine List.mem_append_right _ ?_
      rw [if_pos h]; exact List.mem_append_right _ (List.mem_map.2 ⟨s, hs, rfl⟩)
    · unfold solveDecls
      refine List.mem_append_right _ ?_
      rw [if_pos h]; exact List.mem_append_right _ (List.mem_map.2 ⟨s, hs, rfl⟩)
    · unfold solveItems
      refine List.mem_map.2 ⟨⟨I.pre ++ S.cpg_set_solver_ ++ s, [setUses I]⟩, List.mem_append_right _ ?_, rfl⟩
      rw [if_pos h]; exact List.mem_append_right _ (List.mem_map.2 ⟨s, hs, rfl⟩)

/-- **C76, types.** Outside of explicit mode each documented type has exactly the documented fields. -/
theorem C76_types_partial (I : In) (h : I.explicit = 0) (t : STy) (d : List (Txt × FTy)) (hd : docTypedef I t = some d) : typedef I t = some d := by
  cases t with
  | prim => exact hd
  | dual => exact hd
  | info => exact (if_pos h).trans hd
  | result =>
    rw [← hd]
    by_cases hn : I.duals = [] <;> simp [typedef, docTypedef, h, hn]
  | canonParams => cases hd
  | canonOutdated => cases hd
  | delta => cases hd

example : (exStruct "" [("x", 2)]).explicit = 0 ∧ (docFunctions (exStruct "" [("x", 2)])).length = 3 ∧
    docTypedef (exStruct "" [("x", 2)]) .result = some [(F.prim, .ptr .prim), (F.dual, .ptr .dual), (F.info, .ptr .info)] := by decide

/-- **C76, explicit mode.** The types of the variables are as documented; the documented struct with solver information does not exist and
the result has no field for it. -/
theorem C76_fails_info (I : In) (h : I.explicit ≠ 0) :
    typedef I .prim = docTypedef I .prim ∧ typedef I .dual = docTypedef I .dual ∧ docTypedef I .info ≠ none ∧ typedef I .info = none ∧
    ∃ d r, docTypedef I .result = some d ∧ (F.info, .ptr .info) ∈ d ∧ typedef I .result = some r ∧ F.info ∉ r.map (·.1) := by
  refine ⟨rfl, rfl, by simp [docTypedef], if_neg h, _, _, rfl, by simp, rfl, ?_⟩
  rw [if_neg h, List.append_nil]
  split <;> decide

/-- Without duals requested, the documented field for the dual solution does not exist either. -/
theorem C76_fails_dual (I : In) (h : I.explicit = 1) (hd : I.duals ≠ []) :
    ∃ d r, docTypedef I .result = some d ∧ (F.dual, .ptr .dual) ∈ d ∧ typedef I .result = some r ∧ F.dual ∉ r.map (·.1) := by
  refine ⟨_, _, rfl, by simp [hd], rfl, ?_⟩
  rw [if_neg (by simp [h]), if_neg (by omega)]
  decide

/-- In explicit mode the documented functions for settings are neither declared nor defined. -/
theorem C76_fails_settings : ∃ I : In, I.explicit ≠ 0 ∧ ∃ f ∈ docFunctions I, f ∉ prototypes I ∧ f.1 ∉ solveDecls I ∧ f.1 ∉ libDefs I :=
  ⟨exStructExplicit, by decide, (exStructExplicit.pre ++ S.cpg_set_solver_default_settings, []), by decide, by decide, by decide, by decide⟩

example : exStructExplicit.explicit = 1 ∧ exStructExplicit.duals ≠ [] := by decide

/-! ### files -/

section
open Verif.Model.Files Verif.Spec.Files Verif.Lemmas.Files

/-- **C76, tree of files.** After a successful call everything shown outside `solver_code` exists, and `solver_code` has a build file. -/
theorem C76_tree (fs : FS) (j : Job) (hfs : Tree fs) (h : (Model.Files.generate fs j).2 = none) (p : Model.Files.Path) (hp : p ∈ tree j) :
    if p = sc then (Model.Files.generate fs j).1 (j.base ++ (p ++ ["CMakeLists.txt"])) ≠ none else (Model.Files.generate fs j).1 (j.base ++ p) ≠ none := by
  split
  · next he =>
    obtain ⟨s, hs⟩ := C75_subdirectories fs j hfs h p (by rw [he]; exact List.mem_cons_self)
    rw [hs]; simp
  · next he =>
    have hx : two j = true → j.gradient = true ∧ isExplicit j = false := by
      unfold two isExplicit
      cases j.gradient <;> cases j.named <;> cases j.kind <;> simp
    have key : ¬ SolverArea p ∧ (IsDirectory p ∨ IsWritten j p) := by
      unfold tree at hp
      rw [two_eq] at hp
      simp only [List.mem_append, List.mem_cons, List.not_mem_nil, or_false] at hp
      have hmem : ∀ (b : Bool) (q : Model.Files.Path), p ∈ (if b = true then [q] else []) → b = true ∧ p = q := by
        intro b q hq
        cases b
        · cases hq
        · exact ⟨rfl, List.mem_singleton.1 hq⟩
      rcases hp with ((((((hp | hp | hp | hp | hp) | hp) | hp) | hp | hp | hp) | hp) | hp) | hp | hp | hp | hp | hp | hp | hp | hp | hp | hp | hp | hp
      all_goals first
        | (obtain ⟨hb, rfl⟩ := hmem _ _ hp; simp [SolverArea, IsDirectory, IsWritten, Spec.Files.CFile, inc, Model.Files.src, hb, hx]; done)
        | (subst hp; first | exact absurd rfl he | (simp [SolverArea, IsDirectory, IsWritten, Spec.Files.CFile, inc, Model.Files.src]; done))
    rw [C74_layout fs j hfs h p key.1]
    unfold layout
    rcases key.2 with hd | hw
    · rw [if_pos hd]; simp
    · rw [if_neg fun hd => written_dir j p hd hw, if_pos hw]; simp

/-- **C76, embedding.** Without the second stage, what has to be copied contains everything the build file refers to. -/
theorem C76_embed_partial (j : Job) (h : j.twoStage = false) :
    ∀ p ∈ cmakeHead j ++ cmakeSrc j ++ [cmakeExample] ++ cmakeSub j, copied p = true := by
  unfold cmakeHead cmakeSrc cmakeExample cmakeSub
  rw [h]
  cases j.gradient <;> cases j.explicit <;> simp [inc, Model.Files.src, sc, copied]

/-- With it, the build file adds a subdirectory that is not to be copied. -/
theorem C76_fails_embed (j : Job) (h : j.twoStage = true) : oc ∈ cmakeSub j ∧ copied oc = false := by
  unfold cmakeSub
  rw [h]
  exact ⟨by simp, rfl⟩

example : exJob.twoStage = false ∧ ({ exJob with gradient := true }).twoStage = true := by decide

end

/-! ### import -/

section
open Verif.Model.Register Verif.Lemmas.Register

theorem replaceGo_char (a b : Char) (s : Txt) : replaceGo [a] [b] 0 s = s.map fun c => if c = a then b else c := by
  induction s with
  | nil => rfl
  | cons c s ih =>
    unfold replaceGo
    rw [List.map_cons]
    by_cases h : c = a
    · rw [if_pos (by rw [h]; simp), if_pos h]
      show [b] ++ replaceGo [a] [b] 0 s = _
      rw [ih]; rfl
    · rw [if_neg (by simpa [List.isPrefixOf] using fun e => h (Eq.symm e)), if_neg h, ih]

theorem package_eq (cd : Txt) (h : '\\' ∉ cd) : package cd = cd.map fun c => if c = '/' then '.' else c := by
  unfold package replaceAll
  rw [if_neg (by simp), if_neg (by simp), replaceGo_char, replaceGo_char, List.map_map]
  refine List.map_congr_left fun c hc => ?_
  have : c ≠ '\\' := fun e => h (e ▸ hc)
  simp only [Function.comp]
  by_cases h1 : c = '/'
  · rw [if_pos h1]; decide
  · rw [if_neg h1, if_neg this]

theorem split_package (cd : Txt) (hd : '.' ∉ cd) : split '.' (cd.map fun c => if c = '/' then '.' else c) = split '/' cd := by
  induction cd with
  | nil => rfl
  | cons c s ih =>
    have ih := ih fun h => hd (List.mem_cons_of_mem _ h)
    rw [List.map_cons]
    unfold split
    rw [ih]
    by_cases h1 : c = '/'
    · rw [if_pos h1, if_pos rfl, if_pos h1]
    · have : c ≠ '.' := fun e => hd (e ▸ List.mem_cons_self)
      rw [if_neg h1, if_neg this, if_neg h1]

/-- **C76, import.** In a new Python process started in the directory from which code was generated, the documented import finds the
generated code, for `code_dir` without dots and backslashes. -/
theorem C76_import_partial (fs : Model.Register.Path → Option Code) (cwd : Model.Register.Path) (rest : List Model.Register.Path) (cd : Txt)
    (hd : '.' ∉ cd) (hb : '\\' ∉ cd) (v : Nat) (hc : fs (target cwd cd) = some ⟨v, true⟩) :
    (importSolver (fresh fs cwd (cwd :: rest)) (package cd)).2 = .ok v := by
  rw [package_eq cd hb]
  unfold importSolver search fresh
  simp only [Option.none_or]
  rw [split_package cd hd]
  have hany : ((split '/' cd).any fun w => w.contains '/') = false := by
    rw [List.any_eq_false]
    intro w hw
    have := split_mem_no '/' cd w hw
    simpa using this
  rw [hany]
  have hc' : fs (cwd ++ split '/' cd) = some ⟨v, true⟩ := hc
  simp only [Bool.false_eq_true, if_false, List.find?_cons, hc', Option.isSome_some, Option.map_some, if_true]

/-- It fails for `./a`, though the code is there. -/
theorem C76_fails_import : ∃ (fs : Model.Register.Path → Option Code) (cwd : Model.Register.Path) (cd : Txt),
    cd = "./a".toList ∧ fs (cwd ++ [['a']]) = some ⟨0, true⟩ ∧ (importSolver (fresh fs cwd [cwd]) (package cd)).2 = .error .moduleNotFound :=
  ⟨fun p => if p = [['w'], ['a']] then some ⟨0, true⟩ else none, [['w']], _, rfl, by decide, by decide⟩

example : '.' ∉ "out/a".toList ∧ '\\' ∉ "out/a".toList ∧ package "out/a".toList = "out.a".toList ∧
    target [['w']] "out/a".toList = [['w'], "out".toList, ['a']] := by decide

end

/-- **C76, dimensions.** The dimensions shown are those of the object exactly if it has one or two axes (scalars are shown as 1), and
dropping the others does not change the number of entries they stand for exactly if those have length 1 or there is no entry.
The number of entries is added exactly if there are two axes or more. -/
theorem C76_dimension_iff (sh : List Nat) :
    ((dimension (some sh) sh.prod).1 = sh ↔ sh.length = 1 ∨ sh.length = 2) ∧
    ((dimension (some sh) sh.prod).1.prod = sh.prod ↔ (sh.drop 2).prod = 1 ∨ (sh.take 2).prod = 0) ∧
    (dimension (some sh) sh.prod).2 = (if 2 ≤ sh.length then some sh.prod else none) ∧ dimension none sh.prod = ([sh.prod], none) := by
  match sh with
  | [] => simp [dimension]
  | [a] => simp [dimension]
  | a :: b :: l =>
    refine ⟨?_, ?_, by simp [dimension], rfl⟩
    · cases l <;> simp [dimension]
    · simp only [dimension, List.prod_cons, List.prod_nil, List.drop_succ_cons, List.drop_zero, List.take_succ_cons, List.take_zero, mul_one]
      rw [← mul_assoc]
      constructor
      · intro h
        by_cases h0 : a * b = 0
        · exact Or.inr h0
        · exact Or.inl (Nat.eq_of_mul_eq_mul_left (Nat.pos_of_ne_zero h0) (by omega)).symm
      · rintro (h | h) <;> simp [h]

/-- Two parameters with different shapes are documented alike. -/
theorem C76_fails_dimension : ([2, 3, 4] : List Nat).prod = [2, 3, 2, 2].prod ∧
    dimension (some [2, 3, 4]) 24 = dimension (some [2, 3, 2, 2]) 24 := by decide

example : dimension (some [3, 4]) 12 = ([3, 4], some 12) ∧ dimension (some []) 1 = ([1], none) := by decide

end Verif.Props
