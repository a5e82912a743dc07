import Verif.Lemmas.FilesC
/-! C74, C75: the file system after `generate`. -/
namespace Verif.Props
open Verif.Model.Files Verif.Spec.Files Verif.Lemmas.Files

/-! ## Concrete calls -/

/-- A file system with the root and a directory `w`. -/
def exRoom : FS := fun p => if p = [] ∨ p = ["w"] then some .dir else none

/-- ECOS as in the package, with one file per directory. -/
def exPkg : FS := fun p =>
  if p ∈ [["ecos"], ["ecos", "src"], ["ecos", "include"], ["ecos", "external"], ["ecos", "ecos_bb"], ["qoco"], ["qoco", "src"], ["qoco", "include"],
    ["qoco", "lib"], ["qoco", "configure"], ["qoco", "algebra"]] then some .dir
  else if p ∈ [["ecos", "include", "glblopts.h"], ["ecos", "CMakeLists.txt"], ["ecos", "COPYING"], ["qoco", "CMakeLists.txt"], ["qoco", "LICENSE"],
    ["osqp-python", "LICENSE"]] then some (.file "package") else none

/-- What OSQP writes. -/
def exOsqpTree : FS := fun p =>
  if p = [] then some .dir else if p = ["workspace.h"] ∨ p = ["CMakeLists.txt"] then some (.file "osqp") else none

/-- Code generation with ECOS to the directory `w/a`. -/
def exJob : Job where
  base := ["w", "a"]
  dot := false
  kind := .ecos
  named := false
  gradient := false
  sdp := false
  canon := none
  pkg := exPkg
  ext := none
  extO := some exOsqpTree
  text _ := "template"
  patch _ s := s
  cmake := "cmake"
  cmakeO := "cmake"

theorem exRoom_tree : Tree exRoom := by
  intro p r hr hn
  have h : p ++ r = [] ∨ p ++ r = ["w"] := by
    by_contra hc; exact hn (if_neg hc)
  rcases h with h | h
  · exact absurd (List.append_eq_nil_iff.1 h).2 hr
  · rcases p with _ | ⟨a, p⟩
    · exact if_pos (Or.inl rfl)
    · simp only [List.cons_append, List.cons.injEq, List.append_eq_nil_iff] at h
      exact absurd h.2.2 hr

/-! ## C74 -/

/-- Calls of `generate` one after another, whatever they raise. -/
def runAll (fs : FS) (js : List Job) : FS := js.foldl (fun fs j => (generate fs j).1) fs

/-- **C74, other files.** Whatever a call does and raises, nothing changes outside its `code_dir`. -/
theorem C74_outside (fs : FS) (j : Job) (q : Path) (hq : ¬ j.base <+: q) : (generate fs j).1 q = fs q :=
  generate_out fs j q hq

example : ¬ exJob.base <+: ["w", "b"] ∧ (generate exRoom exJob).1 ["w", "a"] ≠ exRoom ["w", "a"] := by decide

/-- **C74, errors of canonicalization.** They leave everything as it was, the old code included. -/
theorem C74_keeps (fs : FS) (j : Job) (e : FsErr) (h : j.canon = some e) : generate fs j = (fs, some e) := by
  unfold generate; rw [h]

example : (generate (generate exRoom exJob).1 { exJob with canon := some .other }).1 ["w", "a", "cpg_solver.py"] = some (.file "template") ∧
    (generate exRoom exJob).2 = none := by decide

/-- **C74, when generation starts.** After canonicalization, exactly if the parent is a directory and there is a directory or nothing at
`code_dir`, given without a final `.`; otherwise an error about that is raised and nothing is created. -/
theorem C74_start (fs : FS) (j : Job) (hc : j.canon = none) :
    ((makeBase (clean fs j) j).2 = none ↔
      j.dot = false ∧ j.base ≠ [] ∧ (∀ s, fs j.base ≠ some (.file s)) ∧ fs j.base.dropLast = some .dir) ∧
    ((makeBase (clean fs j) j).2 ≠ none → (generate fs j).2 ≠ none ∧ (generate fs j).2 ≠ some .other ∧
      ∀ q, (generate fs j).1 q = fs q ∨ (generate fs j).1 q = none) := by
  have hpre : j.base ≠ [] → ¬ j.base <+: j.base.dropLast := by
    intro hn hp
    have := hp.length_le
    rw [List.length_dropLast] at this
    have := List.length_pos_iff.2 hn
    omega
  have hcl : j.dot = false → clean fs j j.base = if fs j.base = some .dir then none else fs j.base := by
    intro hd
    unfold clean
    rw [hd]
    split
    · exact if_pos List.prefix_rfl
    · rfl
  constructor
  · constructor
    · intro h
      obtain ⟨hd, hn, hp, _⟩ := makeBase_ok (fs1 := (makeBase (clean fs j) j).1) (by rw [← h])
      have hb : j.base ≠ [] := by
        intro hb
        rw [hb] at hn hp
        rw [List.dropLast_nil, hn] at hp
        cases hp
      refine ⟨hd, hb, ?_, ?_⟩
      · intro s hs
        rw [hcl hd, hs, if_neg (by simp)] at hn
        cases hn
      · rw [← clean_out fs j _ (hpre hb)]; exact hp
    · rintro ⟨hd, hb, hf, hp⟩
      have hn : clean fs j j.base = none := by
        rw [hcl hd]
        cases h : fs j.base with
        | none => rfl
        | some n => cases n with
          | dir => rfl
          | file s => exact absurd h (hf s)
      unfold makeBase mkdir
      rw [hd]
      simp only [Bool.false_eq_true, if_false]
      rw [hn, clean_out fs j _ (hpre hb), hp]
  · intro h
    rcases generate_cases fs j with ⟨e, h0, _⟩ | ⟨e, _, h1, h2⟩ | ⟨fs1, _, h1, _⟩
    · rw [hc] at h0; cases h0
    · have hfix : (makeBase (clean fs j) j).1 = clean fs j ∧ e ≠ .other := by
        revert h1
        unfold makeBase
        split
        · split <;> (intro h1; cases h1; exact ⟨rfl, by simp⟩)
        · unfold mkdir
          split
          · intro h1; cases h1; exact ⟨rfl, by simp⟩
          · split
            · intro h1; cases h1
            · intro h1; cases h1; exact ⟨rfl, by simp⟩
            · intro h1; cases h1; exact ⟨rfl, by simp⟩
      rw [h2, hfix.1]
      refine ⟨by simp, by simpa using hfix.2, fun q => ?_⟩
      show clean fs j q = _ ∨ clean fs j q = _
      unfold clean
      split
      · next hdir =>
        split
        · unfold FS.set
          by_cases hq : q = j.base
          · rw [if_pos hq, hq]; exact Or.inl hdir.symm
          · rw [if_neg hq]
            unfold FS.remove
            split
            · exact Or.inr rfl
            · exact Or.inl rfl
        · unfold FS.remove
          split
          · exact Or.inr rfl
          · exact Or.inl rfl
      · exact Or.inl rfl
    · rw [h1] at h; exact absurd rfl h

example : (makeBase (clean exRoom exJob) exJob).2 = none ∧ (makeBase (clean exRoom { exJob with base := ["x", "a"] }) { exJob with base := ["x", "a"] }).2 ≠ none := by
  decide

/-- **C74, no remains.** Once the directory is there, what is left in it and what is raised are those of the same call with an empty file
system: nothing depends on the code that was there, or on where the directory is. -/
theorem C74_fresh (fs : FS) (j : Job) (hfs : Tree fs) (hc : j.canon = none) (hs : (makeBase (clean fs j) j).2 = none) :
    (generate fs j).2 = (generate exRoom { j with base := ["w", "a"], dot := false }).2 ∧
    ∀ r, (generate fs j).1 (j.base ++ r) = (generate exRoom { j with base := ["w", "a"], dot := false }).1 (["w", "a"] ++ r) := by
  have h1 := generate_started (tree_empty hfs j.base) hc hs
  have h2 := generate_started (fs := exRoom) (j := { j with base := ["w", "a"], dot := false }) (tree_empty exRoom_tree _) hc rfl
  exact ⟨h1.1.trans h2.1.symm, fun r => (congrFun h1.2 r).trans (congrFun h2.2 r).symm⟩

/-- **C74, layout.** If a call succeeds, then outside the directories of solvers there are exactly the files and directories of the layout. -/
theorem C74_layout (fs : FS) (j : Job) (hfs : Tree fs) (h : (generate fs j).2 = none) (r : Path) (hr : ¬ SolverArea r) :
    (generate fs j).1 (j.base ++ r) = layout j r := by
  obtain ⟨hc, hs⟩ := generate_success h
  have h1 := generate_started (tree_empty hfs j.base) hc hs
  rw [h] at h1
  exact (congrFun h1.2 r).trans (all_layout (t := (execs [] fresh (allOps j)).1) (by rw [h1.1]) r hr)

example : (generate exRoom exJob).2 = none ∧ (generate exRoom { exJob with gradient := true }).2 = none := by decide

theorem empty_runAll (b : Path) (js : List Job) (hjs : ∀ i ∈ js, i.base = b ∨ Apart i.base b) : ∀ fs : FS, EmptyAt fs b → EmptyAt (runAll fs js) b := by
  induction js with
  | nil => exact fun fs h => h
  | cons i js ih =>
    intro fs h
    refine ih (fun k hk => hjs k (List.mem_cons_of_mem _ hk)) (generate fs i).1 ?_
    rcases hjs i List.mem_cons_self with hi | hi
    · subst hi; exact generate_empty fs i h
    · intro hb r
      rw [generate_out fs i _ (apart_below hi)]
      refine h ?_ r
      rw [← generate_out fs i b hi.1]
      exact hb

theorem apart_runAll (b : Path) (js : List Job) (hjs : ∀ i ∈ js, Apart i.base b) (r : Path) : ∀ fs : FS, runAll fs js (b ++ r) = fs (b ++ r) := by
  induction js with
  | nil => exact fun fs => rfl
  | cons i js ih =>
    intro fs
    rw [show runAll fs (i :: js) = runAll (generate fs i).1 js from rfl, ih (fun k hk => hjs k (List.mem_cons_of_mem _ hk)),
      generate_out fs i _ (apart_below (hjs i List.mem_cons_self))]

/-- **C74, histories.** After any calls for this directory and for directories apart from it, failed ones included, and any later calls
for directories apart from it, the code of a successful call is there, exactly as if it had been generated alone. -/
theorem C74_history (fs : FS) (hfs : Tree fs) (pre post : List Job) (j : Job) (hpre : ∀ i ∈ pre, i.base = j.base ∨ Apart i.base j.base)
    (hpost : ∀ i ∈ post, Apart i.base j.base) (h : (generate (runAll fs pre) j).2 = none) :
    (generate exRoom { j with base := ["w", "a"], dot := false }).2 = none ∧
    ∀ r, runAll fs (pre ++ [j] ++ post) (j.base ++ r) = (generate exRoom { j with base := ["w", "a"], dot := false }).1 (["w", "a"] ++ r) := by
  obtain ⟨hc, hs⟩ := generate_success h
  have h1 := generate_started (empty_runAll j.base pre hpre fs (tree_empty hfs j.base)) hc hs
  have h2 := generate_started (fs := exRoom) (j := { j with base := ["w", "a"], dot := false }) (tree_empty exRoom_tree _) hc rfl
  refine ⟨h2.1.trans (h1.1.symm.trans h), fun r => ?_⟩
  have : runAll fs (pre ++ [j] ++ post) = runAll (generate (runAll fs pre) j).1 post := by
    unfold runAll; rw [List.foldl_append, List.foldl_append]; rfl
  rw [this, apart_runAll j.base post hpost r]
  exact (congrFun h1.2 r).trans (congrFun h2.2 r).symm

example : Apart ["w", "b"] exJob.base ∧
    (generate (runAll exRoom [{ exJob with gradient := true }, { exJob with base := ["w", "b"] }]) exJob).2 = none ∧
    (runAll exRoom [{ exJob with gradient := true }] ["w", "a", "c", "src", "cpg_gradient.c"]) = some (.file "template") ∧
    (runAll exRoom [{ exJob with gradient := true }, { exJob with base := ["w", "b"] }, exJob]) ["w", "a", "c", "src", "cpg_gradient.c"] = none := by
  refine ⟨by unfold Apart; decide, by decide, by decide, by decide⟩

/-- **C74 fails for nested directories.** Both calls succeed, and the code of the first is gone. -/
theorem C74_fails_nested : ∃ j k : Job, j.base ≠ k.base ∧ (generate exRoom k).2 = none ∧ (generate (generate exRoom k).1 j).2 = none ∧
    (generate (generate (generate exRoom k).1 j).1 k).2 = none ∧
    (generate (generate exRoom k).1 j).1 (j.base ++ ["cpg_solver.py"]) = some (.file "template") ∧
    (generate (generate (generate exRoom k).1 j).1 k).1 (j.base ++ ["cpg_solver.py"]) = none :=
  ⟨{ exJob with base := ["w", "a", "b"] }, exJob, by decide, by decide, by decide, by decide, by decide, by decide⟩

/-- **C74 fails for errors after canonicalization.** A library that raises: the old code is gone and there is no new code. -/
theorem C74_fails_error : ∃ j : Job, (generate exRoom exJob).2 = none ∧ j.base = exJob.base ∧ (generate (generate exRoom exJob).1 j).2 = some .other ∧
    (generate (generate exRoom exJob).1 j).1 (j.base ++ ["cpg_solver.py"]) = none :=
  ⟨{ exJob with kind := .qocogen, ext := none }, by decide, rfl, by decide, by decide⟩

/-- **C74 fails for `.`.** The contents of the directory are removed, and then an error is raised. -/
theorem C74_fails_dot : ∃ j : Job, j.canon = none ∧ (generate (exRoom.set ["w", "mine"] (.file "data")) j).2 = some .exist ∧
    (generate (exRoom.set ["w", "mine"] (.file "data")) j).1 ["w", "mine"] = none :=
  ⟨{ exJob with base := ["w"], dot := true }, rfl, by decide, by decide⟩

/-- **C74 fails for other contents.** Files of the user below `code_dir` are removed without asking. -/
theorem C74_fails_user (fs : FS) (j : Job) (hfs : Tree fs) (h : (generate fs j).2 = none) (f : String)
    (hf : f ∉ ["LICENSE", "__init__.py", "setup.py", "cpg_solver.py", "README.html", "COPYING", "c", "cpp"]) :
    (generate fs j).1 (j.base ++ [f]) = none := by
  rw [C74_layout fs j hfs h [f] (by simp [SolverArea])]
  simp only [List.mem_cons, List.not_mem_nil, or_false, not_or] at hf
  unfold layout
  rw [if_neg, if_neg, if_neg]
  · rintro ⟨h, _⟩
    simp only [List.cons.injEq, and_true] at h
    exact hf.2.2.2.2.2.1 h
  · rintro (h | h | h | h | h)
    · exact hf.1 h
    · exact hf.2.1 h
    · exact hf.2.2.1 h
    · exact hf.2.2.2.1 h
    · exact hf.2.2.2.2.1 h
  · rintro (h | h)
    · exact hf.2.2.2.2.2.2.1 h
    · exact hf.2.2.2.2.2.2.2 h

example : ((exRoom.set ["w", "a"] .dir).set ["w", "a", "mine"] (.file "data")) ["w", "a", "mine"] = some (.file "data") ∧
    (generate ((exRoom.set ["w", "a"] .dir).set ["w", "a", "mine"] (.file "data")) exJob).2 = none ∧
    (generate ((exRoom.set ["w", "a"] .dir).set ["w", "a", "mine"] (.file "data")) exJob).1 ["w", "a", "mine"] = none := by decide

/-- **C74, licenses.** The license of ECOS is kept at the top; that of QOCO is overwritten by the license of CVXPYgen. -/
theorem C74_license (fs : FS) (j : Job) (hfs : Tree fs) (h : (generate fs j).2 = none) :
    (generate fs j).1 (j.base ++ ["LICENSE"]) = some (.file (j.text ["LICENSE"])) ∧
    (generate fs j).1 (j.base ++ ["COPYING"]) = if j.kind = .ecos then j.pkg ["ecos", "COPYING"] else none := by
  rw [C74_layout fs j hfs h _ (by simp [SolverArea]), C74_layout fs j hfs h _ (by simp [SolverArea])]
  unfold layout
  constructor
  · rw [if_neg (by simp [IsDirectory]), if_pos (by simp [IsWritten])]
  · rw [if_neg (by simp [IsDirectory]), if_neg (by simp [IsWritten])]
    simp only [true_and]

example : (generate exRoom { exJob with kind := .qoco }).2 = none ∧
    (generate exRoom { exJob with kind := .qoco }).1 ["w", "a", "LICENSE"] = some (.file "template") ∧
    (generate exRoom { exJob with kind := .qoco }).1 ["w", "a", "c", "solver_code", "LICENSE"] = some (.file "package") := by decide

/-! ## C75 -/

theorem cmakeHead_iff (j : Job) (f : String) : inc f ∈ cmakeHead j ↔ ∃ n, CFile (isExplicit j) j.gradient (two j) n ∧ f = n ++ ".h" := by
  unfold cmakeHead CFile inc
  rw [explicit_eq, two_eq]
  cases j.gradient <;> cases isExplicit j <;> cases two j <;> simp

theorem cmakeSrc_iff (j : Job) (f : String) : src f ∈ cmakeSrc j ↔ ∃ n, CFile (isExplicit j) j.gradient (two j) n ∧ f = n ++ ".c" := by
  unfold cmakeSrc CFile src
  rw [explicit_eq, two_eq]
  cases j.gradient <;> cases isExplicit j <;> cases two j <;> simp

/-- **C75, sources.** After a successful call, the files of `c/src` are exactly those listed in `c/CMakeLists.txt` and the example. -/
theorem C75_sources (fs : FS) (j : Job) (hfs : Tree fs) (h : (generate fs j).2 = none) (l : Path) (hl : l ≠ []) :
    (generate fs j).1 (j.base ++ "c" :: "src" :: l) ≠ none ↔ "c" :: "src" :: l ∈ cmakeSrc j ∨ "c" :: "src" :: l = cmakeExample := by
  rw [C74_layout fs j hfs h _ (by simp [SolverArea])]
  rcases l with _ | ⟨f, _ | ⟨g, l⟩⟩
  · exact absurd rfl hl
  · rw [show ("c" :: "src" :: [f] : Path) = src f from rfl, cmakeSrc_iff, show src f = cmakeExample ↔ f = "cpg_example.c" by simp [src, cmakeExample]]
    unfold layout
    rw [if_neg (by simp [IsDirectory, src])]
    have hw : IsWritten j (src f) ↔ (∃ n, CFile (isExplicit j) j.gradient (two j) n ∧ f = n ++ ".c") ∨ f = "cpg_example.c" := by
      simp [IsWritten, src]
    by_cases hf : IsWritten j (src f)
    · rw [if_pos hf]; simp [← hw, hf]
    · rw [if_neg hf, if_neg (by simp [src])]
      simp only [ne_eq, not_true_eq_false, false_iff]
      exact fun h => hf (hw.2 h)
  · unfold layout
    rw [if_neg (by simp [IsDirectory]), if_neg (by simp [IsWritten]), if_neg (by simp)]
    simp only [ne_eq, not_true_eq_false, false_iff, not_or]
    constructor
    · unfold cmakeSrc src
      cases j.gradient <;> cases j.explicit <;> cases j.twoStage <;> simp
    · simp [cmakeExample, src]

/-- **C75, headers.** The files of `c/include` are exactly the headers listed there. -/
theorem C75_headers (fs : FS) (j : Job) (hfs : Tree fs) (h : (generate fs j).2 = none) (l : Path) (hl : l ≠ []) :
    (generate fs j).1 (j.base ++ "c" :: "include" :: l) ≠ none ↔ "c" :: "include" :: l ∈ cmakeHead j := by
  rw [C74_layout fs j hfs h _ (by simp [SolverArea])]
  rcases l with _ | ⟨f, _ | ⟨g, l⟩⟩
  · exact absurd rfl hl
  · rw [show ("c" :: "include" :: [f] : Path) = inc f from rfl, cmakeHead_iff]
    unfold layout
    rw [if_neg (by simp [IsDirectory, inc])]
    have hw : IsWritten j (inc f) ↔ ∃ n, CFile (isExplicit j) j.gradient (two j) n ∧ f = n ++ ".h" := by
      simp [IsWritten, inc]
    by_cases hf : IsWritten j (inc f)
    · rw [if_pos hf]; simp [← hw, hf]
    · rw [if_neg hf, if_neg (by simp [inc])]
      simp only [ne_eq, not_true_eq_false, false_iff]
      exact fun h => hf (hw.2 h)
  · unfold layout
    rw [if_neg (by simp [IsDirectory]), if_neg (by simp [IsWritten]), if_neg (by simp)]
    simp only [ne_eq, not_true_eq_false, false_iff]
    unfold cmakeHead inc
    cases j.gradient <;> cases j.explicit <;> cases j.twoStage <;> simp

/-- **C75, subdirectories.** Each subdirectory named there has its own build file. -/
theorem C75_subdirectories (fs : FS) (j : Job) (hfs : Tree fs) (h : (generate fs j).2 = none) (d : Path) (hd : d ∈ cmakeSub j) :
    ∃ s, (generate fs j).1 (j.base ++ (d ++ ["CMakeLists.txt"])) = some (.file s) := by
  obtain ⟨hc, hs⟩ := generate_success h
  have h1 := generate_started (tree_empty hfs j.base) hc hs
  rw [h] at h1
  obtain ⟨s, hs⟩ := all_sub (j := j) (t := (execs [] fresh (allOps j)).1) (by rw [h1.1]) d hd
  exact ⟨s, (congrFun h1.2 _).trans hs⟩

example : cmakeSub { exJob with gradient := true } = [sc, oc] ∧ (cmakeSrc { exJob with gradient := true }).length = 6 ∧
    (generate exRoom { exJob with gradient := true }).2 = none := by decide

end Verif.Props
