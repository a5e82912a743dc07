import Verif.Lemmas.CMake
import Verif.Spec.CMake
import Verif.Props.Includes
/-! C78: generated code in a CMake project. -/
namespace Verif.Props
open Verif.Model.Files Verif.Model.Includes Verif.Model.CMake Verif.Spec.Files Verif.Spec.CMake Verif.Lemmas.CMake Verif.Lemmas.Files

/-- The build files of the libraries assign none of the three lists to their parent. -/
def Modest (c : Code) : Prop := ∀ v, v = c.pre ++ "cpg_include" ∨ v = c.pre ++ "cpg_head" ∨ v = c.pre ++ "cpg_src" → v ∉ parents c.lib ∧ v ∉ parents c.libO

theorem parents_app (l m : List Cmd) : parents (l ++ m) = parents l ++ parents m := List.filterMap_append

theorem solvers_keep {e : Env} {s b : CSt} {c : Code} (h : solvers e s b c) (hm : Modest c) (x : String)
    (hx : x = "cpg_include" ∨ x = "cpg_head" ∨ x = "cpg_src") : b.vars (c.pre ++ x) = s.vars (c.pre ++ x) := by
  have hx' : c.pre ++ x = c.pre ++ "cpg_include" ∨ c.pre ++ x = c.pre ++ "cpg_head" ∨ c.pre ++ x = c.pre ++ "cpg_src" := by
    rcases hx with rfl | rfl | rfl <;> simp
  obtain ⟨hl, hlo⟩ := hm _ hx'
  have hne : ∀ y ∈ ["solver_head", "solver_src", "osqp_head", "osqp_src"], c.pre ++ x ≠ y := by
    intro y hy
    simp only [List.mem_cons, List.not_mem_nil, or_false] at hy
    apply pre_ne_fix
    rcases hx with rfl | rfl | rfl <;> rcases hy with rfl | rfl | rfl | rfl <;> decide
  have h1 : ∀ k, c.pre ++ x ∉ parents (exports "solver" k) := by
    intro k hk
    have : ∀ k, ∀ y ∈ parents (exports "solver" k), y ∈ ["solver_head", "solver_src", "osqp_head", "osqp_src"] := by
      intro k; cases k <;> decide
    exact hne _ (this k _ hk) rfl
  have h2 : c.pre ++ x ∉ parents (exports "osqp" .osqp) := by
    intro hk
    have : ∀ y ∈ parents (exports "osqp" .osqp), y ∈ ["solver_head", "solver_src", "osqp_head", "osqp_src"] := by decide
    exact hne _ (this _ hk) rfl
  have h3 : c.pre ++ x ∉ parents (solverFile c.job c.lib) := by
    unfold solverFile
    split
    · intro hk
      have : ∀ y ∈ parents pdaqpFile, y ∈ ["solver_head", "solver_src", "osqp_head", "osqp_src"] := by decide
      exact hne _ (this _ hk) rfl
    · rw [parents_app, List.mem_append, not_or]
      exact ⟨hl, h1 _⟩
  obtain ⟨a, ha, hb⟩ := h
  rw [← sub_vars e s a _ _ ha _ h3]
  split at hb
  · exact sub_vars e a b _ _ hb _ (by rw [parents_app, List.mem_append, not_or]; exact ⟨hlo, h2⟩)
  · rw [hb]

theorem mem_here (d : Path) (l : List Path) (p : Path) : p ∈ l.map (fun q => d ++ q.tail) ↔ ∃ q ∈ l, p = d ++ q.tail := by
  simp [eq_comm]

theorem head_form (j : Job) : ∀ q ∈ cmakeHead j, q = inc (q.getLast?.getD "") := by
  unfold cmakeHead
  generalize j.gradient = g, j.explicit = x, j.twoStage = t
  cases g <;> cases x <;> cases t <;> decide

theorem src_form (j : Job) : ∀ q ∈ cmakeSrc j, q = src (q.getLast?.getD "") := by
  unfold cmakeSrc
  generalize j.gradient = g, j.explicit = x, j.twoStage = t
  cases g <;> cases x <;> cases t <;> decide

theorem head_mem (j : Job) (d p : Path) : p ∈ (cmakeHead j).map (fun q => d ++ q.tail) ↔
    ∃ n, CFile (isExplicit j) j.gradient (two j) n ∧ p = d ++ ["include", n ++ ".h"] := by
  rw [mem_here]
  constructor
  · rintro ⟨q, hq, rfl⟩
    have : ∃ f, q = inc f := ⟨_, head_form j q hq⟩
    obtain ⟨f, rfl⟩ := this
    obtain ⟨n, hn, rfl⟩ := (cmakeHead_iff j f).1 hq
    exact ⟨n, hn, rfl⟩
  · rintro ⟨n, hn, rfl⟩
    exact ⟨inc (n ++ ".h"), (cmakeHead_iff j _).2 ⟨n, hn, rfl⟩, rfl⟩

theorem src_mem (j : Job) (d p : Path) : p ∈ (cmakeSrc j).map (fun q => d ++ q.tail) ↔
    ∃ n, CFile (isExplicit j) j.gradient (two j) n ∧ p = d ++ ["src", n ++ ".c"] := by
  rw [mem_here]
  constructor
  · rintro ⟨q, hq, rfl⟩
    have : ∃ f, q = src f := ⟨_, src_form j q hq⟩
    obtain ⟨f, rfl⟩ := this
    obtain ⟨n, hn, rfl⟩ := (cmakeSrc_iff j f).1 hq
    exact ⟨n, hn, rfl⟩
  · rintro ⟨n, hn, rfl⟩
    exact ⟨src (n ++ ".c"), (cmakeSrc_iff j _).2 ⟨n, hn, rfl⟩, rfl⟩

/-- The directories named for a solver, seen from `c`. -/
def solverPaths (j : Job) : List Path := (cmakeSolver j.kind).map List.tail

theorem solvers_up {e : Env} {s b : CSt} {c : Code} (h : solvers e s b c) : b.up = s.up ∧ b.incs = s.incs := by
  obtain ⟨a, ha, hb⟩ := h
  obtain ⟨t, _, rfl⟩ := (sub_ok ..).1 ha
  split at hb
  · obtain ⟨u, _, rfl⟩ := (sub_ok ..).1 hb; exact ⟨rfl, rfl⟩
  · rw [hb]; exact ⟨rfl, rfl⟩

/-- **C78, lists.** Adding the directory of generated code exposes its directories, headers and sources, and those of the solver, under the
names with the prefix; it changes no other variable and no include directory of the project, and defines the library `cpg` of exactly these
headers and sources and the program. -/
theorem C78_exposes (e : Env) (s s' : CSt) (d : Path) (c : Code) (hm : Modest c) (h : top e s (.add d c) = .ok s') :
    ∃ b, solvers { e with cur := e.cur ++ d } { s with up := [] } b c ∧
      Exposed c.job (e.cur ++ d) c.pre (solverPaths c.job) ((if two c.job then b.vars "osqp_head" else []) ++ b.vars "solver_head")
        ((if two c.job then b.vars "osqp_src" else []) ++ b.vars "solver_src") s.vars s'.vars ∧
      s'.incs = s.incs ∧ s'.up = s.up ∧
      s'.targets = b.targets ++ [("cpg_example", s'.vars (c.pre ++ "cpg_head") ++ (s'.vars (c.pre ++ "cpg_src") ++ [e.cur ++ d ++ ["src", "cpg_example.c"]])),
        ("cpg", s'.vars (c.pre ++ "cpg_head") ++ s'.vars (c.pre ++ "cpg_src"))] := by
  have n1 : c.pre ++ "cpg_include" ≠ c.pre ++ "cpg_head" := pre_ne _ _ _ (by decide)
  have n2 : c.pre ++ "cpg_include" ≠ c.pre ++ "cpg_src" := pre_ne _ _ _ (by decide)
  have n3 : c.pre ++ "cpg_head" ≠ c.pre ++ "cpg_src" := pre_ne _ _ _ (by decide)
  obtain ⟨t, h1, rfl⟩ := (sub_ok ..).1 h
  obtain ⟨b, h2, h3⟩ := (code_ok ..).1 h1
  obtain ⟨_, _, rfl⟩ := (tail_ok ..).1 h3
  have k1 := solvers_keep h2 hm "cpg_include" (Or.inl rfl)
  have k2 := solvers_keep h2 hm "cpg_head" (Or.inr (Or.inl rfl))
  have k3 := solvers_keep h2 hm "cpg_src" (Or.inr (Or.inr rfl))
  have hup : b.up = [] := (solvers_up h2).1
  refine ⟨b, h2, ?_, rfl, rfl, ?_⟩
  · simp only [hup, List.nil_append, List.cons_append, List.foldl_cons, List.foldl_nil]
    constructor
    · intro p
      rw [assign_ne _ _ _ _ n2, assign_ne _ _ _ _ n1, assign_same]
      unfold I
      rw [k1, List.mem_append, mem_here]
      apply or_congr Iff.rfl
      simp [cmakePath, solverPaths]
    · intro p
      rw [assign_ne _ _ _ _ n3, assign_same]
      unfold H
      rw [k2, List.mem_append, List.append_assoc, List.mem_append, head_mem, two_eq]
    · intro p
      rw [assign_same]
      unfold S
      rw [k3, List.mem_append, List.append_assoc, List.mem_append, src_mem, two_eq]
    · intro v v1 v2 v3
      rw [assign_ne _ _ _ _ v3, assign_ne _ _ _ _ v2, assign_ne _ _ _ _ v1]
  · simp only [hup, List.nil_append, List.cons_append, List.foldl_cons, List.foldl_nil]
    rw [assign_ne _ _ _ _ n3, assign_same, assign_same, List.append_assoc]
    rfl

/-- Targets are never removed. -/
theorem sub_targets {α : Type} (go : Env → CSt → α → Except CErr CSt)
    (hgo : ∀ e s s' a, go e s a = .ok s' → ∀ n ∈ s.targets.map Prod.fst, n ∈ s'.targets.map Prod.fst) (e : Env) (s s' : CSt) (d : Path) (body : List α)
    (h : subdir go e s d body = .ok s') : ∀ n ∈ s.targets.map Prod.fst, n ∈ s'.targets.map Prod.fst := by
  obtain ⟨t, h1, rfl⟩ := (sub_ok ..).1 h
  exact fun n hn => fold_targets (go _) (hgo _) body _ _ h1 n hn

theorem run_targets' (e : Env) (s s' : CSt) (c : Cmd) (h : run e s c = .ok s') : ∀ n ∈ s.targets.map Prod.fst, n ∈ s'.targets.map Prod.fst :=
  run_targets e [c] s s' ((fold_bind ..).2 ⟨s', h, rfl⟩)

theorem step_targets (e : Env) (s s' : CSt) (c : Step) (h : step e s c = .ok s') : ∀ n ∈ s.targets.map Prod.fst, n ∈ s'.targets.map Prod.fst := by
  cases c with
  | cmd c => exact run_targets' e s s' c h
  | sub d l => exact sub_targets run run_targets' e s s' d l h

theorem top_targets (e : Env) (s s' : CSt) (c : Top) (h : top e s c = .ok s') : ∀ n ∈ s.targets.map Prod.fst, n ∈ s'.targets.map Prod.fst := by
  cases c with
  | cmd c => exact run_targets' e s s' c h
  | add d c => exact sub_targets step step_targets e s s' d _ h

theorem add_target (e : Env) (s s' : CSt) (d : Path) (c : Code) (h : top e s (.add d c) = .ok s') :
    "cpg" ∉ s.targets.map Prod.fst ∧ "cpg" ∈ s'.targets.map Prod.fst := by
  obtain ⟨t, h1, rfl⟩ := (sub_ok ..).1 h
  obtain ⟨b, h2, h3⟩ := (code_ok ..).1 h1
  obtain ⟨_, h4, rfl⟩ := (tail_ok ..).1 h3
  refine ⟨fun hn => h4 ?_, by simp⟩
  obtain ⟨a, ha, hb⟩ := h2
  have := sub_targets run run_targets' _ _ _ _ _ ha _ hn
  split at hb
  · exact sub_targets run run_targets' _ _ _ _ _ hb _ this
  · rw [hb]; exact this

/-- **C78 fails for two codes.** A project that adds two directories of generated code, with whatever prefixes, is an error, since the names of
the targets have no prefix. -/
theorem C78_fails_two (root : Path) (globs : Path → String → List Path) (l1 l2 l3 : List Top) (d1 d2 : Path) (c1 c2 : Code) :
    ¬ ∃ s, project root globs (l1 ++ .add d1 c1 :: l2 ++ .add d2 c2 :: l3) = .ok s := by
  rintro ⟨s, h⟩
  unfold project at h
  rw [List.append_assoc, fold_app, ] at h
  obtain ⟨t1, _, h⟩ := h
  rw [List.cons_append, fold_bind] at h
  obtain ⟨t2, h2, h⟩ := h
  rw [fold_app] at h
  obtain ⟨t3, h3, h⟩ := h
  rw [fold_bind] at h
  obtain ⟨t4, h4, _⟩ := h
  have := (add_target _ _ _ _ _ h2).2
  exact (add_target _ _ _ _ _ h4).1 (fold_targets _ (top_targets _) _ _ _ h3 _ this)

/-- **C78, success.** Adding one directory succeeds exactly if the build files of the libraries do, and nobody else uses the two names. -/
theorem C78_succeeds (e : Env) (s : CSt) (d : Path) (c : Code) : (∃ s', top e s (.add d c) = .ok s') ↔
    ∃ b, solvers { e with cur := e.cur ++ d } { s with up := [] } b c ∧ "cpg_example" ∉ b.targets.map Prod.fst ∧ "cpg" ∉ b.targets.map Prod.fst := by
  constructor
  · rintro ⟨s', h⟩
    obtain ⟨t, h1, rfl⟩ := (sub_ok ..).1 h
    obtain ⟨b, h2, h3⟩ := (code_ok ..).1 h1
    obtain ⟨h4, h5, rfl⟩ := (tail_ok ..).1 h3
    exact ⟨b, h2, h4, h5⟩
  · rintro ⟨b, h2, h4, h5⟩
    exact ⟨_, (sub_ok ..).2 ⟨_, (code_ok ..).2 ⟨b, h2, (tail_ok ..).2 ⟨h4, h5, rfl⟩⟩, rfl⟩⟩

/-- **C78, PDAQP.** In explicit mode the solver's files are the two of PDAQP, and nothing else is needed for success. -/
theorem C78_pdaqp (e : Env) (s : CSt) (c : Code) (hk : c.job.kind = .pdaqp) (h1 : s.vars "pdaqp_src" = []) (h2 : s.vars "pdaqp_head" = []) :
    ∃ b, solvers e s b c ∧ b.targets = s.targets ∧ b.vars "solver_head" = [e.cur ++ ["solver_code", "include", "pdaqp.h"]] ∧
      b.vars "solver_src" = [e.cur ++ ["solver_code", "src", "pdaqp.c"]] ∧ ∀ b', solvers e s b' c → b' = b := by
  have hx : c.job.explicit = true := by simp [Job.explicit, hk]
  have htw : c.job.twoStage = false := by simp [Job.twoStage, hx]
  have hs : solverFile c.job c.lib = pdaqpFile := by unfold solverFile; rw [hk]
  obtain ⟨b, hb⟩ : ∃ b, subdir run e s ["solver_code"] pdaqpFile = .ok b := ⟨_, rfl⟩
  have hsol : solvers e s b c := ⟨b, by rw [hs]; exact hb, by rw [htw]; exact (if_neg (by simp)).mpr rfl⟩
  have huniq : ∀ b', solvers e s b' c → b' = b := by
    rintro b' ⟨a, ha, hb'⟩
    rw [htw] at hb'
    have hb' : b' = a := hb'
    rw [hs, hb] at ha
    rw [hb']
    exact (Except.ok.inj ha).symm
  refine ⟨b, hsol, ?_, ?_, ?_, huniq⟩
  · cases hb; rfl
  · cases hb; simp [assign, evals, eval, place, h2]
  · cases hb; simp [assign, evals, eval, place, h1]

/-- **C78, explicit mode.** Code generated in explicit mode can be added to any project that does not use its names; it exposes exactly the
generated files and those of PDAQP. -/
theorem C78_explicit (e : Env) (s : CSt) (d : Path) (c : Code) (hm : Modest c) (hk : c.job.kind = .pdaqp) (h1 : s.vars "pdaqp_src" = [])
    (h2 : s.vars "pdaqp_head" = []) (h3 : "cpg_example" ∉ s.targets.map Prod.fst) (h4 : "cpg" ∉ s.targets.map Prod.fst) :
    ∃ s', top e s (.add d c) = .ok s' ∧ Exposed c.job (e.cur ++ d) c.pre [["solver_code", "include"]]
      [e.cur ++ d ++ ["solver_code", "include", "pdaqp.h"]] [e.cur ++ d ++ ["solver_code", "src", "pdaqp.c"]] s.vars s'.vars ∧
      s'.targets.map Prod.fst = s.targets.map Prod.fst ++ ["cpg_example", "cpg"] := by
  obtain ⟨b, hb, ht, hh, hs, hu⟩ := C78_pdaqp { e with cur := e.cur ++ d } { s with up := [] } c hk h1 h2
  obtain ⟨s', hs'⟩ := (C78_succeeds e s d c).2 ⟨b, hb, by rw [ht]; exact h3, by rw [ht]; exact h4⟩
  refine ⟨s', hs', ?_⟩
  obtain ⟨b', hb', hx, _, _, htar⟩ := C78_exposes e s s' d c hm hs'
  rw [hu b' hb'] at hx htar
  have htw : two c.job = false := by unfold two; rw [hk]; cases c.job.gradient <;> cases c.job.named <;> rfl
  rw [htw, hh, hs] at hx
  have hp : solverPaths c.job = [["solver_code", "include"]] := by unfold solverPaths; rw [hk]; rfl
  rw [hp] at hx
  refine ⟨hx, ?_⟩
  rw [htar, ht, List.map_append]
  rfl

def exCode (pre : String) : Code := ⟨exPdaqp, pre, [], []⟩

/-- The lists of two codes in different directories of a project, each added alone; both together are an error. -/
example : ((project ["p"] (fun _ _ => []) [.cmd (.target "app" []), .add ["one"] (exCode "a_")]).map (fun s => (s.vars "a_cpg_src", s.targets.map Prod.fst)) |>.toOption) =
    some ([["p", "one", "src", "cpg_workspace.c"], ["p", "one", "src", "cpg_solve.c"], ["p", "one", "src", "cpg_gradient.c"],
      ["p", "one", "solver_code", "src", "pdaqp.c"]], ["app", "cpg_example", "cpg"]) := by decide +kernel

example : (match project ["p"] (fun _ _ => []) [.add ["one"] (exCode "a_"), .add ["two"] (exCode "b_")] with
    | .ok _ => none
    | .error x => some x) = some (.duplicate "cpg_example") := by decide +kernel

example : Modest (exCode "a_") := fun v _ => ⟨List.not_mem_nil, List.not_mem_nil⟩

/-- The lists that a directory of a library leaves in the variables `name_head` and `name_src`. -/
theorem library_lists (e : Env) (s a : CSt) (dir : String) (name : String) (k : SKind) (lib : List Cmd) (hk : k ≠ .pdaqp) (hc : k ≠ .clarabel)
    (h : subdir run e s [dir] (lib ++ exports name k) = .ok a) :
    ∃ t, lib.foldlM (run { e with cur := e.cur ++ [dir] }) { s with up := [] } = .ok t ∧
      a.vars (name ++ "_head") = evals { e with cur := e.cur ++ [dir] } t.vars (headItems k) ∧
      a.vars (name ++ "_src") = evals { e with cur := e.cur ++ [dir] } t.vars (srcItems k) := by
  obtain ⟨t, ht, rfl⟩ := (sub_ok ..).1 h
  obtain ⟨u, hu, hx⟩ := (fold_app ..).1 ht
  refine ⟨u, hu, ?_⟩
  have hne : name ++ "_head" ≠ name ++ "_src" := pre_ne _ _ _ (by decide)
  cases k
  case pdaqp => exact absurd rfl hk
  case clarabel => exact absurd rfl hc
  all_goals
    cases hx
    constructor
    · simp [assign, evals, eval, place, headItems, hne]
    · simp [assign, evals, eval, place, srcItems, hne.symm]

/-- **C78, other solvers.** What the build file of a library ends with exposes its headers and sources, as variables of that file say. -/
theorem C78_library (e : Env) (s b : CSt) (c : Code) (hk : c.job.kind ≠ .pdaqp) (hc : c.job.kind ≠ .clarabel) (htw : two c.job = false)
    (h : solvers e s b c) : ∃ t, c.lib.foldlM (run { e with cur := e.cur ++ ["solver_code"] }) { s with up := [] } = .ok t ∧
      b.vars "solver_head" = evals { e with cur := e.cur ++ ["solver_code"] } t.vars (headItems c.job.kind) ∧
      b.vars "solver_src" = evals { e with cur := e.cur ++ ["solver_code"] } t.vars (srcItems c.job.kind) := by
  obtain ⟨a, ha, hb⟩ := h
  rw [two_eq, htw] at hb
  have hb : b = a := hb
  subst hb
  have hs : solverFile c.job c.lib = c.lib ++ exports "solver" c.job.kind := by
    unfold solverFile
    split
    · next h => exact absurd h hk
    · rfl
  rw [hs] at ha
  exact library_lists e s b "solver_code" "solver" _ _ hk hc ha

/-- **C78, two stages.** With OSQP for the gradient beside the solver, the lists of both are exposed, each under its own name, provided that
OSQP's own build file leaves the lists of the solver alone. -/
theorem C78_library_two (e : Env) (s b : CSt) (c : Code) (hk : c.job.kind ≠ .pdaqp) (hc : c.job.kind ≠ .clarabel) (htw : two c.job = true)
    (hp : ∀ v ∈ parents c.libO, v ≠ "solver_head" ∧ v ≠ "solver_src") (h : solvers e s b c) :
    ∃ t u a, c.lib.foldlM (run { e with cur := e.cur ++ ["solver_code"] }) { s with up := [] } = .ok t ∧
      c.libO.foldlM (run { e with cur := e.cur ++ ["osqp_code"] }) { a with up := [] } = .ok u ∧
      subdir run e s ["solver_code"] (solverFile c.job c.lib) = .ok a ∧
      b.vars "solver_head" = evals { e with cur := e.cur ++ ["solver_code"] } t.vars (headItems c.job.kind) ∧
      b.vars "solver_src" = evals { e with cur := e.cur ++ ["solver_code"] } t.vars (srcItems c.job.kind) ∧
      b.vars "osqp_head" = evals { e with cur := e.cur ++ ["osqp_code"] } u.vars (headItems .osqp) ∧
      b.vars "osqp_src" = evals { e with cur := e.cur ++ ["osqp_code"] } u.vars (srcItems .osqp) := by
  obtain ⟨a, ha, hb⟩ := h
  rw [two_eq, htw] at hb
  have hb : subdir run e a ["osqp_code"] (c.libO ++ exports "osqp" .osqp) = .ok b := hb
  have hs : solverFile c.job c.lib = c.lib ++ exports "solver" c.job.kind := by
    unfold solverFile
    split
    · next h => exact absurd h hk
    · rfl
  have ha' := ha
  rw [hs] at ha'
  obtain ⟨t, ht, t1, t2⟩ := library_lists e s a "solver_code" "solver" _ _ hk hc ha'
  obtain ⟨u, hu, u1, u2⟩ := library_lists e a b "osqp_code" "osqp" _ _ (by decide) (by decide) hb
  have hv : ∀ v, v = "solver_head" ∨ v = "solver_src" → b.vars v = a.vars v := by
    intro v hv
    refine sub_vars e a b _ _ hb v ?_
    rw [parents_app, List.mem_append, not_or]
    refine ⟨fun hm => ?_, ?_⟩
    · rcases hv with rfl | rfl
      · exact (hp _ hm).1 rfl
      · exact (hp _ hm).2 rfl
    · rcases hv with rfl | rfl <;> decide
  exact ⟨t, u, a, ht, hu, ha, by rw [hv _ (Or.inl rfl)]; exact t1, by rw [hv _ (Or.inr rfl)]; exact t2, u1, u2⟩

/-- OSQP's file, with the list of its sources. -/
def exOsqpCode : Code := ⟨exOsqpJob, "", [.set "OSQP_SOURCES" [.file .current ["src", "osqp.c"]], .target "osqpstatic" [.ref "OSQP_SOURCES"]], []⟩

example : ((project ["p"] (fun d g => [d ++ [g]]) [.add ["one"] exOsqpCode]).map (fun s => s.vars "cpg_src") |>.toOption) =
    some [["p", "one", "src", "cpg_workspace.c"], ["p", "one", "src", "cpg_solve.c"], ["p", "one", "src", "cpg_gradient.c"],
      ["p", "one", "src", "cpg_osqp_grad_compute.c"], ["p", "one", "src", "cpg_osqp_grad_workspace.c"],
      ["p", "one", "solver_code", "src", "osqp.c"], ["p", "one", "solver_code", "workspace.c"]] := by decide +kernel

/-- SCS beside OSQP. -/
def exTwoCode : Code := ⟨{ exOsqpJob with kind := .scs, named := false }, "", [.set "${PROJECT_NAME}_SRC" [.file .current ["src", "scs.c"]]],
  [.set "OSQP_SOURCES" [.file .current ["src", "osqp.c"]]]⟩

example : two exTwoCode.job = true ∧ (∀ v ∈ parents exTwoCode.libO, v ≠ "solver_head" ∧ v ≠ "solver_src") ∧
    ((project ["p"] (fun d g => [d ++ [g]]) [.add ["one"] exTwoCode]).map (fun s => (s.vars "cpg_src").drop 6) |>.toOption) =
    some [["p", "one", "osqp_code", "src", "osqp.c"], ["p", "one", "osqp_code", "workspace.c"], ["p", "one", "solver_code", "src", "scs.c"]] :=
  ⟨by decide +kernel, by decide +kernel, by decide +kernel⟩

/-- Clarabel exposes no sources: its lists are what the project had under these names. -/
theorem C78_clarabel_lists (e : Env) (s b : CSt) (c : Code) (hk : c.job.kind = .clarabel) (htw : two c.job = false) (h : solvers e s b c)
    (v : String) (hv : v ∉ parents c.lib) : b.vars v = s.vars v := by
  obtain ⟨a, ha, hb⟩ := h
  rw [two_eq, htw] at hb
  have hb : b = a := hb
  subst hb
  refine sub_vars e s b _ _ ha v ?_
  unfold solverFile
  rw [hk, parents_app, List.mem_append, not_or]
  exact ⟨hv, by show v ∉ []; simp⟩

/-- **C78 fails for Clarabel.** The place where the library that cargo builds is expected is the right one exactly if the code is the whole
project. In a subdirectory it is not. -/
theorem C78_fails_clarabel (e : Env) (d : Path) (vars : String → List Path) :
    eval { e with cur := e.root ++ d } vars clarabelOut = [e.root ++ d ++ ["solver_code", "rust_wrapper", "target", "release"]] ↔ d = [] := by
  constructor
  · intro h
    simp only [eval, clarabelOut, place, List.cons.injEq, and_true, List.append_assoc, List.append_cancel_left_eq] at h
    have := congrArg List.length h
    rw [List.length_append] at this
    exact List.length_eq_zero_iff.1 (by omega)
  · rintro rfl
    simp [eval, clarabelOut, place]

/-- **C78 fails for headers of two codes.** Even without CMake's targets: with the directories of both codes on the search path, sources of the
second one get the header of the first, whatever the prefixes. -/
theorem C78_fails_headers (t : FS) (A B : Path) (l m : List Path) (n : String) (hA : isFile (t (A ++ ["include", n])) = true)
    (hB : isFile (t (B ++ ["src", n])) = false) (hn : n ≠ "..") (f : String) :
    Verif.Model.Includes.find t ((A ++ ["include"]) :: l ++ (B ++ ["include"]) :: m) (B ++ ["src", f]) [n] = some (A ++ ["include", n]) := by
  unfold Verif.Model.Includes.find
  have e1 : (B ++ ["src", f]).dropLast = B ++ ["src"] := by
    rw [List.dropLast_append_of_ne_nil (by simp)]; rfl
  rw [e1, List.map_cons, List.find?_cons, join_one _ _ hn, List.append_assoc]
  rw [show ["src"] ++ [n] = ["src", n] from rfl, hB]
  rw [List.cons_append, List.map_cons, List.find?_cons, join_one _ _ hn, List.append_assoc]
  rw [show ["include"] ++ [n] = ["include", n] from rfl, hA]

end Verif.Props
