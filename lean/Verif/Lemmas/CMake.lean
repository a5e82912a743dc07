import Verif.Model.CMake
/-! Runs of build files. -/
namespace Verif.Lemmas.CMake
open Verif.Model.Files Verif.Model.Includes Verif.Model.CMake

theorem str_ne {a b : String} (h : a.toList ≠ b.toList) : a ≠ b := fun e => h (e ▸ rfl)

theorem pre_ne (pre a b : String) (h : a ≠ b) : pre ++ a ≠ pre ++ b := by
  intro e
  have := congrArg String.toList e
  rw [String.toList_append, String.toList_append] at this
  exact h (String.toList_inj.1 (List.append_cancel_left this))

theorem pre_ne_fix (pre a b : String) (h : ¬ a.toList <:+ b.toList) : pre ++ a ≠ b := by
  rintro rfl
  exact h (by rw [String.toList_append]; exact List.suffix_append _ _)

theorem fold_bind {α : Type} (go : CSt → α → Except CErr CSt) (s s' : CSt) (a : α) (l : List α) :
    (a :: l).foldlM go s = .ok s' ↔ ∃ t, go s a = .ok t ∧ l.foldlM go t = .ok s' := by
  rw [List.foldlM_cons]
  cases h : go s a with
  | error x => simp [bind, Except.bind]
  | ok t => simp [bind, Except.bind]

theorem fold_app {α : Type} (go : CSt → α → Except CErr CSt) (l m : List α) : ∀ (s s' : CSt),
    (l ++ m).foldlM go s = .ok s' ↔ ∃ t, l.foldlM go s = .ok t ∧ m.foldlM go t = .ok s' := by
  induction l with
  | nil => intro s s'; simp [pure, Except.pure]
  | cons a l ih =>
    intro s s'
    rw [List.cons_append, fold_bind]
    constructor
    · rintro ⟨t, h1, h2⟩
      obtain ⟨u, h3, h4⟩ := (ih t s').1 h2
      exact ⟨u, (fold_bind ..).2 ⟨t, h1, h3⟩, h4⟩
    · rintro ⟨u, h1, h2⟩
      obtain ⟨t, h3, h4⟩ := (fold_bind ..).1 h1
      exact ⟨t, h3, (ih t s').2 ⟨u, h4, h2⟩⟩

theorem sub_ok {α : Type} (go : Env → CSt → α → Except CErr CSt) (e : Env) (s s' : CSt) (d : Path) (body : List α) :
    subdir go e s d body = .ok s' ↔ ∃ t, body.foldlM (go { e with cur := e.cur ++ d }) { s with up := [] } = .ok t ∧
      s' = { s with vars := t.up.foldl (fun v a => assign v a.1 a.2) s.vars, targets := t.targets } := by
  unfold subdir
  cases h : body.foldlM (go { e with cur := e.cur ++ d }) { s with up := [] } with
  | error x => simp
  | ok t => simp [eq_comm]

/-- The variables of the parent that commands set. -/
def parents (l : List Cmd) : List String := l.filterMap fun c => match c with
  | .parent v _ => some v
  | _ => none

/-- Commands only add to the assignments for the parent, of the variables named. -/
theorem run_up (e : Env) (l : List Cmd) : ∀ (s s' : CSt), l.foldlM (run e) s = .ok s' → s'.up.map Prod.fst = s.up.map Prod.fst ++ parents l := by
  induction l with
  | nil => intro s s' h; cases h; simp [parents]
  | cons c l ih =>
    intro s s' h
    obtain ⟨t, h1, h2⟩ := (fold_bind ..).1 h
    rw [ih t s' h2]
    cases c <;> simp only [run] at h1
    case target n m =>
      split at h1
      · cases h1
      · cases h1; rfl
    all_goals (cases h1; simp [parents])

theorem fold_targets {α : Type} (go : CSt → α → Except CErr CSt)
    (hgo : ∀ s s' a, go s a = .ok s' → ∀ n ∈ s.targets.map Prod.fst, n ∈ s'.targets.map Prod.fst) (l : List α) : ∀ (s s' : CSt),
    l.foldlM go s = .ok s' → ∀ n ∈ s.targets.map Prod.fst, n ∈ s'.targets.map Prod.fst := by
  induction l with
  | nil => intro s s' h; cases h; exact fun _ h => h
  | cons a l ih =>
    intro s s' h n hn
    obtain ⟨t, h1, h2⟩ := (fold_bind ..).1 h
    exact ih t s' h2 n (hgo s t a h1 n hn)

theorem run_targets (e : Env) (l : List Cmd) : ∀ (s s' : CSt), l.foldlM (run e) s = .ok s' → ∀ n ∈ s.targets.map Prod.fst, n ∈ s'.targets.map Prod.fst := by
  induction l with
  | nil => intro s s' h; cases h; exact fun _ h => h
  | cons c l ih =>
    intro s s' h n hn
    obtain ⟨t, h1, h2⟩ := (fold_bind ..).1 h
    refine ih t s' h2 n ?_
    cases c <;> simp only [run] at h1
    case target n m =>
      split at h1
      · cases h1
      · cases h1
        rw [List.map_append]
        exact List.mem_append_left _ hn
    all_goals (cases h1; exact hn)

theorem assign_other (vars : String → List Path) (l : List (String × List Path)) (v : String) (h : v ∉ l.map Prod.fst) :
    (l.foldl (fun v a => assign v a.1 a.2) vars) v = vars v := by
  induction l generalizing vars with
  | nil => rfl
  | cons a l ih =>
    rw [List.map_cons, List.mem_cons, not_or] at h
    rw [List.foldl_cons, ih _ h.2]
    exact if_neg h.1

/-- A directory of a library leaves variables that it does not name. -/
theorem sub_vars (e : Env) (s s' : CSt) (d : Path) (body : List Cmd) (h : subdir run e s d body = .ok s') (v : String) (hv : v ∉ parents body) :
    s'.vars v = s.vars v := by
  obtain ⟨t, h1, rfl⟩ := (sub_ok ..).1 h
  have := run_up _ _ _ _ h1
  exact assign_other _ _ _ (by rw [this]; exact hv)

/-- Both directories of solvers. -/
def solvers (e : Env) (s b : CSt) (c : Code) : Prop := ∃ a, subdir run e s ["solver_code"] (solverFile c.job c.lib) = .ok a ∧
  if c.job.twoStage then subdir run e a ["osqp_code"] (c.libO ++ exports "osqp" .osqp) = .ok b else b = a

theorem evals_here (e : Env) (vars : String → List Path) (l : List Path) : evals e vars (l.map here) = l.map fun p => e.cur ++ p.tail := by
  unfold evals here
  induction l with
  | nil => rfl
  | cons p l ih => rw [List.map_cons, List.flatMap_cons, ih]; rfl

theorem evals_ref (e : Env) (vars : String → List Path) (v : String) : evals e vars [.ref v] = vars v := by simp [evals, eval]

theorem evals_nil (e : Env) (vars : String → List Path) : evals e vars [] = [] := rfl

theorem evals_cons (e : Env) (vars : String → List Path) (v : String) (l : List Item) : evals e vars (.ref v :: l) = vars v ++ evals e vars l := rfl

theorem evals_example (e : Env) (vars : String → List Path) (l : List Item) :
    evals e vars (here cmakeExample :: l) = [e.cur ++ ["src", "cpg_example.c"]] ++ evals e vars l := rfl

theorem evals_app (e : Env) (vars : String → List Path) (l m : List Item) : evals e vars (l ++ m) = evals e vars l ++ evals e vars m := by
  simp [evals]

/-- What the three lists contain in the end. -/
def I (e : Env) (c : Code) (v : String → List Path) : List Path := v (c.pre ++ "cpg_include") ++ (cmakePath c.job).map fun p => e.cur ++ p.tail
def H (e : Env) (c : Code) (v : String → List Path) : List Path := v (c.pre ++ "cpg_head") ++
  ((cmakeHead c.job).map (fun p => e.cur ++ p.tail) ++ (if c.job.twoStage then v "osqp_head" else []) ++ v "solver_head")
def S (e : Env) (c : Code) (v : String → List Path) : List Path := v (c.pre ++ "cpg_src") ++
  ((cmakeSrc c.job).map (fun p => e.cur ++ p.tail) ++ (if c.job.twoStage then v "osqp_src" else []) ++ v "solver_src")

theorem assign_same (vars : String → List Path) (v : String) (x : List Path) : assign vars v x v = x := if_pos rfl
theorem assign_ne (vars : String → List Path) (v w : String) (x : List Path) (h : w ≠ v) : assign vars v x w = vars w := if_neg h

/-- Lines 38-101 of the template. -/
theorem tail_ok (e : Env) (b t : CSt) (c : Code) : ((codeFile c).drop (if c.job.twoStage then 2 else 1)).foldlM (step e) b = .ok t ↔
    "cpg_example" ∉ b.targets.map Prod.fst ∧ "cpg" ∉ b.targets.map Prod.fst ∧
    t = { b with
      vars := assign (assign (assign b.vars (c.pre ++ "cpg_include") (I e c b.vars)) (c.pre ++ "cpg_head") (H e c b.vars)) (c.pre ++ "cpg_src") (S e c b.vars)
      up := b.up ++ [(c.pre ++ "cpg_include", I e c b.vars)] ++ [(c.pre ++ "cpg_head", H e c b.vars)] ++ [(c.pre ++ "cpg_src", S e c b.vars)]
      incs := b.incs ++ I e c b.vars
      targets := b.targets ++ [("cpg_example", H e c b.vars ++ (S e c b.vars ++ [e.cur ++ ["src", "cpg_example.c"]]))] ++ [("cpg", H e c b.vars ++ S e c b.vars)] } := by
  have n1 : c.pre ++ "cpg_include" ≠ c.pre ++ "cpg_head" := pre_ne _ _ _ (by decide)
  have n2 : c.pre ++ "cpg_include" ≠ c.pre ++ "cpg_src" := pre_ne _ _ _ (by decide)
  have n3 : c.pre ++ "cpg_head" ≠ c.pre ++ "cpg_src" := pre_ne _ _ _ (by decide)
  have m1 : "solver_head" ≠ c.pre ++ "cpg_include" := (pre_ne_fix _ _ _ (by decide)).symm
  have m2 : "solver_src" ≠ c.pre ++ "cpg_head" := (pre_ne_fix _ _ _ (by decide)).symm
  have m3 : "solver_src" ≠ c.pre ++ "cpg_include" := (pre_ne_fix _ _ _ (by decide)).symm
  have m4 : "osqp_head" ≠ c.pre ++ "cpg_include" := (pre_ne_fix _ _ _ (by decide)).symm
  have m5 : "osqp_src" ≠ c.pre ++ "cpg_head" := (pre_ne_fix _ _ _ (by decide)).symm
  have m6 : "osqp_src" ≠ c.pre ++ "cpg_include" := (pre_ne_fix _ _ _ (by decide)).symm
  unfold codeFile I H S
  cases hj : c.job.twoStage <;>
  · simp only [if_true, if_false, Bool.false_eq_true, List.cons_append, List.nil_append, List.drop_succ_cons, List.drop_zero, fold_bind, step, run,
      List.foldlM_nil, pure, Except.pure, Except.ok.injEq, exists_eq_left', evals_here, evals_app, evals_cons, evals_nil, evals_example, List.append_nil,
      assign_same, assign_ne _ _ _ _ n1, assign_ne _ _ _ _ n2, assign_ne _ _ _ _ n3, assign_ne _ _ _ _ n1.symm, assign_ne _ _ _ _ n2.symm,
      assign_ne _ _ _ _ n3.symm, assign_ne _ _ _ _ m1, assign_ne _ _ _ _ m2, assign_ne _ _ _ _ m3, assign_ne _ _ _ _ m4, assign_ne _ _ _ _ m5,
      assign_ne _ _ _ _ m6]
    by_cases h1 : "cpg_example" ∈ List.map Prod.fst b.targets
    · simp [h1]
    · by_cases h2 : "cpg" ∈ List.map Prod.fst b.targets
      · rw [if_neg h1]
        simp only [Except.ok.injEq, exists_eq_left', List.map_append, List.mem_append, h2, true_or, if_true]
        simp
      · rw [if_neg h1]
        simp only [Except.ok.injEq, exists_eq_left', List.map_append, List.mem_append, h2, List.map_cons, List.map_nil, List.mem_singleton]
        rw [if_neg (by simp)]
        simp [h1, eq_comm, assign_same, assign_ne _ _ _ _ n3]

theorem code_ok (e : Env) (s t : CSt) (c : Code) : (codeFile c).foldlM (step e) s = .ok t ↔ ∃ b, solvers e s b c ∧
    ((codeFile c).drop (if c.job.twoStage then 2 else 1)).foldlM (step e) b = .ok t := by
  unfold solvers
  cases hj : c.job.twoStage
  · have h : codeFile c = .sub ["solver_code"] (solverFile c.job c.lib) :: (codeFile c).drop 1 := by simp [codeFile, hj]
    rw [h, fold_bind]
    simp [step]
  · have h : codeFile c = .sub ["solver_code"] (solverFile c.job c.lib) :: .sub ["osqp_code"] (c.libO ++ exports "osqp" .osqp) :: (codeFile c).drop 2 := by
      simp [codeFile, hj]
    rw [h, fold_bind]
    simp only [fold_bind, step, if_true, List.drop_succ_cons, List.drop_zero]
    constructor
    · rintro ⟨a, h1, b, h2, h3⟩; exact ⟨b, ⟨a, h1, h2⟩, h3⟩
    · rintro ⟨b, ⟨a, h1, h2⟩, h3⟩; exact ⟨a, h1, b, h2, h3⟩

end Verif.Lemmas.CMake
