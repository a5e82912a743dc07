import Verif.Model.Assign
import Verif.Spec.Assign
import Verif.Props.UpdateSolve
/-! C82: generating code does not change the problem. C83: programs generated from the same problem behave alike. -/
namespace Verif.Props
open Verif.Model Verif.Model.Assign Verif.Spec Verif.Spec.Assign
variable {Attr V Raw S : Type}

theorem assign_kept (e : Env Attr V Raw S) : ∀ (ps : List (Par Attr V)) (s : S), Kept ps (assign e ps s).1 := by
  intro ps
  induction ps with
  | nil => intro s; exact .nil
  | cons p ps ih =>
    intro s
    unfold assign
    cases h : p.value with
    | some v => exact .cons ⟨rfl, fun v h => h⟩ (ih s)
    | none => exact .cons ⟨rfl, fun v hv => by rw [h] at hv; cases hv⟩ (ih _)

theorem assign_full (e : Env Attr V Raw S) : ∀ (ps : List (Par Attr V)) (s : S), Full (assign e ps s).1 := by
  intro ps
  induction ps with
  | nil => intro s p hp; cases hp
  | cons p ps ih =>
    intro s q hq
    unfold assign at hq
    cases h : p.value with
    | some v =>
      rw [h] at hq
      rcases List.mem_cons.1 hq with rfl | hq
      · rw [h]; rfl
      · exact ih s q hq
    | none =>
      rw [h] at hq
      rcases List.mem_cons.1 hq with rfl | hq
      · rfl
      · exact ih _ q hq

theorem assign_fit (e : Env Attr V Raw S) (fits : Attr → V → Prop) (hp : ∀ a r, fits a (e.project a r)) :
    ∀ (ps : List (Par Attr V)) (s : S), Fit fits ps → Fit fits (assign e ps s).1 := by
  intro ps
  induction ps with
  | nil => intro s _ p hp; cases hp
  | cons p ps ih =>
    intro s hf q hq
    have hps : Fit fits ps := fun p hp => hf p (List.mem_cons_of_mem _ hp)
    unfold assign at hq
    cases h : p.value with
    | some v =>
      rw [h] at hq
      rcases List.mem_cons.1 hq with rfl | hq
      · exact hf q List.mem_cons_self
      · exact ih s hps q hq
    | none =>
      rw [h] at hq
      rcases List.mem_cons.1 hq with rfl | hq
      · intro v hv; cases hv; exact hp _ _
      · exact ih _ hps q hq

theorem assign_of_full (e : Env Attr V Raw S) : ∀ (ps : List (Par Attr V)) (s : S), Full ps → assign e ps s = (ps, s) := by
  intro ps
  induction ps with
  | nil => intro s _; rfl
  | cons p ps ih =>
    intro s hf
    unfold assign
    cases h : p.value with
    | some v => simp only [ih s fun q hq => hf q (List.mem_cons_of_mem _ hq)]
    | none => have := hf p List.mem_cons_self; rw [h] at this; cases this

theorem kept_refl (ps : List (Par Attr V)) : Kept ps ps := by
  induction ps with
  | nil => exact .nil
  | cons p ps ih => exact .cons ⟨rfl, fun _ h => h⟩ ih

/-- What a call of `generate` does to the parameters: nothing if an error comes before they are listed, otherwise the loop. -/
theorem generate_params (e : Env Attr V Raw S) (j : Job Attr) (w : World Attr V S) :
    (generate e j w).2.params = if j.before.isSome then w.params else (assign e w.params w.rng).1 := by
  obtain ⟨before, after, second, later⟩ := j
  cases before with
  | some err => rfl
  | none =>
    cases after with
    | some err => rfl
    | none =>
      cases second with
      | none => cases later <;> rfl
      | some x =>
        obtain ⟨attrs, b2, a2⟩ := x
        cases b2 with
        | some err => rfl
        | none => cases a2 <;> cases later <;> rfl

/-- **C82, values are kept.** Whatever the outcome of generation, every parameter that had a value has it still, and values assigned fit the
attributes if CVXPY's projections do. -/
theorem C82_partial (e : Env Attr V Raw S) (j : Job Attr) (w : World Attr V S) (fits : Attr → V → Prop)
    (hproj : ∀ a r, fits a (e.project a r)) (hfit : Fit fits w.params) :
    Kept w.params (generate e j w).2.params ∧ Fit fits (generate e j w).2.params ∧
      (Full w.params → Untouched w.params (generate e j w).2.params) := by
  rw [generate_params]
  split
  · exact ⟨kept_refl _, hfit, fun _ => rfl⟩
  · exact ⟨assign_kept e _ _, assign_fit e fits hproj _ _ hfit, fun h => by rw [assign_of_full e _ _ h]; rfl⟩

/-- **C82, early errors.** If generation raises before parameters are listed, nothing has changed. -/
theorem C82_early (e : Env Attr V Raw S) (j : Job Attr) (w : World Attr V S) (err : PyErr) (h : j.before = some err) :
    generate e j w = (some err, w) := by
  unfold generate extract
  rw [h]

/-- **C82, later generations.** After a generation that did not raise early, no sequence of further ones changes a parameter. -/
theorem C82_again (e : Env Attr V Raw S) (j : Job Attr) (hj : j.before = none) (w : World Attr V S) (js : List (Job Attr)) :
    (js.foldl (fun w j => (generate e j w).2) (generate e j w).2).params = (generate e j w).2.params := by
  have hfull : Full (generate e j w).2.params := by
    rw [generate_params, hj]
    exact assign_full e _ _
  generalize (generate e j w).2 = w1 at hfull ⊢
  induction js generalizing w1 with
  | nil => rfl
  | cons j' js ih =>
    have h : (generate e j' w1).2.params = w1.params := by
      rw [generate_params]
      split
      · rfl
      · rw [assign_of_full e _ _ hfull]
    rw [List.foldl_cons, ih _ (by rw [h]; exact hfull), h]

/-- **C82 fails.** A problem with a parameter without a value is changed by every generation that gets that far, also if it raises later:
afterwards all parameters have values, and `problem.solve()` no longer reports the missing one. -/
theorem C82_fails (e : Env Attr V Raw S) (j : Job Attr) (hj : j.before = none) (w : World Attr V S) (h : missing w = true) :
    ¬ Untouched w.params (generate e j w).2.params ∧ missing (generate e j w).2 = false := by
  have hfull : Full (generate e j w).2.params := by
    rw [generate_params, hj]
    exact assign_full e _ _
  have hm : missing (generate e j w).2 = false := by
    unfold missing
    rw [List.any_eq_false]
    intro p hp hn
    have := hfull p hp
    cases hv : p.value with
    | none => rw [hv] at this; cases this
    | some v => rw [hv] at hn; cases hn
  refine ⟨fun hu => ?_, hm⟩
  unfold missing at h hm
  rw [show (generate e j w).2.params = w.params from hu, h] at hm
  cases hm

/-- **C82 fails: random numbers.** In two stages numpy's generator is used although all parameters of the problem have values: for each
parameter of the second problem. In one stage it is not. -/
theorem C82_rng (e : Env Attr V Raw S) (j : Job Attr) (w : World Attr V S) (hf : Full w.params) :
    (j.second = none → (generate e j w).2.rng = w.rng) ∧
    (∀ attrs b2 a2, j.before = none → j.after = none → j.second = some (attrs, b2, a2) →
      (generate e j w).2.rng = if b2.isSome then w.rng else attrs.foldl (fun s a => (e.randn s a).2) w.rng) := by
  obtain ⟨before, after, second, later⟩ := j
  constructor
  · rintro rfl
    cases before with
    | some err => rfl
    | none => cases after <;> cases later <;> simp [generate, extract, laterSteps, assign_of_full e _ _ hf]
  · rintro attrs b2 a2 rfl rfl rfl
    have hr : ∀ (l : List Attr) (s : S), (assign e (l.map fun a => ⟨a, none⟩) s).2 = l.foldl (fun s a => (e.randn s a).2) s := by
      intro l
      induction l with
      | nil => intro s; rfl
      | cons a l ih => intro s; exact ih _
    cases b2 with
    | some err => simp [generate, extract, secondStage, assign_of_full e _ _ hf]
    | none =>
      cases a2 <;> cases later <;> simp [generate, extract, laterSteps, secondStage, assign_of_full e _ _ hf, hr]

/-! Shapes are sizes, values are numbers; the generator counts the numbers drawn. -/

def aEnv : Env Nat Nat Nat Nat where
  randn := fun s n => (s, s + n)
  project := fun _ r => r

example : generate aEnv ⟨none, none, none, none⟩ ⟨[⟨2, some 7⟩, ⟨3, none⟩], 0⟩ = (none, ⟨[⟨2, some 7⟩, ⟨3, some 0⟩], 3⟩) := by decide
/-- A later error leaves the value. -/
example : generate aEnv ⟨none, none, none, some .valueError⟩ ⟨[⟨3, none⟩], 0⟩ = (some .valueError, ⟨[⟨3, some 0⟩], 3⟩) := by decide
example : missing (⟨[⟨2, some 7⟩, ⟨3, none⟩], 0⟩ : World Nat Nat Nat) = true := by decide
example : (generate aEnv ⟨none, none, some ([4, 5], none, none), none⟩ ⟨[⟨2, some 7⟩], 0⟩).2 = ⟨[⟨2, some 7⟩], 9⟩ := by decide

end Verif.Props
