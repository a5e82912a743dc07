import Verif.Props.GradFlow
/-!
# C34: which matrices a gradient call works with, for all interleavings
-/
namespace Verif.Props
open Verif.Model.GradFlow Verif.Spec.GradFlow Verif.Lemmas.GradFlow

variable {ι ν θ V S D : Type} [DecidableEq ι]

/-- What the matrices in a factorisation are a function of: current values, values at the latest solve, whether `i` was updated since
the latest gradient, values that the matrix in use belongs to. -/
structure Trace (θ : Type) where
  now : θ
  solved : θ
  updated : Bool
  used : θ

def traceStep (deps : ν → List ι) (i : ι) (t : Trace θ) : Op ν θ S D → Trace θ
  | .update name f => { t with now := f t.now, updated := t.updated || decide (i ∈ deps name) }
  | .solve => { t with solved := t.now }
  | .setSol _ => t
  | .gradient _ => { t with used := if t.updated then t.solved else t.used, updated := false }

def trace (deps : ν → List ι) (i : ι) (p : θ) (ops : List (Op ν θ S D)) : Trace θ :=
  ops.foldl (traceStep deps i) ⟨p, p, false, p⟩

/-- The instance whose matrix `i` a gradient call after `ops` works with: if `i` was updated after the latest gradient call, that of the
latest solve; otherwise the one that the latest gradient call worked with. -/
def usedParams (deps : ν → List ι) (i : ι) (p : θ) (ops : List (Op ν θ S D)) : θ :=
  if (trace deps i p ops).updated then (trace deps i p ops).solved else (trace deps i p ops).used

theorem trace_snoc (deps : ν → List ι) (i : ι) (p : θ) (ops : List (Op ν θ S D)) (op : Op ν θ S D) :
    trace deps i p (ops ++ [op]) = traceStep deps i (trace deps i p ops) op := by
  unfold trace; rw [List.foldl_append]; rfl

theorem trace_params (deps : ν → List ι) (i : ι) (p : θ) (ops : List (Op ν θ S D)) :
    (trace deps i p ops).now = paramsAfter p ops ∧ (trace deps i p ops).solved = solvedParams p ops := by
  have h : ∀ (ops : List (Op ν θ S D)) (t : Trace θ), ((ops.foldl (traceStep deps i) t).now, (ops.foldl (traceStep deps i) t).solved) =
      ops.foldl (fun (s : θ × θ) op => match op with
        | .update _ f => (f s.1, s.2)
        | .solve => (s.1, s.1)
        | _ => s) (t.now, t.solved) := by
    intro ops
    induction ops with
    | nil => intro t; rfl
    | cons op ops ih =>
      intro t
      rw [List.foldl_cons, List.foldl_cons, ih]
      cases op <;> rfl
  have h1 : ∀ (ops : List (Op ν θ S D)) (t : Trace θ), (ops.foldl (traceStep deps i) t).now = paramsAfter t.now ops := by
    intro ops
    induction ops with
    | nil => intro t; rfl
    | cons op ops ih =>
      intro t
      rw [List.foldl_cons, ih]
      cases op <;> rfl
  exact ⟨h1 ops _, congrArg Prod.snd (h ops ⟨p, p, false, p⟩)⟩

/-- Flags and matrices after any calls. -/
theorem trace_inv (G : Gen ι ν θ V S) (p : θ) (o og : ι → Bool) (sol : S) (i : ι) (hm : G.matrix i = true) (hch : G.changes i = true)
    (ops : List (Op ν θ S D)) (hs : Sound G ops) :
    ((trace G.deps i p ops).updated = true → (run G (init G p o og sol) ops).outdatedGrad i = true) ∧
    ((trace G.deps i p ops).updated = false → (run G (init G p o og sol) ops).outdatedGrad i = true →
      G.canonOf i (trace G.deps i p ops).now = G.canonOf i (trace G.deps i p ops).used ∧
      G.canonOf i (trace G.deps i p ops).solved = G.canonOf i (trace G.deps i p ops).used) ∧
    matIn i (G.canonOf i p) (run G (init G p o og sol) ops).log = G.canonOf i (trace G.deps i p ops).used := by
  induction ops using List.reverseRecOn with
  | nil => exact ⟨fun h => (by cases h), fun _ _ => ⟨rfl, rfl⟩, rfl⟩
  | append_singleton ops op ih =>
    have hs0 : Sound G ops := ⟨fun n f h => hs.deps n f (List.mem_append_left _ h), hs.const⟩
    obtain ⟨a, b, c⟩ := ih hs0
    have hcan := (inv_run G p o og sol i ops hs0).canon
    have hsol := (trace_params G.deps i p ops).2
    rw [run_snoc, trace_snoc]
    generalize run G (init G p o og sol) ops = s at *
    generalize trace G.deps i p ops = t at *
    cases op with
    | update name f =>
      by_cases hd : i ∈ G.deps name
      · refine ⟨fun _ => ?_, fun h => ?_, c⟩
        · show (if i ∈ G.deps name ∧ G.matrix i then true else s.outdatedGrad i) = true
          rw [if_pos ⟨hd, hm⟩]
        · simp [traceStep, hd] at h
      · have e1 : (traceStep G.deps i t (Op.update (S := S) (D := D) name f)).updated = t.updated := by simp [traceStep, hd]
        have e2 : (step G s (Op.update name f)).outdatedGrad i = s.outdatedGrad i := by
          show (if i ∈ G.deps name ∧ G.matrix i then true else s.outdatedGrad i) = _
          rw [if_neg fun h => hd h.1]
        rw [e1, e2]
        refine ⟨a, fun h1 h2 => ?_, c⟩
        obtain ⟨b1, b2⟩ := b h1 h2
        exact ⟨(hs.deps name f (List.mem_append_right _ (List.mem_singleton.2 rfl)) i hd t.now).trans b1, b2⟩
    | solve => exact ⟨a, fun h1 h2 => ⟨(b h1 h2).1, (b h1 h2).1⟩, c⟩
    | setSol sl => exact ⟨a, b, c⟩
    | gradient dx =>
      refine ⟨fun h => (by cases h), fun _ h => ?_, ?_⟩
      · have : (if G.changes i then false else s.outdatedGrad i) = true := h
        rw [if_pos hch] at this
        cases this
      · show matIn i _ (s.log ++ [_]) = G.canonOf i (if t.updated then t.solved else t.used)
        rw [matIn_snoc]
        show Option.getD (if G.matrix i && G.changes i && s.outdatedGrad i then some (s.canon i) else none) _ = _
        rw [hm, hch, Bool.and_self, Bool.true_and]
        cases hu : t.updated with
        | true =>
          rw [a hu]
          simp only [if_true, Option.getD_some]
          rw [hcan, hsol]
        | false =>
          cases hg : s.outdatedGrad i with
          | true =>
            simp only [if_true, Option.getD_some]
            rw [hcan, ← hsol]
            exact (b hu hg).2
          | false => exact c

/-- **C34 (exact)** One stage: for all interleavings of updates, solves and gradients, a gradient call works with matrix `i` of the
instance `usedParams`. So it works with the matrix of the latest solve exactly if the two instances have the same matrix. -/
theorem C34_exact (G : Gen ι ν θ V S) (p : θ) (o og : ι → Bool) (sol : S) (i : ι) (ops : List (Op ν θ S D)) (hs : Sound G ops)
    (hm : G.matrix i = true) (dx : D) :
    matIn i (G.canonOf i p) (run G (init G p o og sol) (ops ++ [.gradient dx])).log = G.canonOf i (usedParams G.deps i p ops) ∧
    (matIn i (G.canonOf i p) (run G (init G p o og sol) (ops ++ [.gradient dx])).log = G.canonOf i (solvedParams p ops) ↔
      G.canonOf i (usedParams G.deps i p ops) = G.canonOf i (solvedParams p ops)) := by
  have hs' : Sound G (ops ++ [Op.gradient dx]) := ⟨fun n f h => hs.deps n f (by simpa using h), hs.const⟩
  have key : matIn i (G.canonOf i p) (run G (init G p o og sol) (ops ++ [.gradient dx])).log = G.canonOf i (usedParams G.deps i p ops) := by
    by_cases hc : G.changes i = true
    · rw [(trace_inv G p o og sol i hm hc _ hs').2.2, trace_snoc]
      rfl
    · have hc' : G.changes i = false := by simpa using hc
      rw [(inv_run G p o og sol i _ hs').const hc']
      exact hs.const i hc' _ _
  exact ⟨key, by rw [key]⟩

/-- **C34 (exact, two stages)** A gradient call works with the matrices of the current values, so with those of the latest solve exactly
if the two have the same matrix. -/
theorem C34_two_stage_exact (G : Gen ι ν θ V S) (solve1 : θ → S) (p : θ) (o og : ι → Bool) (sol : S) (i : ι)
    (ops : List (Op ν θ S D)) (hs : Sound G ops) (hm : G.matrix i = true) (dx : D) :
    matIn i (G.canonOf i p) (run2 G solve1 (init G p o og sol) (ops ++ [.gradient dx])).log = G.canonOf i (paramsAfter p ops) ∧
    (matIn i (G.canonOf i p) (run2 G solve1 (init G p o og sol) (ops ++ [.gradient dx])).log = G.canonOf i (solvedParams p ops) ↔
      G.canonOf i (paramsAfter p ops) = G.canonOf i (solvedParams p ops)) := by
  have hs' : Sound G (ops ++ [Op.gradient dx]) := ⟨fun n f h => hs.deps n f (by simpa using h), hs.const⟩
  have key : matIn i (G.canonOf i p) (run2 G solve1 (init G p o og sol) (ops ++ [.gradient dx])).log = G.canonOf i (paramsAfter p ops) := by
    have h2 := inv2_run G solve1 p o og sol i hm (ops ++ [.gradient dx]) hs'
    by_cases hc : G.changes i = true
    · rw [h2.mat hc, params_other p ops _ (fun _ _ h => by cases h)]
      rw [run2_snoc]
      simp [step2, hc]
    · have hc' : G.changes i = false := by simpa using hc
      rw [(h2.const hc').2]
      exact hs.const i hc' _ _
  exact ⟨key, by rw [key]⟩

/-- Update, gradient, solve: the next gradient still works with the initial matrix; after a further update it works with that of the
solve. -/
example : usedParams flowGen.deps () 1 [flowSet 2, .gradient (), .solve] = 1 ∧
    usedParams flowGen.deps () 1 [flowSet 2, .gradient (), .solve, flowSet 3] = 2 ∧
    solvedParams 1 [flowSet 2, .gradient (), .solve, flowSet 3] = 2 := by decide

end Verif.Props
