import Verif.Spec.GradFlow
import Mathlib.Data.List.Induction
namespace Verif.Lemmas.GradFlow
open Verif.Model.GradFlow Verif.Spec.GradFlow

variable {ι ν θ V S D : Type} [DecidableEq ι]

theorem solved_fst (p : θ) (ops : List (Op ν θ S D)) :
    (ops.foldl (fun (s : θ × θ) op => match op with
      | .update _ f => (f s.1, s.2)
      | .solve => (s.1, s.1)
      | _ => s) (p, p)).1 = paramsAfter p ops := by
  induction ops using List.reverseRecOn with
  | nil => rfl
  | append_singleton ops op ih =>
    unfold paramsAfter at ih ⊢
    rw [List.foldl_append, List.foldl_append]
    cases op <;> simp only [List.foldl_cons, List.foldl_nil, ih]

theorem lost_fst (deps : ν → List ι) (i : ι) (ops : List (Op ν θ S D)) :
    (ops.foldl (fun (s : Bool × Bool) op => match op with
      | .update name _ => if i ∈ deps name then (true, false) else s
      | .solve => (false, s.2)
      | .gradient _ => (s.1, s.1 || s.2)
      | _ => s) (false, false)).1 = pending deps i ops := by
  induction ops using List.reverseRecOn with
  | nil => rfl
  | append_singleton ops op ih =>
    unfold pending at ih ⊢
    rw [List.foldl_append, List.foldl_append]
    cases op <;> simp only [List.foldl_cons, List.foldl_nil, ih]
    split <;> simp_all

section specs
variable (p : θ) (deps : ν → List ι) (i : ι) (ops : List (Op ν θ S D))

omit [DecidableEq ι] in
theorem params_update (name : ν) (f : θ → θ) :
    paramsAfter p (ops ++ [Op.update (S := S) (D := D) name f]) = f (paramsAfter p ops) := by
  unfold paramsAfter; rw [List.foldl_append]; rfl

omit [DecidableEq ι] in
theorem params_other (op : Op ν θ S D) (h : ∀ name f, op ≠ .update name f) :
    paramsAfter p (ops ++ [op]) = paramsAfter p ops := by
  unfold paramsAfter; rw [List.foldl_append]
  cases op with
  | update n f => exact absurd rfl (h n f)
  | _ => rfl

omit [DecidableEq ι] in
theorem solved_solve : solvedParams p (ops ++ [Op.solve]) = paramsAfter p ops := by
  rw [← solved_fst]
  unfold solvedParams; rw [List.foldl_append]; rfl

omit [DecidableEq ι] in
theorem solved_other (op : Op ν θ S D) (h : op ≠ .solve) :
    solvedParams p (ops ++ [op]) = solvedParams p ops := by
  unfold solvedParams; rw [List.foldl_append]
  cases op with
  | solve => exact absurd rfl h
  | _ => rfl

theorem pending_update (name : ν) (f : θ → θ) :
    pending deps i (ops ++ [Op.update (S := S) (D := D) name f]) =
      if i ∈ deps name then true else pending deps i ops := by
  unfold pending; rw [List.foldl_append]; rfl

theorem pending_solve : pending deps i (ops ++ [Op.solve]) = false := by
  unfold pending; rw [List.foldl_append]; rfl

theorem pending_setSol (s : S) : pending deps i (ops ++ [Op.setSol s]) = pending deps i ops := by
  unfold pending; rw [List.foldl_append]; rfl

theorem pending_gradient (dx : D) : pending deps i (ops ++ [Op.gradient dx]) = pending deps i ops := by
  unfold pending; rw [List.foldl_append]; rfl

theorem lost_update (name : ν) (f : θ → θ) :
    lost deps i (ops ++ [Op.update (S := S) (D := D) name f]) =
      if i ∈ deps name then false else lost deps i ops := by
  unfold lost; rw [List.foldl_append]
  show Prod.snd (if i ∈ deps name then _ else _) = _
  split <;> rfl

theorem lost_solve : lost deps i (ops ++ [Op.solve]) = lost deps i ops := by
  unfold lost; rw [List.foldl_append]; rfl

theorem lost_setSol (s : S) : lost deps i (ops ++ [Op.setSol s]) = lost deps i ops := by
  unfold lost; rw [List.foldl_append]; rfl

theorem lost_gradient (dx : D) : lost deps i (ops ++ [Op.gradient dx]) = (pending deps i ops || lost deps i ops) := by
  rw [← lost_fst]
  unfold lost; rw [List.foldl_append]; rfl

end specs

/-- What holds of canonical parameter `i` after `ops`. -/
structure Inv (G : Gen ι ν θ V S) (p : θ) (i : ι) (ops : List (Op ν θ S D)) (s : St ι θ V S D) : Prop where
  params : s.params = paramsAfter p ops
  canon : s.canon i = G.canonOf i (solvedParams p ops)
  outdated : s.outdated i = false → G.canonOf i (solvedParams p ops) = G.canonOf i (paramsAfter p ops)
  pend : pending G.deps i ops = false → G.canonOf i (solvedParams p ops) = G.canonOf i (paramsAfter p ops)
  mat : G.matrix i = true → G.changes i = true → lost G.deps i ops = false → s.outdatedGrad i = false →
    matIn i (G.canonOf i p) s.log = G.canonOf i (paramsAfter p ops)
  flag : G.matrix i = true → lost G.deps i ops = false → pending G.deps i ops = true → s.outdatedGrad i = true
  const : G.changes i = false → matIn i (G.canonOf i p) s.log = G.canonOf i p

theorem Sound.left {G : Gen ι ν θ V S} {a b : List (Op ν θ S D)} (h : Sound G (a ++ b)) : Sound G a :=
  ⟨fun n f hm => h.deps n f (List.mem_append_left _ hm), h.const⟩

theorem run_snoc (G : Gen ι ν θ V S) (s : St ι θ V S D) (ops : List (Op ν θ S D)) (op : Op ν θ S D) :
    run G s (ops ++ [op]) = step G (run G s ops) op := by
  unfold run; rw [List.foldl_append]; rfl

omit [DecidableEq ι] in
theorem matIn_snoc (i : ι) (v : V) (log : List (Emit ι V S D)) (e : Emit ι V S D) :
    matIn i v (log ++ [e]) = (e.refresh i).getD (matIn i v log) := by
  unfold matIn; rw [List.foldl_append]; rfl

theorem inv_run (G : Gen ι ν θ V S) (p : θ) (o og : ι → Bool) (sol : S) (i : ι) (ops : List (Op ν θ S D))
    (hs : Sound G ops) : Inv G p i ops (run G (init G p o og sol) ops) := by
  induction ops using List.reverseRecOn with
  | nil =>
    exact ⟨rfl, rfl, fun _ => rfl, fun _ => rfl, fun _ _ _ _ => rfl, fun _ _ h => (Bool.noConfusion h),
      fun _ => rfl⟩
  | append_singleton ops op ih =>
    have ih := ih (Sound.left hs)
    rw [run_snoc]
    generalize run G (init G p o og sol) ops = s at *
    obtain ⟨h1, h2, h3, h4, h5, h6, h7⟩ := ih
    cases op with
    | update name f =>
      have hd := hs.deps name f (List.mem_append_right _ (List.mem_singleton.2 rfl)) i
      have ep := params_update p ops (D := D) (S := S) name f
      have es := solved_other p ops (Op.update (S := S) (D := D) name f) (fun h => by cases h)
      by_cases hm : i ∈ G.deps name
      · refine ⟨?_, ?_, ?_, ?_, ?_, ?_, h7⟩
        · rw [ep, ← h1]; rfl
        · rw [es]; exact h2
        · intro h; simp [step, hm] at h
        · intro h; rw [pending_update, if_pos hm] at h; cases h
        · intro hm' _ _ h; simp [step, hm, hm'] at h
        · intro hm' _ _; simp [step, hm, hm']
      · refine ⟨?_, ?_, ?_, ?_, ?_, ?_, h7⟩
        · rw [ep, ← h1]; rfl
        · rw [es]; exact h2
        · intro h
          rw [es, ep, hd hm]
          exact h3 (by simpa [step, hm] using h)
        · intro h
          rw [pending_update, if_neg hm] at h
          rw [es, ep, hd hm]
          exact h4 h
        · intro a b c d
          rw [lost_update, if_neg hm] at c
          rw [ep, hd hm]
          exact h5 a b c (by simpa [step, hm] using d)
        · intro a c d
          rw [lost_update, if_neg hm] at c
          rw [pending_update, if_neg hm] at d
          simpa [step, hm] using h6 a c d
    | solve =>
      have ep := params_other p ops (Op.solve (ν := ν) (θ := θ) (S := S) (D := D)) (fun _ _ h => by cases h)
      have es := solved_solve (D := D) (S := S) p ops
      refine ⟨?_, ?_, ?_, ?_, ?_, ?_, h7⟩
      · rw [ep]; exact h1
      · rw [es]
        show (if G.changes i && s.outdated i then G.canonOf i s.params else s.canon i) = _
        by_cases hc : G.changes i = true
        · by_cases ho : s.outdated i = true
          · rw [hc, ho]; simp [h1]
          · have ho' : s.outdated i = false := by simpa using ho
            rw [ho', Bool.and_false, if_neg (by decide), h2]
            exact h3 ho'
        · have hc' : G.changes i = false := by simpa using hc
          rw [hc', Bool.false_and, if_neg (by decide), h2]
          exact hs.const i hc' _ _
      · intro _; rw [es, ep]
      · intro _; rw [es, ep]
      · intro a b c d
        rw [lost_solve] at c
        rw [ep]
        exact h5 a b c d
      · intro a c d
        rw [pending_solve] at d
        cases d
    | setSol sl =>
      have ep := params_other p ops (Op.setSol (ν := ν) (θ := θ) (D := D) sl) (fun _ _ h => by cases h)
      have es := solved_other p ops (Op.setSol (ν := ν) (θ := θ) (D := D) sl) (fun h => by cases h)
      refine ⟨?_, ?_, ?_, ?_, ?_, ?_, h7⟩
      · rw [ep]; exact h1
      · rw [es]; exact h2
      · rw [es, ep]; exact h3
      · rw [es, ep, pending_setSol]; exact h4
      · rw [ep, lost_setSol]; exact h5
      · rw [pending_setSol, lost_setSol]; exact h6
    | gradient dx =>
      have ep := params_other p ops (Op.gradient (ν := ν) (θ := θ) (S := S) dx) (fun _ _ h => by cases h)
      have es := solved_other p ops (Op.gradient (ν := ν) (θ := θ) (S := S) dx) (fun h => by cases h)
      refine ⟨?_, ?_, ?_, ?_, ?_, ?_, ?_⟩
      · rw [ep]; exact h1
      · rw [es]; exact h2
      · rw [es, ep]; exact h3
      · rw [es, ep, pending_gradient]; exact h4
      · intro a b c d
        rw [lost_gradient, Bool.or_eq_false_iff] at c
        rw [ep]
        show matIn i _ (s.log ++ [_]) = _
        rw [matIn_snoc]
        show Option.getD (if G.matrix i && G.changes i && s.outdatedGrad i then some (s.canon i) else none) _ = _
        by_cases hf : s.outdatedGrad i = true
        · rw [a, b, hf]
          simp only [Bool.and_self, if_true, Option.getD_some]
          rw [h2]; exact h4 c.1
        · have hf' : s.outdatedGrad i = false := by simpa using hf
          rw [hf', Bool.and_false, if_neg (by decide), Option.getD_none]
          exact h5 a b c.2 hf'
      · intro a c d
        rw [lost_gradient, Bool.or_eq_false_iff] at c
        rw [pending_gradient, c.1] at d
        cases d
      · intro hc
        show matIn i _ (s.log ++ [_]) = _
        rw [matIn_snoc]
        show Option.getD (if G.matrix i && G.changes i && s.outdatedGrad i then some (s.canon i) else none) _ = _
        rw [hc, Bool.and_false, Bool.false_and, if_neg (by decide), Option.getD_none]
        exact h7 hc

/-- The matrix that a gradient call works with. -/
theorem gradient_mat (G : Gen ι ν θ V S) (p : θ) (o og : ι → Bool) (sol : S) (i : ι)
    (ops : List (Op ν θ S D)) (hs : Sound G ops) (hm : G.matrix i = true) (hl : lost G.deps i ops = false)
    (dx : D) :
    matIn i (G.canonOf i p) (run G (init G p o og sol) (ops ++ [.gradient dx])).log =
      G.canonOf i (solvedParams p ops) := by
  obtain ⟨h1, h2, h3, h4, h5, h6, h7⟩ := inv_run G p o og sol i ops hs
  rw [run_snoc]
  generalize run G (init G p o og sol) ops = s at *
  show matIn i _ (s.log ++ [_]) = _
  rw [matIn_snoc]
  show Option.getD (if G.matrix i && G.changes i && s.outdatedGrad i then some (s.canon i) else none) _ = _
  by_cases hc : G.changes i = true
  · by_cases hf : s.outdatedGrad i = true
    · rw [hm, hc, hf]
      simpa using h2
    · have hf' : s.outdatedGrad i = false := by simpa using hf
      rw [hf', Bool.and_false, if_neg (by decide), Option.getD_none, h5 hm hc hl hf']
      by_cases hp : pending G.deps i ops = true
      · exact absurd (h6 hm hl hp) hf
      · exact (h4 (by simpa using hp)).symm
  · have hc' : G.changes i = false := by simpa using hc
    rw [hc', Bool.and_false, Bool.false_and, if_neg (by decide), Option.getD_none, h7 hc']
    exact hs.const i hc' _ _

/-- Two stages. -/
structure Inv2 (G : Gen ι ν θ V S) (p : θ) (i : ι) (ops : List (Op ν θ S D)) (s : St ι θ V S D) : Prop where
  params : s.params = paramsAfter p ops
  canon : s.outdatedGrad i = false → s.canon i = G.canonOf i (paramsAfter p ops)
  pend : pending G.deps i ops = false → G.canonOf i (solvedParams p ops) = G.canonOf i (paramsAfter p ops)
  mat : G.changes i = true → s.outdatedGrad i = false →
    matIn i (G.canonOf i p) s.log = G.canonOf i (paramsAfter p ops)
  const : G.changes i = false → s.canon i = G.canonOf i p ∧ matIn i (G.canonOf i p) s.log = G.canonOf i p

theorem run2_snoc (G : Gen ι ν θ V S) (f : θ → S) (s : St ι θ V S D) (ops : List (Op ν θ S D)) (op : Op ν θ S D) :
    run2 G f s (ops ++ [op]) = step2 G f (run2 G f s ops) op := by
  unfold run2; rw [List.foldl_append]; rfl

theorem inv2_run (G : Gen ι ν θ V S) (f : θ → S) (p : θ) (o og : ι → Bool) (sol : S) (i : ι)
    (hm : G.matrix i = true) (ops : List (Op ν θ S D)) (hs : Sound G ops) :
    Inv2 G p i ops (run2 G f (init G p o og sol) ops) := by
  induction ops using List.reverseRecOn with
  | nil => exact ⟨rfl, fun _ => rfl, fun _ => rfl, fun _ _ => rfl, fun _ => ⟨rfl, rfl⟩⟩
  | append_singleton ops op ih =>
    have ih := ih (Sound.left hs)
    rw [run2_snoc]
    generalize run2 G f (init G p o og sol) ops = s at *
    obtain ⟨h1, h2, h3, h4, h5⟩ := ih
    cases op with
    | update name f =>
      have hd := hs.deps name f (List.mem_append_right _ (List.mem_singleton.2 rfl)) i
      have ep := params_update p ops (D := D) (S := S) name f
      have es := solved_other p ops (Op.update (S := S) (D := D) name f) (fun h => by cases h)
      by_cases hm : i ∈ G.deps name
      · refine ⟨?_, ?_, ?_, ?_, h5⟩
        · rw [ep, ← h1]; rfl
        · intro h; simp [step2, hm] at h
        · intro h; rw [pending_update, if_pos hm] at h; cases h
        · intro _ h; simp [step2, hm] at h
      · refine ⟨?_, ?_, ?_, ?_, h5⟩
        · rw [ep, ← h1]; rfl
        · intro h
          rw [ep, hd hm]
          exact h2 (by simpa [step2, hm] using h)
        · intro h
          rw [pending_update, if_neg hm] at h
          rw [es, ep, hd hm]
          exact h3 h
        · intro b d
          rw [ep, hd hm]
          exact h4 b (by simpa [step2, hm] using d)
    | solve =>
      have ep := params_other p ops (Op.solve (ν := ν) (θ := θ) (S := S) (D := D)) (fun _ _ h => by cases h)
      have es := solved_solve (D := D) (S := S) p ops
      refine ⟨?_, ?_, ?_, ?_, h5⟩
      · rw [ep]; exact h1
      · rw [ep]; exact h2
      · intro _; rw [es, ep]
      · rw [ep]; exact h4
    | setSol sl =>
      have ep := params_other p ops (Op.setSol (ν := ν) (θ := θ) (D := D) sl) (fun _ _ h => by cases h)
      have es := solved_other p ops (Op.setSol (ν := ν) (θ := θ) (D := D) sl) (fun h => by cases h)
      refine ⟨?_, ?_, ?_, ?_, h5⟩
      · rw [ep]; exact h1
      · rw [ep]; exact h2
      · rw [es, ep, pending_setSol]; exact h3
      · rw [ep]; exact h4
    | gradient dx =>
      have ep := params_other p ops (Op.gradient (ν := ν) (θ := θ) (S := S) dx) (fun _ _ h => by cases h)
      have es := solved_other p ops (Op.gradient (ν := ν) (θ := θ) (S := S) dx) (fun h => by cases h)
      have key : (if G.changes i && s.outdatedGrad i then G.canonOf i s.params else s.canon i) =
          G.canonOf i (paramsAfter p ops) := by
        by_cases hc : G.changes i = true
        · by_cases hf : s.outdatedGrad i = true
          · rw [hc, hf]; simp [h1]
          · have hf' : s.outdatedGrad i = false := by simpa using hf
            rw [hf', Bool.and_false, if_neg (by decide)]; exact h2 hf'
        · have hc' : G.changes i = false := by simpa using hc
          rw [hc', Bool.false_and, if_neg (by decide), (h5 hc').1]
          exact hs.const i hc' _ _
      refine ⟨?_, ?_, ?_, ?_, ?_⟩
      · rw [ep]; exact h1
      · intro _; rw [ep]; exact key
      · rw [es, ep, pending_gradient]; exact h3
      · intro hc _
        rw [ep]
        show matIn i _ (s.log ++ [_]) = _
        rw [matIn_snoc]
        show Option.getD (if G.matrix i && G.changes i && s.outdatedGrad i then some _ else none) _ = _
        by_cases hf : s.outdatedGrad i = true
        · rw [hm, hc, hf]
          simp only [Bool.and_self, if_true, Option.getD_some]
          exact key
        · have hf' : s.outdatedGrad i = false := by simpa using hf
          rw [hf', Bool.and_false, if_neg (by decide), Option.getD_none]
          exact h4 hc hf'
      · intro hc
        constructor
        · show (if G.changes i && s.outdatedGrad i then G.canonOf i s.params else s.canon i) = _
          rw [hc, Bool.false_and, if_neg (by decide)]; exact (h5 hc).1
        · show matIn i _ (s.log ++ [_]) = _
          rw [matIn_snoc]
          show Option.getD (if G.matrix i && G.changes i && s.outdatedGrad i then some _ else none) _ = _
          rw [hc, Bool.and_false, Bool.false_and, if_neg (by decide), Option.getD_none]
          exact (h5 hc).2

/-! ### the wrapper -/

theorem run_append (G : Gen ι ν θ V S) (s : St ι θ V S D) (a b : List (Op ν θ S D)) :
    run G s (a ++ b) = run G (run G s a) b := by
  unfold run; rw [List.foldl_append]

theorem lost_updates (deps : ν → List ι) (i : ι) (ops : List (Op ν θ S D)) (us : List (ν × (θ → θ)))
    (h : lost deps i ops = false) :
    lost deps i (ops ++ us.map (fun u => Op.update u.1 u.2)) = false := by
  induction us using List.reverseRecOn with
  | nil => simpa using h
  | append_singleton us u ih =>
    rw [List.map_append, ← List.append_assoc]
    show lost deps i (_ ++ [Op.update u.1 u.2]) = false
    rw [lost_update]
    split
    · rfl
    · exact ih

omit [DecidableEq ι] in
theorem params_updates (p : θ) (ops : List (Op ν θ S D)) (us : List (ν × (θ → θ))) :
    paramsAfter p (ops ++ us.map (fun u => Op.update u.1 u.2)) =
      us.foldl (fun p u => u.2 p) (paramsAfter p ops) := by
  induction us using List.reverseRecOn with
  | nil => simp
  | append_singleton us u ih =>
    rw [List.map_append, ← List.append_assoc, List.foldl_append]
    show paramsAfter p (_ ++ [Op.update u.1 u.2]) = _
    rw [params_update, ih]; rfl

/-- Updates of the wrapper declare what they change. -/
def WSound (G : Gen ι ν θ V S) (ops : List (WOp ν θ D)) : Prop :=
  (∀ us, WOp.forward us ∈ ops → ∀ u ∈ us, ∀ i, i ∉ G.deps u.1 → ∀ p, G.canonOf i (u.2 p) = G.canonOf i p) ∧
  ∀ i, G.changes i = false → ∀ p p', G.canonOf i p = G.canonOf i p'

theorem forward_fst (p : θ) (ops : List (WOp ν θ D)) :
    (ops.foldl forwardStep (p, [])).1 = ((forwardParams p ops).getLast?).getD p := by
  unfold forwardParams
  induction ops using List.reverseRecOn with
  | nil => rfl
  | append_singleton ops op ih =>
    rw [List.foldl_append]
    cases op with
    | forward us => simp [forwardStep]
    | backward c dx => exact ih

theorem forward_snoc (p : θ) (ops : List (WOp ν θ D)) (us : List (ν × (θ → θ))) :
    forwardParams p (ops ++ [.forward us]) = forwardParams p ops ++
      [us.foldl (fun p u => u.2 p) (((forwardParams p ops).getLast?).getD p)] := by
  rw [← forward_fst p ops]
  unfold forwardParams; rw [List.foldl_append]; rfl

theorem backward_snoc (p : θ) (ops : List (WOp ν θ D)) (c : Nat) (dx : D) :
    forwardParams p (ops ++ [.backward c dx]) = forwardParams p ops := by
  unfold forwardParams; rw [List.foldl_append]; rfl

structure WInv (G : Gen ι ν θ V S) (p : θ) (o og : ι → Bool) (sol : S) (wops : List (WOp ν θ D))
    (w : WSt ι θ V S D) (ops : List (Op ν θ S D)) : Prop where
  run : w.st = run G (init G p o og sol) ops
  sound : Sound G ops
  pend : ∀ i, pending G.deps i ops = false
  lost : ∀ i, lost G.deps i ops = false
  cur : paramsAfter p ops = ((forwardParams p wops).getLast?).getD p
  solved : solvedParams p ops = ((forwardParams p wops).getLast?).getD p
  saved : w.saved = (forwardParams p wops).map (fun q => G.solver (fun i => G.canonOf i q))

theorem wrun_inv (G : Gen ι ν θ V S) (p : θ) (o og : ι → Bool) (sol : S) (wops : List (WOp ν θ D))
    (hs : WSound G wops) :
    ∃ ops, WInv G p o og sol wops (wrun G ⟨init G p o og sol, []⟩ wops) ops := by
  induction wops using List.reverseRecOn with
  | nil => exact ⟨[], rfl, ⟨fun _ _ h => absurd h List.not_mem_nil, hs.2⟩, fun _ => rfl, fun _ => rfl, rfl, rfl, rfl⟩
  | append_singleton wops wop ih =>
    obtain ⟨ops, h1, h2, h3, h4, h5, h5', h6⟩ :=
      ih ⟨fun us hm => hs.1 us (List.mem_append_left _ hm), hs.2⟩
    have e : wrun G ⟨init G p o og sol, []⟩ (wops ++ [wop]) =
        wstep G (wrun G ⟨init G p o og sol, []⟩ wops) wop := by
      unfold wrun; rw [List.foldl_append]; rfl
    rw [e]
    generalize wrun G ⟨init G p o og sol, []⟩ wops = w at *
    cases wop with
    | forward us =>
      have hsound : Sound G (ops ++ us.map (fun u => Op.update u.1 u.2) ++ [Op.solve]) := by
        refine ⟨?_, hs.2⟩
        intro name f hm
        rcases List.mem_append.1 hm with hm | hm
        · rcases List.mem_append.1 hm with hm | hm
          · exact h2.deps name f hm
          · obtain ⟨u, hu, hu'⟩ := List.mem_map.1 hm
            cases hu'
            exact hs.1 us (List.mem_append_right _ (List.mem_singleton.2 rfl)) u hu
        · rcases List.mem_singleton.1 hm with h
          cases h
      have ep : paramsAfter p (ops ++ us.map (fun u => Op.update u.1 u.2) ++ [Op.solve]) =
          us.foldl (fun p u => u.2 p) (((forwardParams p wops).getLast?).getD p) := by
        rw [params_other p _ _ (fun _ _ h => by cases h), params_updates, h5]
      have es : solvedParams p (ops ++ us.map (fun u => Op.update u.1 u.2) ++ [Op.solve]) =
          us.foldl (fun p u => u.2 p) (((forwardParams p wops).getLast?).getD p) := by
        rw [solved_solve, params_updates, h5]
      have hrun : Model.GradFlow.run G w.st (us.map (fun u => Op.update u.1 u.2) ++ [Op.solve]) =
          Model.GradFlow.run G (init G p o og sol) (ops ++ us.map (fun u => Op.update u.1 u.2) ++ [Op.solve]) := by
        rw [List.append_assoc, run_append G _ ops, ← h1]
      refine ⟨ops ++ us.map (fun u => Op.update u.1 u.2) ++ [.solve], ?_, hsound, ?_, ?_, ?_, ?_, ?_⟩
      · exact hrun
      · intro i; exact pending_solve _ _ _
      · intro i; rw [lost_solve]; exact lost_updates _ _ _ _ (h4 i)
      · rw [ep, forward_snoc]; simp
      · rw [es, forward_snoc]; simp
      · rw [forward_snoc, List.map_append, ← h6]
        show w.saved ++ [(Model.GradFlow.run G w.st _).sol] = _
        rw [hrun]
        congr 2
        have hc : ∀ i, _ := fun i => (inv_run G p o og sol i _ hsound).canon
        rw [es] at hc
        rw [run_snoc] at hc ⊢
        show G.solver _ = G.solver _
        congr 1
        funext i
        exact hc i
    | backward c dx =>
      unfold wstep
      simp only
      cases hc : w.saved[c]? with
      | none =>
        exact ⟨ops, h1, h2, h3, h4, by rw [backward_snoc]; exact h5, by rw [backward_snoc]; exact h5',
          by rw [backward_snoc]; exact h6⟩
      | some sl =>
        refine ⟨ops ++ [.setSol sl] ++ [.gradient dx], ?_, ?_, ?_, ?_, ?_, ?_, ?_⟩
        · show Model.GradFlow.run G w.st _ = _
          rw [List.append_assoc, run_append G _ ops, ← h1]; rfl
        · refine ⟨?_, hs.2⟩
          intro name f hm
          rcases List.mem_append.1 hm with hm | hm
          · rcases List.mem_append.1 hm with hm | hm
            · exact h2.deps name f hm
            · rcases List.mem_singleton.1 hm with h
              cases h
          · rcases List.mem_singleton.1 hm with h
            cases h
        · intro i; rw [pending_gradient, pending_setSol]; exact h3 i
        · intro i; rw [lost_gradient, lost_setSol, pending_setSol, h3 i, h4 i]; rfl
        · rw [params_other p _ _ (fun _ _ h => by cases h), params_other p _ _ (fun _ _ h => by cases h),
            backward_snoc]; exact h5
        · rw [solved_other p _ _ (fun h => by cases h), solved_other p _ _ (fun h => by cases h),
            backward_snoc]; exact h5'
        · rw [backward_snoc]; exact h6

end Verif.Lemmas.GradFlow
