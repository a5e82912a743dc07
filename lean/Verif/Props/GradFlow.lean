import Verif.Lemmas.GradFlow
import Verif.Props.GradSign
/-!
C34, C51: a gradient call differentiates the instance that was solved.
-/
namespace Verif.Props
open Verif.Model.GradFlow Verif.Spec.GradFlow Verif.Lemmas.GradFlow

variable {ι ν θ V S D : Type} [DecidableEq ι]

/-- C34 in one stage, the part that holds: whatever the interleaving of updates, solves and gradients, a
gradient call works with the canonical matrix `i` of the latest solve — also if parameters were updated
after that solve — unless an earlier gradient call came between an update of `i` and the following solve
(and `i` was not updated since). Missing: exactly those interleavings, see `C34_fails`. -/
theorem C34_partial (G : Gen ι ν θ V S) (p : θ) (o og : ι → Bool) (sol : S) (i : ι)
    (ops : List (Op ν θ S D)) (hs : Sound G ops) (hm : G.matrix i = true)
    (hl : lost G.deps i ops = false) (dx : D) :
    matIn i (G.canonOf i p) (run G (init G p o og sol) (ops ++ [.gradient dx])).log =
      G.canonOf i (solvedParams p ops) :=
  gradient_mat G p o og sol i ops hs hm hl dx

/-- The solution a gradient call works with, in one stage: that of the latest solve. -/
theorem C34_solution (G : Gen ι ν θ V S) (p : θ) (o og : ι → Bool) (sol : S)
    (pre : List (Op ν θ S D)) (us : List (Op ν θ S D)) (hs : Sound G (pre ++ [.solve] ++ us))
    (hus : ∀ op ∈ us, (∃ n f, op = .update n f) ∨ ∃ d, op = .gradient d) (dx : D) :
    ∃ e, (run G (init G p o og sol) (pre ++ [.solve] ++ us ++ [.gradient dx])).log.getLast? = some e ∧
      e.dx = dx ∧ e.sol = G.solver (fun i => G.canonOf i (paramsAfter p pre)) := by
  have h0 : (run G (init G p o og sol) (pre ++ [Op.solve] ++ us)).sol =
      G.solver (fun i => G.canonOf i (paramsAfter p pre)) := by
    induction us using List.reverseRecOn with
    | nil =>
      rw [List.append_nil] at hs ⊢
      have hc := fun i => (inv_run G p o og sol i (pre ++ [Op.solve]) hs).canon
      simp only [solved_solve] at hc
      rw [run_snoc] at hc ⊢
      show G.solver _ = G.solver _
      congr 1
      funext i
      exact hc i
    | append_singleton us u ih =>
      rw [← List.append_assoc] at hs ⊢
      have := ih (Sound.left hs) (fun op ho => hus op (List.mem_append_left _ ho))
      rw [run_snoc, ← this]
      rcases hus u (List.mem_append_right _ (List.mem_singleton.2 rfl)) with ⟨n, f, rfl⟩ | ⟨d, rfl⟩ <;> rfl
  rw [run_snoc]
  exact ⟨_, List.getLast?_concat, rfl, h0⟩

/-- C34 in two stages, the part that holds: a gradient call works with the matrix of the latest solve if
the user parameters it depends on were not updated since. -/
theorem C34_two_stage_partial (G : Gen ι ν θ V S) (solve1 : θ → S) (p : θ) (o og : ι → Bool) (sol : S) (i : ι)
    (ops : List (Op ν θ S D)) (hs : Sound G ops) (hm : G.matrix i = true)
    (hp : pending G.deps i ops = false) (dx : D) :
    matIn i (G.canonOf i p) (run2 G solve1 (init G p o og sol) (ops ++ [.gradient dx])).log =
      G.canonOf i (solvedParams p ops) := by
  have hs' : Sound G (ops ++ [Op.gradient dx]) :=
    ⟨fun n f h => hs.deps n f (by simpa using h), hs.const⟩
  have h2 := inv2_run G solve1 p o og sol i hm (ops ++ [.gradient dx]) hs'
  have hpend := h2.pend (by rw [pending_gradient]; exact hp)
  rw [solved_other p ops _ (fun h => by cases h)] at hpend
  rw [hpend]
  by_cases hc : G.changes i = true
  · apply h2.mat hc
    rw [run2_snoc]
    simp [step2, hc]
  · have hc' : G.changes i = false := by simpa using hc
    rw [(h2.const hc').2]
    exact hs.const i hc' _ _

/-- One canonical matrix that equals the only user parameter. -/
def flowGen : Gen Unit Unit Int Int Int where
  changes := fun _ => true
  matrix := fun _ => true
  deps := fun _ => [()]
  canonOf := fun _ p => p
  solver := fun c => 10 * c ()

/-- Initial state with parameter 1. -/
def flowInit : St Unit Int Int Int Unit := init flowGen 1 (fun _ => false) (fun _ => false) 10

def flowSet (v : Int) : Op Unit Int Int Unit := .update () (fun _ => v)

/-- C34 fails in general. One stage: after update, gradient, solve, gradient the second gradient works
with the solution of the new instance but the matrix of the old one. Two stages: after solve, update,
gradient, the gradient works with the solution of the old instance and the matrix of the new one. -/
theorem C34_fails :
    (let ops := [flowSet 2, .gradient (), .solve, .gradient ()]
     solvedParams 1 ops = 2 ∧ ((run flowGen flowInit ops).log.getLast?.map Emit.sol) = some 20 ∧
      matIn () 1 (run flowGen flowInit ops).log = 1) ∧
    (let ops := [.solve, flowSet 2, .gradient ()]
     solvedParams 1 ops = 1 ∧ ((run2 flowGen (fun p => 10 * p) flowInit ops).log.getLast?.map Emit.sol) = some 10 ∧
      matIn () 1 (run2 flowGen (fun p => 10 * p) flowInit ops).log = 2) := by
  decide

/-- The hypotheses of `C34_partial` are met by a history with several updates, solves and gradients and a
pending update at the end. -/
example : Sound flowGen [flowSet 2, .solve, .gradient (), flowSet 3, .solve, flowSet 4, .gradient (), flowSet 5, .solve, flowSet 6] ∧
    lost flowGen.deps () [flowSet 2, .solve, .gradient (), flowSet 3, .solve, flowSet 4, .gradient (), flowSet 5, .solve, flowSet 6] = false ∧
    pending flowGen.deps () [flowSet 2, .solve, .gradient (), flowSet 3, .solve] = false ∧
    solvedParams 1 [flowSet 2, .solve, .gradient (), flowSet 3, .solve, flowSet 4, .gradient (), flowSet 5, .solve, flowSet 6] = 5 := by
  refine ⟨⟨?_, ?_⟩, by decide, by decide, by decide⟩
  · intro n f _ i hi
    exact absurd (List.mem_singleton.2 rfl) hi
  · intro i h; cases h

/-! ### the wrapper -/

/-- C51, the part that holds: for every interleaving of forward and backward calls, a backward call works
with the solution of its own forward call and with the matrices of the latest forward call. Hence it
differentiates the instance of its own forward call exactly if the canonical matrices of the two
instances agree (in particular if the parameters in the matrices did not change, or if no other forward
call came in between). Missing: the matrices when they do change, see `C51_fails`. -/
theorem C51_partial (G : Gen ι ν θ V S) (p : θ) (o og : ι → Bool) (sol : S) (ops : List (WOp ν θ D))
    (hs : WSound G ops) (ctx : Nat) (q q' : θ) (hq : (forwardParams p ops)[ctx]? = some q)
    (hq' : (forwardParams p ops).getLast? = some q') (dx : D) :
    let w := wrun G ⟨init G p o og sol, []⟩ (ops ++ [.backward ctx dx])
    (∃ e, w.st.log.getLast? = some e ∧ e.sol = G.solver (fun i => G.canonOf i q) ∧ e.dx = dx) ∧
    (∀ i, G.matrix i = true → matIn i (G.canonOf i p) w.st.log = G.canonOf i q') ∧
    ((∀ i, G.matrix i = true → matIn i (G.canonOf i p) w.st.log = G.canonOf i q) ↔
      ∀ i, G.matrix i = true → G.canonOf i q = G.canonOf i q') := by
  obtain ⟨mops, h1, h2, h3, h4, h5, h5', h6⟩ := wrun_inv G p o og sol ops hs
  have e : wrun G ⟨init G p o og sol, []⟩ (ops ++ [.backward ctx dx]) =
      wstep G (wrun G ⟨init G p o og sol, []⟩ ops) (.backward ctx dx) := by
    unfold wrun; rw [List.foldl_append]; rfl
  simp only
  rw [e]
  generalize wrun G ⟨init G p o og sol, []⟩ ops = w at *
  have hsv : w.saved[ctx]? = some (G.solver (fun i => G.canonOf i q)) := by
    rw [h6, List.getElem?_map, hq]; rfl
  have hst : (wstep G w (.backward ctx dx)).st = run G (init G p o og sol)
      ((mops ++ [.setSol (G.solver (fun i => G.canonOf i q))]) ++ [.gradient dx]) := by
    unfold wstep
    simp only [hsv]
    rw [List.append_assoc, run_append G _ mops, ← h1]; rfl
  have hmat : ∀ i, G.matrix i = true →
      matIn i (G.canonOf i p) (wstep G w (.backward ctx dx)).st.log = G.canonOf i q' := by
    intro i hm
    rw [hst, gradient_mat G p o og sol i _ ?_ hm ?_ dx, solved_other p _ _ (fun h => by cases h), h5', hq']
    · rfl
    · exact ⟨fun n f h => h2.deps n f (by simpa using h), hs.2⟩
    · rw [lost_setSol]; exact h4 i
  refine ⟨?_, hmat, ?_⟩
  · rw [hst, run_snoc, run_snoc]
    exact ⟨_, List.getLast?_concat, rfl, rfl⟩
  · constructor
    · intro h i hm; rw [← h i hm, hmat i hm]
    · intro h i hm; rw [hmat i hm, h i hm]

/-- C51 fails in general: two forward calls, then the backward call of the first: its solution is that
of the first instance (10), the matrix is that of the second (2). -/
theorem C51_fails :
    let ops : List (WOp Unit Int Unit) :=
      [.forward [((), fun _ => 1)], .forward [((), fun _ => 2)], .backward 0 ()]
    let w := wrun flowGen ⟨flowInit, []⟩ ops
    forwardParams 1 ops = [1, 2] ∧ (w.st.log.getLast?.map Emit.sol) = some 10 ∧ matIn () 1 w.st.log = 2 := by
  decide

example : WSound flowGen [WOp.forward (D := Unit) [((), fun _ => 1)], .backward 0 (), .forward [((), fun _ => 2)]] ∧
    (forwardParams (ν := Unit) 1 [WOp.forward (D := Unit) [((), fun _ => 1)], .backward 0 (), .forward [((), fun _ => 2)]])
      = [(1 : Int), 2] := by
  refine ⟨⟨?_, ?_⟩, by decide⟩
  · intro us _ u _ i hi
    exact absurd (List.mem_singleton.2 rfl) hi
  · intro i h; cases h

/-! ### together with the factorization (C29) -/
section
open Verif.Model.Factor Verif.Model.Grad Verif.Spec.Factor Verif.Spec.Grad Finset

variable {R : Type} [Field R]

/-- The calls of the differentiation code that a log stands for. -/
def callsOf (iP iA : ι) (log : List (Emit ι (CscL R) ((Nat → R) × (Nat → R)) (Nat → R))) : List (Call R) :=
  log.map (fun e => { f := ⟨e.refresh iP, e.refresh iA⟩, x := e.sol.1, y := e.sol.2, dx := e.dx })

omit [DecidableEq ι] [Field R] in
theorem current_callsOf (iP iA : ι) (P A : CscL R)
    (log : List (Emit ι (CscL R) ((Nat → R) × (Nat → R)) (Nat → R))) :
    current P A ((callsOf iP iA log).map Call.f) = (matIn iP P log, matIn iA A log) := by
  induction log using List.reverseRecOn with
  | nil => rfl
  | append_singleton log e ih =>
    rw [matIn_snoc, matIn_snoc]
    unfold callsOf current at *
    rw [List.map_append, List.map_append, List.foldl_append, ih]
    rfl

/-- Refreshed matrices are values of the canonicalization. -/
theorem refresh_canonOf (G : Gen ι ν θ V S) (p : θ) (o og : ι → Bool) (sol : S) (ops : List (Op ν θ S D))
    (hs : Sound G ops) : ∀ e ∈ (run G (init G p o og sol) ops).log, ∀ i v, e.refresh i = some v →
      ∃ q, v = G.canonOf i q := by
  induction ops using List.reverseRecOn with
  | nil => intro e he; exact absurd he List.not_mem_nil
  | append_singleton ops op ih =>
    have ih := ih (Sound.left hs)
    have hc := fun i => (inv_run G p o og sol i ops (Sound.left hs)).canon
    rw [run_snoc]
    generalize run G (init G p o og sol) ops = s at *
    intro e he i v hv
    cases op with
    | gradient dx =>
      rcases List.mem_append.1 he with he | he
      · exact ih e he i v hv
      · rw [List.mem_singleton] at he
        subst he
        change (if _ then some (s.canon i) else none) = some v at hv
        split at hv
        · cases hv
          exact ⟨_, hc i⟩
        · cases hv
    | _ => exact ih e he i v hv

/-- C34 and C29 together: in every history in which no gradient call came between an update and the
solve that follows it, after each gradient call the stored factor is that of the KKT matrix of the
instance solved last, with the constraints decoupled that are inactive in its solution. -/
theorem C34_factor_of_solved_partial [DecidableEq R] [LinearOrder R] [IsStrictOrderedRing R]
    {eps tol : R} {n N : Nat} {qdldl : CscL R → Fac R} {sqrt : R → R}
    (hq : QdldlOK n N qdldl) (hsqrt : ∀ x, 0 < x → sqrt x * sqrt x = x)
    (G : Gen ι ν θ (CscL R) ((Nat → R) × (Nat → R))) (p : θ) (o og : ι → Bool) (sol : (Nat → R) × (Nat → R))
    (iP iA : ι) (hPm : G.matrix iP = true) (hAm : G.matrix iA = true)
    (h : GradSetup eps n N (G.canonOf iP p) (G.canonOf iA p))
    (hpat : ∀ q, SamePattern (G.canonOf iP p) (G.canonOf iP q) ∧ SamePattern (G.canonOf iA p) (G.canonOf iA q) ∧
      Psd n (symUp (ent (G.canonOf iP q))))
    (pre us : List (Op ν θ ((Nat → R) × (Nat → R)) (Nat → R))) (dx : Nat → R)
    (hs : Sound G (pre ++ [.solve] ++ us))
    (hus : ∀ op ∈ us, (∃ n f, op = .update n f) ∨ ∃ d, op = .gradient d)
    (hlP : lost G.deps iP (pre ++ [.solve] ++ us) = false) (hlA : lost G.deps iA (pre ++ [.solve] ++ us) = false)
    (W : Ws R) (delta : Nat → R) (g : DCanon R) :
    let log := (Verif.Model.GradFlow.run G (Verif.Model.GradFlow.init G p o og sol)
      (pre ++ [.solve] ++ us ++ [.gradient dx])).log
    let st := runGrad qdldl sqrt eps tol n N (G.canonOf iP p) (G.canonOf iA p)
      (genState eps n N (G.canonOf iP p) (G.canonOf iA p) W delta g) (callsOf iP iA log)
    let q := paramsAfter p pre
    let y := (G.solver (fun i => G.canonOf i q)).2
    IsLDL N (unitOf st.W.S.L) st.W.D
      (decoupled (kkt eps n (symUp (ent (G.canonOf iP q))) (ent (G.canonOf iA q))) (Kept tol n y)) := by
  simp only
  have hsol : solvedParams p (pre ++ [.solve] ++ us) = paramsAfter p pre := by
    clear hs hlP hlA
    induction us using List.reverseRecOn with
    | nil => rw [List.append_nil, solved_solve]
    | append_singleton us u ih =>
      rw [← List.append_assoc, solved_other]
      · exact ih (fun op ho => hus op (List.mem_append_left _ ho))
      · rcases hus u (List.mem_append_right _ (List.mem_singleton.2 rfl)) with ⟨n, f, rfl⟩ | ⟨d, rfl⟩ <;>
          intro hh <;> cases hh
  obtain ⟨e, he, hdx, hes⟩ := C34_solution G p o og sol pre us hs hus dx
  have hP := C34_partial G p o og sol iP _ hs hPm hlP dx
  have hA := C34_partial G p o og sol iA _ hs hAm hlA dx
  rw [hsol] at hP hA
  have hs' : Sound G (pre ++ [.solve] ++ us ++ [.gradient dx]) :=
    ⟨fun n f hm => hs.deps n f (by simpa using hm), hs.const⟩
  have hr := refresh_canonOf G p o og sol _ hs'
  generalize (Verif.Model.GradFlow.run G (Verif.Model.GradFlow.init G p o og sol)
      (pre ++ [.solve] ++ us ++ [.gradient dx])).log = log at *
  obtain ⟨log', rfl⟩ : ∃ log', log = log' ++ [e] := by
    rw [List.getLast?_eq_some_iff] at he
    exact he
  have hcalls : callsOf iP iA (log' ++ [e]) = callsOf iP iA log' ++
      [{ f := ⟨e.refresh iP, e.refresh iA⟩, x := e.sol.1, y := e.sol.2, dx := e.dx }] := by
    unfold callsOf; rw [List.map_append]; rfl
  have hOK : CallsOK n (G.canonOf iP p) (G.canonOf iA p) (callsOf iP iA (log' ++ [e])) := by
    intro c hc
    obtain ⟨e', he', rfl⟩ := List.mem_map.1 hc
    refine ⟨⟨?_, ?_⟩, ?_⟩
    · intro P' hP'
      obtain ⟨q, rfl⟩ := hr e' he' iP P' hP'
      exact (hpat q).1
    · intro A' hA'
      obtain ⟨q, rfl⟩ := hr e' he' iA A' hA'
      exact (hpat q).2.1
    · intro P' hP'
      obtain ⟨q, rfl⟩ := hr e' he' iP P' hP'
      exact (hpat q).2.2
  have hcur := current_callsOf iP iA (G.canonOf iP p) (G.canonOf iA p) (log' ++ [e])
  rw [hP, hA] at hcur
  rw [hcalls] at hOK hcur ⊢
  have key := (C29_factor_exact (tol := tol) hq hsqrt h W delta g _ _ hOK).2.1
  rw [hcur] at key
  have hy : (Call.y { f := ⟨e.refresh iP, e.refresh iA⟩, x := e.sol.1, y := e.sol.2, dx := e.dx }) =
      (G.solver (fun i => G.canonOf i (paramsAfter p pre))).2 := by
    show e.sol.2 = _
    rw [hes]
  rw [hy] at key
  exact key

/-- An instance: `minimize ½ x²` with constraint matrix `a`, the user parameter (`false`: `P`, `true`: `A`);
the parameter is set to 3 and the problem is solved, then set to 4. -/
noncomputable def exFlow : Gen Bool Unit ℝ (CscL ℝ) ((Nat → ℝ) × (Nat → ℝ)) where
  changes := fun i => i
  matrix := fun _ => true
  deps := fun _ => [true]
  canonOf := fun i a => if i then { (oneM : CscL ℝ) with x := fun _ => a } else oneM
  solver := fun _ => (fun _ => 0, fun _ => 1)

example : GradSetup (1 / 1000000 : ℝ) 1 2 (exFlow.canonOf false 1) (exFlow.canonOf true 1) ∧
    (∀ q, SamePattern (exFlow.canonOf false 1) (exFlow.canonOf false q) ∧
      SamePattern (exFlow.canonOf true 1) (exFlow.canonOf true q) ∧ Psd 1 (symUp (ent (exFlow.canonOf false q)))) ∧
    Sound (D := Nat → ℝ) exFlow ([.update () (fun _ => 3)] ++ [.solve] ++ [.update () (fun _ => 4)]) ∧
    lost (S := (Nat → ℝ) × (Nat → ℝ)) (D := Nat → ℝ) exFlow.deps true
      ([Op.update () (fun _ : ℝ => 3)] ++ [.solve] ++ [.update () (fun _ => 4)]) = false := by
  refine ⟨?_, ?_, ⟨?_, ?_⟩, by simp [lost, exFlow]⟩
  · exact one_setup (by norm_num)
  · intro q
    exact ⟨⟨rfl, rfl⟩, ⟨rfl, rfl⟩, (one_setup (eps := (1 : ℝ)) one_pos).convex⟩
  · intro name f _ i hi p
    cases i with
    | false => rfl
    | true => exact absurd (List.mem_singleton.2 rfl) hi
  · intro i hi p p'
    cases i with
    | false => rfl
    | true => cases hi

end
end Verif.Props
