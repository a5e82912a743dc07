import Verif.Model.Quad
import Verif.Spec.Quad
import Mathlib.Data.List.Nodup
import Mathlib.Data.List.Perm.Basic
import Mathlib.Data.List.Induction
import Mathlib.Tactic.Ring
import Mathlib.Tactic.NormNum
import Mathlib.Tactic.Linarith
import Mathlib.Algebra.Order.BigOperators.Group.List
/-! C67: the solver minimizes the user's quadratic form. -/
namespace Verif.Props
open Verif.Model.Quad Verif.Spec.Quad

section
variable {R : Type} [Field R]

theorem quad_nodup {pat : Pat} (h : ColumnMajor pat) : pat.Nodup :=
  List.Pairwise.imp (fun {a b} hab e => by subst e; omega) h

/-- **C67 (setup)** The matrix OSQP is set up with means the user's quadratic form, for every symmetric matrix. -/
theorem C67_setup (pat : Pat) (hn : pat.Nodup) (hs : SymPat pat) (val : Nat × Nat → R) (hv : SymVal val) (x : Nat → R) :
    upperForm (setupP pat val) x = fullForm (entries pat val) x := by
  unfold upperForm fullForm setupP entries
  congr 1
  rw [List.filter_map, List.map_map, List.map_map]
  let g : Nat × Nat → R := fun e => val e * x e.1 * x e.2
  have e1 : (List.map ((fun e => (if e.1.1 = e.1.2 then (1 : R) else 2) * (e.2 * x e.1.1 * x e.1.2)) ∘ fun e => (e, val e))
      (List.filter ((fun e : (Nat × Nat) × R => decide (e.1.1 ≤ e.1.2)) ∘ fun e => (e, val e)) pat)).sum
      = ((pat.filter fun e => decide (e.1 ≤ e.2)).map fun e => (if e.1 = e.2 then 1 else 2) * g e).sum := rfl
  have e2 : (List.map ((fun e : (Nat × Nat) × R => e.2 * x e.1.1 * x e.1.2) ∘ fun e => (e, val e)) pat).sum = (pat.map g).sum := rfl
  rw [e1, e2]
  have split : ∀ l : List (Nat × Nat), (l.map g).sum
      = ((l.filter fun e => decide (e.1 ≤ e.2)).map g).sum + ((l.filter fun e => decide (e.2 < e.1)).map g).sum := by
    intro l
    induction l with
    | nil => simp
    | cons a l ih =>
      by_cases ha : a.1 ≤ a.2
      · have hb : ¬ a.2 < a.1 := by omega
        simp only [List.map_cons, List.sum_cons, List.filter_cons, ha, hb, decide_true, decide_false, if_true, ih]
        simp [add_assoc]
      · have hb : a.2 < a.1 := by omega
        simp only [List.map_cons, List.sum_cons, List.filter_cons, ha, hb, decide_true, decide_false, if_true, ih]
        simp only [Bool.false_eq_true, if_false, List.map_cons, List.sum_cons]
        ring
  have split2 : ∀ l : List (Nat × Nat),
      ((l.filter fun e => decide (e.1 ≤ e.2)).map fun e => (if e.1 = e.2 then (1 : R) else 2) * g e).sum
      = ((l.filter fun e => decide (e.1 ≤ e.2)).map g).sum + ((l.filter fun e => decide (e.1 < e.2)).map g).sum := by
    intro l
    induction l with
    | nil => simp
    | cons a l ih =>
      rcases Nat.lt_trichotomy a.1 a.2 with ha | ha | ha
      · have h1 : a.1 ≤ a.2 := by omega
        have h2 : a.1 ≠ a.2 := by omega
        simp only [List.filter_cons, ha, h1, decide_true, if_true, List.map_cons, List.sum_cons, if_neg h2, ih]
        ring
      · have h1 : a.1 ≤ a.2 := by omega
        have h2 : ¬ a.1 < a.2 := by omega
        simp only [List.filter_cons, h1, h2, decide_true, decide_false, if_true, List.map_cons, List.sum_cons, if_pos ha, ih]
        simp only [Bool.false_eq_true, if_false]
        ring
      · have h1 : ¬ a.1 ≤ a.2 := by omega
        have h2 : ¬ a.1 < a.2 := by omega
        simp only [List.filter_cons, h1, h2, decide_false, Bool.false_eq_true, if_false, ih]
  rw [split pat, split2 pat]
  congr 1
  have hp : (pat.filter fun e => decide (e.1 < e.2)).Perm ((pat.filter fun e => decide (e.2 < e.1)).map Prod.swap) := by
    rw [List.perm_ext_iff_of_nodup (hn.filter _) ((hn.filter _).map Prod.swap_injective)]
    rintro ⟨r, c⟩
    simp only [List.mem_filter, List.mem_map, decide_eq_true_eq, Prod.exists, Prod.swap_prod_mk, Prod.mk.injEq]
    constructor
    · rintro ⟨h1, h2⟩
      exact ⟨c, r, ⟨hs _ _ h1, h2⟩, rfl, rfl⟩
    · rintro ⟨a, b, ⟨h1, h2⟩, rfl, rfl⟩
      exact ⟨hs _ _ h1, h2⟩
  rw [(hp.map g).sum_eq, List.map_map]
  congr 1
  apply List.map_congr_left
  rintro ⟨r, c⟩ _
  change val (c, r) * x c * x r = val (r, c) * x r * x c
  rw [hv c r]
  ring

theorem quad_diag_setup {pat : Pat} (hd : Diagonal pat) (val : Nat × Nat → R) : setupP pat val = entries pat val := by
  unfold setupP
  rw [List.filter_eq_self]
  intro e he
  obtain ⟨a, ha, rfl⟩ := List.mem_map.1 he
  have := hd a.1 a.2 ha
  simp [this]

theorem quad_update_full (c : Reaction) (pat : Pat) (v w : Nat × Nat → R) :
    updateP c (entries pat v) (pData pat w) = entries pat w := by
  have hz : (entries pat v).zipWith (fun e d => (e.1, d)) (pData pat w) = entries pat w := by
    unfold entries pData
    rw [List.zipWith_map]
    induction pat with
    | nil => rfl
    | cons a l ih => simp only [List.zipWith_cons_cons, List.map_cons, ih]
  unfold updateP
  rw [if_pos (by simp [entries, pData]), hz]

/-- After any updates the solver has the values of the last one, if there are no entries off the diagonal. -/
theorem quad_diag_run (c : Reaction) {pat : Pat} (hd : Diagonal pat) (v0 : Nat × Nat → R) (vs : List (Nat × Nat → R)) :
    runP c pat v0 vs = entries pat ((v0 :: vs).getLast (by simp)) := by
  induction vs using List.reverseRecOn with
  | nil => exact quad_diag_setup hd v0
  | append_singleton vs v ih =>
    unfold runP at ih ⊢
    rw [List.foldl_append, ih, List.foldl_cons, List.foldl_nil, quad_update_full]
    congr 1
    simp

/-- The claim of C67 for OSQP: whatever the values at generation and the updates since then, the solver minimizes the quadratic
form of the current values. -/
def QuadFollows (R : Type) [Field R] (c : Reaction) (pat : Pat) : Prop :=
  ∀ (v0 : Nat × Nat → R) (vs : List (Nat × Nat → R)), SymVal v0 → (∀ v ∈ vs, SymVal v) → ∀ x : Nat → R,
    upperForm (runP c pat v0 vs) x = fullForm (entries pat ((v0 :: vs).getLast (by simp))) x

/-- **C67 (partial)** It holds for diagonal matrices (sums of squares of single entries, which is what CVXPY produces for
`sum_squares`). Missing: all others, see `C67_iff`. -/
theorem C67_partial (c : Reaction) (pat : Pat) (hd : Diagonal pat) : QuadFollows R c pat := by
  intro v0 vs _ _ x
  rw [quad_diag_run c hd]
  unfold upperForm fullForm
  congr 2
  apply List.map_congr_left
  intro e he
  obtain ⟨a, ha, rfl⟩ := List.mem_map.1 he
  have := hd a.1 a.2 ha
  simp [this]

/-- The last entry of a matrix in compressed columns is the last diagonal entry. -/
theorem quad_last {pat : Pat} (hc : ColumnMajor pat) (hs : SymPat pat) (hd : HasDiag pat) (hne : pat ≠ []) :
    ∃ l k, pat = l ++ [(k, k)] := by
  rcases List.eq_nil_or_concat pat with h | ⟨l, ⟨r, c⟩, h⟩
  · exact absurd h hne
  · rw [List.concat_eq_append] at h
    refine ⟨l, c, ?_⟩
    have hm : (r, c) ∈ pat := by rw [h]; simp
    have key : ∀ a ∈ pat, a.2 < c ∨ (a.2 = c ∧ a.1 ≤ r) := by
      intro a ha
      rw [h] at ha hc
      rcases List.mem_append.1 ha with ha | ha
      · have := (List.pairwise_append.1 hc).2.2 a ha (r, c) (by simp)
        simp only at this
        omega
      · simp only [List.mem_singleton] at ha
        subst ha
        right
        exact ⟨rfl, le_rfl⟩
    have h1 := key _ (hd r c hm)
    have h2 := key _ (hs r c hm)
    simp only at h1 h2
    have : r = c := by omega
    rw [h, this]

theorem quad_len_lt {pat : Pat} (hs : SymPat pat) (hnd : ¬ Diagonal pat) (v : Nat × Nat → R) :
    (setupP pat v).length < (pData pat v).length := by
  unfold setupP pData
  have : (entries pat v).length = pat.length := by simp [entries]
  rw [List.length_map, ← this]
  apply List.length_filter_lt_length_iff_exists.2
  unfold Diagonal at hnd
  push Not at hnd
  obtain ⟨r, c, h1, h2⟩ := hnd
  rcases Nat.lt_or_gt_of_ne h2 with h | h
  · exact ⟨((c, r), v (c, r)), List.mem_map.2 ⟨_, hs _ _ h1, rfl⟩, by simpa using h⟩
  · exact ⟨((r, c), v (r, c)), List.mem_map.2 ⟨_, h1, rfl⟩, by simpa using h⟩

/-- **C67 fails**: if updates with too many data are rejected, no update of a matrix with an entry off the diagonal ever
reaches the solver: it keeps minimizing the quadratic form of generation time. -/
theorem C67_fails_ignored (pat : Pat) (hn : pat.Nodup) (hs : SymPat pat) (hnd : ¬ Diagonal pat) (v0 : Nat × Nat → R)
    (vs : List (Nat × Nat → R)) (hv : SymVal v0) (x : Nat → R) :
    upperForm (runP .reject pat v0 vs) x = fullForm (entries pat v0) x := by
  have h : runP .reject pat v0 vs = setupP pat v0 := by
    induction vs using List.reverseRecOn with
    | nil => rfl
    | append_singleton vs v ih =>
      unfold runP at ih ⊢
      rw [List.foldl_append, ih, List.foldl_cons, List.foldl_nil]
      unfold updateP
      have h1 := quad_len_lt hs hnd v0
      have h2 : (pData pat v).length = (pData pat v0).length := by simp [pData]
      rw [if_neg (by omega)]
  rw [h]
  exact C67_setup pat hn hs v0 hv x

/-- The solver's form at a unit vector is half the entry on the diagonal. -/
theorem quad_unit (l : Stored R) (k : Nat) :
    upperForm l (fun i => if i = k then 1 else 0) = (1 / 2) * ((l.filter fun e => decide (e.1 = (k, k))).map Prod.snd).sum := by
  unfold upperForm
  congr 1
  induction l with
  | nil => rfl
  | cons e l ih =>
    rw [List.map_cons, List.sum_cons, ih, List.filter_cons]
    obtain ⟨⟨r, c⟩, v⟩ := e
    by_cases h : (r, c) = (k, k)
    · have h1 : r = k := (Prod.mk.inj h).1
      have h2 : c = k := (Prod.mk.inj h).2
      subst h1 h2
      simp
    · have : r ≠ k ∨ c ≠ k := by
        by_contra hc
        push Not at hc
        exact h (by rw [hc.1, hc.2])
      rcases this with h1 | h1 <;> simp [h, h1]

/-- **C67 (iff)** For positive semidefinite matrices in compressed columns and either reaction of the solver to too many data:
updates of parameters in the quadratic part take effect exactly for diagonal matrices. -/
theorem C67_iff (c : Reaction) (pat : Pat) (hc : ColumnMajor pat) (hs : SymPat pat) (hdg : HasDiag pat) :
    QuadFollows ℚ c pat ↔ Diagonal pat := by
  constructor
  · intro hf
    by_contra hnd
    have hne : pat ≠ [] := by rintro rfl; exact hnd (fun r c h => by simp at h)
    obtain ⟨l, k, hl⟩ := quad_last hc hs hdg hne
    have hn := quad_nodup hc
    let v1 : Nat × Nat → ℚ := fun e => if e = (k, k) then 1 else 0
    have hv1 : SymVal v1 := by
      intro r c'
      by_cases h : (r, c') = (k, k)
      · have h1 : r = k := (Prod.mk.inj h).1
        have h2 : c' = k := (Prod.mk.inj h).2
        subst h1 h2
        rfl
      · have h' : (c', r) ≠ (k, k) := by
          intro e
          exact h (by rw [(Prod.mk.inj e).1, (Prod.mk.inj e).2])
        change (if (r, c') = (k, k) then (1 : ℚ) else 0) = if (c', r) = (k, k) then 1 else 0
        rw [if_neg h, if_neg h']
    have h0 : SymVal (fun _ => (0 : ℚ)) := fun _ _ => rfl
    have hx := hf (fun _ => 0) [v1] h0 (by intro v hv; rw [List.mem_singleton] at hv; subst hv; exact hv1)
      (fun i => if i = k then 1 else 0)
    have hr : fullForm (entries pat v1) (fun i => if i = k then (1 : ℚ) else 0) = 1 / 2 := by
      rw [← C67_setup pat hn hs v1 hv1, quad_unit]
      have : ((setupP pat v1).filter fun e => decide (e.1 = (k, k))) = [((k, k), 1)] := by
        unfold setupP entries
        rw [List.filter_filter, hl, List.map_append, List.filter_append]
        have hk : (k, k) ∉ l := by
          rw [hl, List.nodup_append] at hn
          intro h
          exact hn.2.2 _ h _ (by simp) rfl
        have e1 : (List.filter (fun a : (Nat × Nat) × ℚ => decide (a.1 = (k, k)) && decide (a.1.1 ≤ a.1.2))
            (l.map fun e => (e, v1 e))) = [] := by
          rw [List.filter_eq_nil_iff]
          intro a ha
          obtain ⟨b, hb, rfl⟩ := List.mem_map.1 ha
          simp only [Bool.and_eq_true, decide_eq_true_eq, not_and]
          rintro rfl
          exact absurd hb hk
        rw [e1]
        simp [v1]
      rw [this]
      simp
    have hg : ((fun _ => (0 : ℚ)) :: [v1]).getLast (by simp) = v1 := rfl
    rw [hg, hr, quad_unit] at hx
    have hlt := quad_len_lt hs hnd (fun _ => (0 : ℚ))
    have hlen : (pData pat v1).length = (pData pat fun _ => (0 : ℚ)).length := by simp [pData]
    have hz : ∀ e ∈ runP c pat (fun _ => (0 : ℚ)) [v1], e.2 = 0 := by
      intro e he
      unfold runP at he
      rw [List.foldl_cons, List.foldl_nil] at he
      unfold updateP at he
      rw [if_neg (by omega)] at he
      cases c with
      | reject =>
        have := (List.mem_filter.1 he).1
        obtain ⟨b, _, rfl⟩ := List.mem_map.1 this
        rfl
      | useFirst =>
        dsimp only at he
        obtain ⟨i, hi⟩ := List.getElem?_of_mem he
        rw [List.getElem?_zipWith] at hi
        cases ha : (setupP pat fun _ => (0 : ℚ))[i]? with
        | none => rw [ha] at hi; simp at hi
        | some a =>
          have hi' : i < (setupP pat fun _ => (0 : ℚ)).length := by
            by_contra hcon
            rw [List.getElem?_eq_none (by omega)] at ha
            cases ha
          cases hb : (pData pat v1)[i]? with
          | none => rw [ha, hb] at hi; simp at hi
          | some b =>
            rw [ha, hb] at hi
            simp only [Option.some.injEq] at hi
            subst hi
            have hb' := hb
            unfold pData at hb'
            rw [List.getElem?_map] at hb'
            cases hp : pat[i]? with
            | none => rw [hp] at hb'; simp at hb'
            | some p =>
              rw [hp] at hb'
              simp only [Option.map_some, Option.some.injEq] at hb'
              subst hb'
              change v1 p = 0
              have hpk : p ≠ (k, k) := by
                rintro rfl
                have hlen2 : pat.length = l.length + 1 := by rw [hl]; simp
                have hq : pat[l.length]? = some (k, k) := by rw [hl]; simp
                have hil : i = l.length := by
                  have h1 : i < pat.length := by
                    by_contra hcon
                    rw [List.getElem?_eq_none (by omega)] at hp
                    cases hp
                  exact (List.getElem?_inj h1 hn).1 (hp.trans hq.symm)
                have : (pData pat fun _ => (0 : ℚ)).length = pat.length := by simp [pData]
                omega
              simp [v1, hpk]
    have hsum : ((List.filter (fun e : (Nat × Nat) × ℚ => decide (e.1 = (k, k))) (runP c pat (fun _ => (0 : ℚ)) [v1])).map
        Prod.snd).sum = 0 := by
      apply List.sum_eq_zero
      intro y hy
      obtain ⟨e, he, rfl⟩ := List.mem_map.1 hy
      exact hz e (List.mem_filter.1 he).1
    rw [hsum] at hx
    norm_num at hx
  · exact C67_partial c pat

/-- **C67 (solvers that read what they are given)** The data are handed to SCS and QOCO as they are. Read as the upper triangle
of a symmetric matrix, as both solvers document, they mean the user's quadratic form for all values exactly if the matrix is
diagonal. -/
theorem C67_direct (pat : Pat) (hn : pat.Nodup) (hs : SymPat pat) :
    (∀ val : Nat × Nat → ℚ, SymVal val → ∀ x, upperForm (entries pat val) x = fullForm (entries pat val) x) ↔ Diagonal pat := by
  constructor
  · intro h r c hrc
    by_contra hne
    have := h (fun _ => 1) (fun _ _ => rfl) (fun _ => 1)
    unfold upperForm fullForm entries at this
    have h2 : ((pat.map fun e => ((e, (1 : ℚ)))).map fun e => (if e.1.1 = e.1.2 then (1 : ℚ) else 2) * (e.2 * 1 * 1)).sum
        = ((pat.map fun e => ((e, (1 : ℚ)))).map fun e => e.2 * 1 * 1).sum := by linarith
    rw [List.map_map, List.map_map] at h2
    have h3 : ((pat.map ((fun e : (Nat × Nat) × ℚ => e.2 * 1 * 1) ∘ fun e => (e, (1 : ℚ))))).sum <
        (pat.map ((fun e : (Nat × Nat) × ℚ => (if e.1.1 = e.1.2 then (1 : ℚ) else 2) * (e.2 * 1 * 1)) ∘ fun e => (e, (1 : ℚ)))).sum := by
      apply List.sum_lt_sum
      · intro e _
        simp only [Function.comp]
        split <;> norm_num
      · refine ⟨(r, c), hrc, ?_⟩
        simp only [Function.comp, if_neg hne]
        norm_num
    exact absurd h2 (ne_of_gt h3)
  · intro hd val _ x
    unfold upperForm fullForm
    congr 2
    apply List.map_congr_left
    intro e he
    obtain ⟨a, ha, rfl⟩ := List.mem_map.1 he
    have := hd a.1 a.2 ha
    simp [this]

/-- A call as the specification sees it. -/
def clSpec : ClOp R → Option (Nat × Nat → R)
  | .update v => some v
  | .solve => none

/-- **C67 (Clarabel)** Every `cpg_solve` makes a new solver from the current matrix. For every symmetric matrix, all values, all
contents of the copies at the start and all sequences of updates and solves, each solve minimizes the user's quadratic form of
the values at that time. -/
theorem C67_clarabel (pat : Pat) (hn : pat.Nodup) (hs : SymPat pat) (v0 c0 : Nat × Nat → R) (o : Bool) (ops : List (ClOp R))
    (hv0 : SymVal v0) (hv : ∀ v, ClOp.update v ∈ ops → SymVal v) (x : Nat → R) :
    (clRun pat v0 c0 o ops).made.map (fun m => upperForm m x) = formsOf pat x v0 (ops.map clSpec) := by
  have key : ∀ (ops : List (ClOp R)) (s : ClSt R), SymVal s.canon → (∀ v, ClOp.update v ∈ ops → SymVal v) →
      (s.solver = true → s.outdated = false → s.cond = s.canon) →
      (ops.foldl (clStep pat) s).made.map (fun m => upperForm m x)
        = s.made.map (fun m => upperForm m x) ++ formsOf pat x s.canon (ops.map clSpec) := by
    intro ops
    induction ops with
    | nil => intro s _ _ _; simp [formsOf]
    | cons op ops ih =>
      intro s hc hv hi
      have hv' : ∀ v, ClOp.update v ∈ ops → SymVal v := fun v h => hv v (List.mem_cons_of_mem _ h)
      rw [List.foldl_cons]
      cases op with
      | update v =>
        rw [ih _ (hv v List.mem_cons_self) hv' (by intro _ h; cases h)]
        rfl
      | solve =>
        have e : (if !s.solver then s.canon else if s.outdated then s.canon else s.cond) = s.canon := by
          cases h1 : s.solver <;> cases h2 : s.outdated <;> simp
          exact hi h1 h2
        rw [ih (clStep pat s .solve) hc hv' (fun _ _ => e)]
        change (s.made ++ [setupP pat (if !s.solver then s.canon else if s.outdated then s.canon else s.cond)]).map _ ++ _ = _
        rw [e, List.map_append, List.append_assoc]
        congr 1
        change upperForm (setupP pat s.canon) x :: _ = fullForm (entries pat s.canon) x :: _
        rw [C67_setup pat hn hs s.canon hc x]
        rfl
  have := key ops { canon := v0, cond := c0, outdated := o, solver := false, made := [] } hv0 hv (by intro h; cases h)
  simpa [clRun] using this

end

/-- The pattern of a full matrix with two rows, as for `quad_form` with a constant matrix times a parameter. -/
def exQuad : Pat := [(0, 0), (1, 0), (0, 1), (1, 1)]

example : ColumnMajor exQuad ∧ SymPat exQuad ∧ HasDiag exQuad ∧ ¬ Diagonal exQuad := by
  refine ⟨by unfold ColumnMajor exQuad; decide, ?_, ?_, fun h => ?_⟩
  · intro r c h
    simp only [exQuad, List.mem_cons, Prod.mk.injEq, List.not_mem_nil, or_false] at h ⊢
    omega
  · intro r c h
    simp only [exQuad, List.mem_cons, Prod.mk.injEq, List.not_mem_nil, or_false] at h ⊢
    omega
  · exact absurd (h 0 1 (by decide)) (by decide)

/-- Clarabel, full matrix: two updates between three solves. -/
example : (clRun exQuad (fun _ => (1 : ℚ)) (fun _ => 0) false [.solve, .update fun _ => 2, .solve, .update fun _ => 3, .solve]).made.map
    (fun m => upperForm m fun i => (i : ℚ) + 1) = [9 / 2, 9, 27 / 2] := by
  rw [C67_clarabel exQuad (by decide) (by
    intro r c h
    simp only [exQuad, List.mem_cons, Prod.mk.injEq, List.not_mem_nil, or_false] at h ⊢
    omega) _ _ _ _ (fun _ _ => rfl) (by
    intro v h r c
    simp only [List.mem_cons, ClOp.update.injEq, List.not_mem_nil, or_false, reduceCtorEq, false_or] at h
    rcases h with rfl | rfl <;> rfl)]
  norm_num [clSpec, formsOf, fullForm, exQuad]

/-- A diagonal matrix, with a history of two updates. -/
example : Diagonal [(0, 0), (2, 2)] ∧ upperForm (runP .reject [(0, 0), (2, 2)] (fun _ => (1 : ℚ)) [fun _ => 2, fun _ => 5])
    (fun i => i) = 10 := by
  refine ⟨?_, ?_⟩
  · intro r c h
    simp only [List.mem_cons, Prod.mk.injEq, List.not_mem_nil, or_false] at h
    omega
  · rw [quad_diag_run .reject (by intro r c h; simp only [List.mem_cons, Prod.mk.injEq, List.not_mem_nil, or_false] at h; omega)]
    norm_num [upperForm, entries]

end Verif.Props
