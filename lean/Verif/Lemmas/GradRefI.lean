import Verif.Lemmas.GradRefH
import Verif.Props.GradMem
import Mathlib.Algebra.BigOperators.Ring.Finset
/-!
Lemmas for C94: sequences of calls that end with a gradient; gradients with respect to user parameters as a transpose.
-/
namespace Verif.Lemmas.GradRef
open Verif.Model.GradMem Verif.Spec.GradMem Verif.Lemmas.GradMem Verif.Spec.GradRef
open Verif.Spec.Grad (current CallsOK SamePattern)
open Verif.Spec.Factor (ent)
open Finset

section
variable {R : Type} [Field R] [DecidableEq R] [LT R] [DecidableRel (fun x y : R => x < y)] {sqrt : R → R} {eps tol : R}
  {n N NP : Nat} {d : Patterns} {s : St R}

theorem calls_snoc (dx : List R) (ops : List (Op R)) (c : Call R) :
    calls n dx (ops ++ [.grad c]) = calls n dx ops ++ [callOf c (incoming n dx ops)] := by
  induction ops generalizing dx with
  | nil => rfl
  | cons op ops ih =>
    cases op with
    | delta k v => exact ih _
    | grad c' => exact congrArg (callOf c' dx :: ·) (ih _)

theorem current_calls (P A : Csc R) (dx : List R) (ops : List (Op R)) :
    current (csc P) (csc A) ((calls n dx ops).map Verif.Model.Grad.Call.f) = (csc (latest P A ops).1, csc (latest P A ops).2) := by
  induction ops generalizing dx P A with
  | nil => rfl
  | cons op ops ih =>
    cases op with
    | delta k v => exact ih _ _ _
    | grad c =>
      have := ih (if c.outP then c.P else P) (if c.outA then c.A else A) (List.replicate n 0)
      unfold latest
      rw [← this]
      rw [show calls n dx (.grad c :: ops) = callOf c dx :: calls n (List.replicate n 0) ops from rfl]
      unfold current
      rw [List.map_cons, List.foldl_cons]
      congr 1
      unfold callOf
      cases c.outP <;> cases c.outA <;> rfl

theorem mem_calls {dx : List R} {ops : List (Op R)} {k : Verif.Model.Grad.Call R} (h : k ∈ calls n dx ops) :
    ∃ c dx', Op.grad c ∈ ops ∧ k = callOf c dx' := by
  induction ops generalizing dx with
  | nil => cases h
  | cons op ops ih =>
    cases op with
    | delta j v =>
      obtain ⟨c, dx', h1, h2⟩ := ih h
      exact ⟨c, dx', List.mem_cons_of_mem _ h1, h2⟩
    | grad c =>
      rcases List.mem_cons.1 h with h | h
      · exact ⟨c, dx, List.mem_cons_self, h⟩
      · obtain ⟨c, dx', h1, h2⟩ := ih h
        exact ⟨c, dx', List.mem_cons_of_mem _ h1, h2⟩

theorem run_last {Q : Qdldl R} {M : Maps R} {P A : Csc R} (hQ : QdldlOK N d Q) (hS : SolveOK N Q.solve) (hp : Problem n N d)
    (hM : MapsOK n N NP d M) (hK : ix d.pK N = d.iK.length) (eP : P.p = d.pP) (eiP : P.i = d.iP) (eA : A.p = d.pA) (eiA : A.i = d.iA)
    (ops : List (Op R)) (c : Call R) (ho : ∀ op ∈ ops ++ [.grad c], OpOK n N d op) (h : Between n N NP d s) :
    Ok (fun t => workspace t = Verif.Model.Grad.runGrad (factorOf N Q.factor) sqrt eps tol n N (csc P) (csc A)
        (workspace s) (calls n s.dx (ops ++ [.grad c])) ∧ t.dx = List.replicate n 0 ∧ arr t.dp = userGrad M (workspace t).g)
      (run (exact sqrt eps tol) Q n N NP M s (ops ++ [.grad c])) := by
  obtain ⟨t, ht, -, hw⟩ := run_ref (sqrt := sqrt) (eps := eps) (tol := tol) hQ hS hp hM hK eP eiP eA eiA (ops ++ [.grad c]) s ho h
  obtain ⟨t0, ht0, hb, -⟩ := run_ref (sqrt := sqrt) (eps := eps) (tol := tol) hQ hS hp hM hK eP eiP eA eiA ops s
    (fun op hop => ho op (List.mem_append_left _ hop)) h
  refine ⟨t, ht, hw, ?_⟩
  obtain ⟨t', ht', -, -, -, h1, h2⟩ := gradient_ref (sqrt := sqrt) (eps := eps) (tol := tol) hQ hS hp hM hK eP eiP eA eiA
    (ho (.grad c) (List.mem_append_right _ List.mem_cons_self)) hb
  have e : run (exact sqrt eps tol) Q n N NP M s (ops ++ [.grad c]) = .ok t' := by
    unfold run at ht0 ⊢
    rw [List.foldlM_append, ht0]
    show (gradient (exact sqrt eps tol) Q n N NP M c t0 >>= fun t => .ok t) = .ok t'
    rw [ht']
    rfl
  rw [e] at ht
  cases ht
  exact ⟨h1, h2⟩

/-! ### the generated workspace -/

variable {P A : Csc R} {pL iL : List Nat} {Q : Qdldl R} {M : Maps R}

theorem start_between (hg : Generated (exact sqrt eps tol) n N NP P A pL iL Q M) :
    Between n N NP (patternsOf (exact sqrt eps tol) n N P A pL iL) (start (exact sqrt eps tol) n N NP P A) :=
  ⟨Verif.Props.C91_sizes _ n N NP P A pL iL hg.lenP hg.lenA, fun h => by cases h⟩

theorem start_last (hg : Generated (exact sqrt eps tol) n N NP P A pL iL Q M) (ops : List (Op R)) (c : Call R)
    (ho : ∀ op ∈ ops ++ [.grad c], OpOK n N (patternsOf (exact sqrt eps tol) n N P A pL iL) op) :
    ∃ t W delta g, run (exact sqrt eps tol) Q n N NP M (start (exact sqrt eps tol) n N NP P A) (ops ++ [.grad c]) = .ok t ∧
      workspace t = Verif.Model.Grad.runGrad (factorOf N Q.factor) sqrt eps tol n N (csc P) (csc A)
        (Verif.Model.Grad.genState eps n N (csc P) (csc A) W delta g) (calls n (List.replicate n 0) (ops ++ [.grad c])) ∧
      t.dx = List.replicate n 0 ∧ arr t.dp = userGrad M (workspace t).g := by
  obtain ⟨t, h1, h2, h3⟩ := run_last hg.lib hg.solve (Verif.Props.C91_generated _ n N P A pL iL hg.nN hg.patP hg.patA hg.sym) hg.maps
    (compress_last _) rfl rfl rfl rfl ops c ho (start_between hg)
  refine ⟨t, ws (start (exact sqrt eps tol) n N NP P A), (workspace (start (exact sqrt eps tol) n N NP P A)).delta,
    (workspace (start (exact sqrt eps tol) n N NP P A)).g, h1, ?_, h3⟩
  rw [h2]
  have := generated_eq (sqrt := sqrt) (eps := eps) (tol := tol) (n := n) (N := N) (NP := NP) P A
  rw [show workspace (start (exact sqrt eps tol) n N NP P A) = _ from this]
  rfl

theorem same_pattern {M M' : Csc R} (h : HasPat M.p M.i M') : SamePattern (csc M) (csc M') :=
  ⟨congrArg arr h.p, congrArg arr h.i⟩

/-! ### user parameters -/

theorem transposed_dot {b : Block R} {m : Nat} (hb : b.changes = true → BlockOK m NP b) (g th : Nat → R) :
    ∑ c ∈ range NP, transposed b g c * th c = ∑ j ∈ range m, g j * move b th j := by
  by_cases hc : b.changes = true
  · have hB := hb hc
    have hr : ∑ j ∈ range m, g j * move b th j = ∑ j ∈ range b.rows, g j * move b th j := by
      refine (sum_subset (range_subset_range.2 hB.rows) fun j _ h2 => ?_).symm
      unfold move
      rw [if_neg (fun h => h2 (mem_range.2 h.2)), mul_zero]
    rw [hr]
    unfold transposed
    simp only [if_pos hc, sum_mul]
    rw [sum_comm]
    refine sum_congr rfl fun j hj => ?_
    have hj := mem_range.1 hj
    unfold move
    rw [if_pos ⟨hc, hj⟩, sum_comm, mul_sum]
    refine sum_congr rfl fun k hk => ?_
    have hk := mem_Ico.1 hk
    have mono : ∀ m, m ≤ b.rows → ∀ c ≤ m, ix b.map.p c ≤ ix b.map.p m := by
      intro m
      induction m with
      | zero => intro _ c h; rw [Nat.le_zero.1 h]
      | succ m ih =>
        intro h c hc
        rcases Nat.lt_or_ge c (m + 1) with h1 | h1
        · exact le_trans (ih (by omega) c (by omega)) (hB.lines.mono m (by omega))
        · rw [show c = m + 1 by omega]
    have h1 : arr b.map.p (j + 1) ≤ ix b.map.p b.rows := mono b.rows (le_refl _) (j + 1) hj
    have h2 : arr b.map.i k < NP := hB.lines.below k (by have := hB.lines.last; omega)
    simp only [ite_mul, zero_mul]
    rw [sum_ite_eq, if_pos (mem_range.2 h2)]
    ring
  · unfold transposed move
    simp only [if_neg hc, zero_mul]
    rw [sum_const_zero]
    refine (sum_eq_zero fun j _ => ?_).symm
    rw [if_neg (fun h => hc h.1), mul_zero]

theorem user_dot (hM : MapsOK n N NP d M) (g : Verif.Model.Grad.DCanon R) (th : Nat → R) :
    ∑ c ∈ range NP, userGrad M g c * th c =
      ∑ i ∈ range n, g.dq i * move M.q th i + ∑ k ∈ range d.iP.length, g.dP k * move M.P th k +
      ∑ k ∈ range d.iA.length, g.dA k * move M.A th k +
      ∑ k ∈ range (N - n), g.dl k * move M.l th k + ∑ k ∈ range (N - n), g.du k * move M.u th k := by
  rw [← transposed_dot hM.q, ← transposed_dot hM.l, ← transposed_dot hM.u, ← transposed_dot hM.P, ← transposed_dot hM.A]
  unfold userGrad
  simp only [add_mul, sum_add_distrib]
  ring

theorem lines_sum {n b : Nat} {p i : List Nat} (h : Lines n b p i) (h0 : ix p 0 = 0) (f : Nat → R) (m : Nat) (hm : m ≤ n) :
    ∑ j ∈ range m, ∑ k ∈ Ico (ix p j) (ix p (j + 1)), f k = ∑ k ∈ range (ix p m), f k := by
  induction m with
  | zero => rw [h0]; rfl
  | succ m ih =>
    have := h.mono m (by omega)
    rw [sum_range_succ, ih (by omega), range_eq_Ico, range_eq_Ico, sum_Ico_consecutive _ (Nat.zero_le _) this]

theorem stored_dot {b : Nat} {M : Csc R} (h : Lines n b M.p M.i) (hw : Whole n M) (bl : Block R) (g th : Nat → R) :
    Verif.Spec.Grad.storedDot n g (moveM M bl th) = ∑ k ∈ range M.i.length, g k * move bl th k := by
  rw [← hw.2, ← lines_sum h hw.1 _ n (le_refl _)]
  rfl

theorem slot_of {n b : Nat} {p i : List Nat} (h : Lines n b p i) (h0 : ix p 0 = 0) (m : Nat) (hm : m ≤ n) {k : Nat} (hk : k < ix p m) :
    ∃ j < n, ix p j ≤ k ∧ k < ix p (j + 1) := by
  induction m with
  | zero => omega
  | succ m ih =>
    by_cases h1 : k < ix p m
    · exact ih (by omega) h1
    · exact ⟨m, by omega, by omega, hk⟩

end

section
variable {R : Type} [Field R] [DecidableEq R] [LinearOrder R] {sqrt : R → R} {eps tol : R} {n N NP : Nat} {P A : Csc R} {pL iL : List Nat}

theorem calls_ok (F : Flops R) {ops : List (Op R)} (ho : ∀ op ∈ ops, OpOK n N (patternsOf F n N P A pL iL) op) (hc : Convex n ops)
    (dx : List R) : CallsOK n (csc P) (csc A) (calls n dx ops) := by
  intro k hk
  obtain ⟨c, dx', h1, rfl⟩ := mem_calls hk
  obtain ⟨hP, hA, -, -⟩ := ho _ h1
  have e1 : ∀ P', (callOf c dx').f.P = some P' → c.outP = true ∧ P' = csc c.P := by
    intro P' h
    unfold callOf at h
    by_cases ho : c.outP = true
    · rw [if_pos ho, Option.some.injEq] at h
      exact ⟨ho, h.symm⟩
    · rw [if_neg ho] at h
      cases h
  have e2 : ∀ A', (callOf c dx').f.A = some A' → A' = csc c.A := by
    intro A' h
    unfold callOf at h
    by_cases ho : c.outA = true
    · rw [if_pos ho, Option.some.injEq] at h
      exact h.symm
    · rw [if_neg ho] at h
      cases h
  refine ⟨⟨fun P' h => ?_, fun A' h => ?_⟩, fun P' h => ?_⟩
  · rw [(e1 P' h).2]; exact same_pattern hP
  · rw [e2 A' h]; exact same_pattern hA
  · rw [(e1 P' h).2]; exact hc c h1 (e1 P' h).1

end

end Verif.Lemmas.GradRef
