import Verif.Lemmas.GradRefG
/-!
Lemmas for C94: the generated workspace.
-/
namespace Verif.Lemmas.GradRef
open Verif.Model.GradMem Verif.Spec.GradMem Verif.Lemmas.GradMem Verif.Spec.GradRef
open Verif.Model.Factor (upd loop)

variable {R : Type} [Field R] [DecidableEq R] [LT R] [DecidableRel (fun x y : R => x < y)] {sqrt : R → R} {eps tol : R}
  {n N NP : Nat} {d : Patterns} {s : St R}

theorem loop_zero (c : Nat) : loop 0 c = List.range c := by
  unfold loop
  rw [List.range_eq_range']
  rfl

theorem csc_compress (lines : Nat → List (Nat × R)) : csc (compress N lines) = Verif.Model.Grad.compress N lines := by
  unfold csc compress Verif.Model.Grad.compress
  simp only [loop_zero]
  congr 1
  · funext c
    unfold arr
    rw [List.getD_eq_getElem?_getD, List.getElem?_map]
    by_cases h : c ≤ N
    · rw [if_pos h, List.getElem?_range (by omega)]
      rfl
    · rw [if_neg h, List.getElem?_eq_none (by rw [List.length_range]; omega)]
      rfl
  · funext k
    unfold arr
    rw [List.getD_eq_getElem?_getD, List.getD_eq_getElem?_getD, List.getElem?_map]
    cases ((List.range N).flatMap lines)[k]? <;> rfl
  · funext k
    unfold arr
    rw [List.getD_eq_getElem?_getD, List.getD_eq_getElem?_getD, List.getElem?_map]
    cases ((List.range N).flatMap lines)[k]? <;> rfl

theorem lineOf_eq (M : Csc R) (c : Nat) : lineOf (exact sqrt eps tol) M c = Verif.Model.Grad.colList (csc M) c := rfl

theorem rowOf_eq (M : Csc R) (r : Nat) : rowOf (exact sqrt eps tol) n M r = Verif.Model.Grad.rowList n (csc M) r := by
  unfold rowOf Verif.Model.Grad.rowList
  rw [loop_zero]
  rfl

theorem foldl_sum (l : List R) (a : R) : l.foldl (· + ·) a = a + l.sum := by
  induction l generalizing a with
  | nil => simp
  | cons x l ih => rw [List.foldl_cons, ih, List.sum_cons, add_assoc]

theorem cellOf_eq (M : Csc R) (r c : Nat) : cellOf (exact sqrt eps tol) M r c = Verif.Model.Grad.cell (csc M) r c := by
  unfold cellOf Verif.Model.Grad.cell
  rw [lineOf_eq]
  refine (foldl_sum _ _).trans ?_
  exact zero_add _

theorem plusDiag_eq (P : Csc R) (c : Nat) : plusDiag (exact sqrt eps tol) n P c = Verif.Model.Grad.plusDiag eps n (csc P) c := by
  unfold plusDiag Verif.Model.Grad.plusDiag
  rw [loop_zero]
  congr 1
  funext r
  simp only [cellOf_eq]
  by_cases h : r = c
  · simp only [if_pos h]
    by_cases h0 : Verif.Model.Grad.cell (csc P) r c + eps = 0
    · rw [if_pos h0]
      exact if_pos (decide_eq_true h0)
    · rw [if_neg h0]
      exact if_neg fun h => h0 (of_decide_eq_true h)
  · simp only [if_neg h, add_zero]
    by_cases h0 : Verif.Model.Grad.cell (csc P) r c = 0
    · rw [if_pos h0, if_pos (show (exact sqrt eps tol).isZero (Verif.Model.Grad.cell (csc P) r c) = true from decide_eq_true h0)]
    · rw [if_neg h0, if_neg (show ¬ (exact sqrt eps tol).isZero (Verif.Model.Grad.cell (csc P) r c) = true from
        fun h => h0 (of_decide_eq_true h))]

theorem kInit_eq (P A : Csc R) : csc (kInit (exact sqrt eps tol) n N P A) = Verif.Model.Grad.kInit eps n N (csc P) (csc A) := by
  unfold kInit Verif.Model.Grad.kInit
  rw [csc_compress]
  congr 1
  funext c
  rw [plusDiag_eq, rowOf_eq]
  rfl

theorem ktInit_eq (P A : Csc R) : csc (ktInit (exact sqrt eps tol) n N P A) = Verif.Model.Grad.ktInit n N (csc P) (csc A) := by
  unfold ktInit Verif.Model.Grad.ktInit
  rw [csc_compress]
  congr 1
  funext c
  rw [rowOf_eq, rowOf_eq, lineOf_eq]

theorem flags_ones (m : Nat) : flags (List.replicate m 1) = fun _ => 1 := by
  funext k
  unfold flags
  rw [List.getD_eq_getElem?_getD, List.getElem?_replicate]
  split <;> rfl

theorem generated_eq (P A : Csc R) :
    let s := generated (exact sqrt eps tol) n N NP (kInit (exact sqrt eps tol) n N P A) (ktInit (exact sqrt eps tol) n N P A) P A
    workspace s = Verif.Model.Grad.genState eps n N (csc P) (csc A) (ws s) (workspace s).delta (workspace s).g := by
  intro s
  unfold Verif.Model.Grad.genState
  rw [← kInit_eq (sqrt := sqrt) (tol := tol), ← ktInit_eq (sqrt := sqrt) (eps := eps) (tol := tol), ← flags_ones (N - n)]
  rfl

theorem compress_last (lines : Nat → List (Nat × R)) : ix (compress N lines).p N = (compress N lines).i.length := by
  unfold ix compress
  simp only
  rw [List.getD_eq_getElem?_getD, List.getElem?_map, List.getElem?_range (by omega), List.length_map]
  rfl

theorem calls_append (dx : List R) (ops ops' : List (Op R)) : ∃ dx', calls n dx (ops ++ ops') = calls n dx ops ++ calls n dx' ops' ∧
    (dx.length = n → dx'.length = n) := by
  induction ops generalizing dx with
  | nil => exact ⟨dx, rfl, id⟩
  | cons op ops ih =>
    cases op with
    | delta k v =>
      obtain ⟨dx', h1, h2⟩ := ih (dx.set k v)
      exact ⟨dx', h1, fun h => h2 (by rw [List.length_set]; exact h)⟩
    | grad c =>
      obtain ⟨dx', h1, h2⟩ := ih (List.replicate n 0)
      exact ⟨dx', by simp only [List.cons_append, calls]; rw [h1], fun _ => h2 List.length_replicate⟩

end Verif.Lemmas.GradRef
