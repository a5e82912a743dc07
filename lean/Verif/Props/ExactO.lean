import Verif.Props.Kkt
import Verif.Props.GradHist
/-!
# C33, C28: exactly when the KKT matrices follow the data, and when gradients are exact
-/
namespace Verif.Props
open Verif.Model.Factor Verif.Model.Grad Verif.Spec.Factor Verif.Spec.Grad Verif.Lemmas.Factor
  Verif.Lemmas.Grad Finset

variable {R : Type} [Field R] [DecidableEq R]

/-- An entry that vanishes in `P + eps I` at generation time has no place in `K` after any refresh of `P`. -/
theorem kkt_no_place {eps : R} {n N : Nat} {P A : CscL R} (hD : QpData n N P A) {r c : Nat} (hc : c < n)
    (h0 : ent P r c + (if r = c then eps else 0) = 0) (P' : CscL R) (s : Kkt R) (hs : s.K = kInit eps n N P A) :
    ent (pToK eps n P' s).K r c = 0 := by
  have hpat : SamePat s.K (pToK eps n P' s).K := by
    rw [pToK_eq]
    simp only
    generalize (pairs n P').map _ = ws
    generalize s.K = K
    induction ws generalizing K with
    | nil => exact SamePat.refl _
    | cons w ws ih => exact (setEntry_samePat _ _ _ _).trans (ih _)
  apply ent_free
  rw [hpat.occ, hs]
  unfold kInit
  rw [compress_occ _ (Nat.lt_of_lt_of_le hc hD.nN)]
  rintro ⟨v, hv⟩
  rw [if_pos hc] at hv
  obtain ⟨a1, a2, a3⟩ := mem_plusDiag.1 hv
  simp only at a1 a2 a3
  rw [h0] at a3
  exact a2 a3

/-- **C33, exactly.** The KKT matrices are those of the current data after every sequence of refreshes exactly if no stored entry of `P + eps I`
vanishes at generation time. -/
theorem C33_iff {eps : R} {n N : Nat} {P A : CscL R} (hD : QpData n N P A) :
    (∀ fs : List (Refresh R), (∀ f ∈ fs, Refresh.OK P A f) →
      IsKkt eps n N (ent (current P A fs).1) (ent (current P A fs).2)
        (fs.foldl (fun s f => refreshKkt eps n f s) ⟨kInit eps n N P A, ktInit n N P A⟩).K
        (fs.foldl (fun s f => refreshKkt eps n f s) ⟨kInit eps n N P A, ktInit n N P A⟩).Kt) ↔
    ∀ r, ∀ c < n, Occupied P r c → ent P r c + (if r = c then eps else 0) ≠ 0 := by
  refine ⟨fun h r c hc ho h0 => ?_, fun hz fs hf => C33_history hD hz fs hf⟩
  have hr : r < n := hD.Prow r c hc ho
  let P' : CscL R := { P with x := fun _ => 1 - (if r = c then eps else 0) }
  have hS : SamePattern P P' := ⟨rfl, rfl⟩
  have hk := (h [⟨some P', none⟩] (by
    intro f hf
    rw [List.mem_singleton] at hf
    subst hf
    exact ⟨fun Q e => by cases e; exact hS, fun _ e => by cases e⟩)).reg r (Nat.lt_of_lt_of_le hr hD.nN) c (Nat.lt_of_lt_of_le hc hD.nN)
  have hl := kkt_no_place hD hc h0 P' ⟨kInit eps n N P A, ktInit n N P A⟩ rfl
  have he : ent P' r c = 1 - (if r = c then eps else 0) := by
    obtain ⟨k, h1, h2, h3⟩ := (occupied_iff _ _ _).1 ho
    have e : ent P' (P.i k) c = 1 - (if r = c then eps else 0) := ColValid.ent (SamePattern.col hS hD.vP) hc (k := k) h1 h2
    rwa [h3] at e
  have hk' : ent (pToK eps n P' ⟨kInit eps n N P A, ktInit n N P A⟩).K r c = if n ≤ r ∧ c < n then 0 else kkt eps n (ent P') (ent A) r c := hk
  rw [hl, if_neg (by omega)] at hk'
  unfold kkt at hk'
  rw [if_pos hr, if_pos hc, he] at hk'
  exact one_ne_zero (α := R) (by rw [hk']; ring)

/-- `P` with entries at (0, 0) and (0, 1), the second a stored zero. -/
def exP0 : CscL ℚ := { p := fun c => c, i := fun _ => 0, x := fun k => if k = 0 then 1 else 0, nnz := 2 }

theorem exP0_data : QpData 2 3 exP0 exA := by
  refine ⟨by decide, ⟨fun c _ => Nat.le_succ c, ?_⟩, ex_data.vA, ?_, ex_data.Arow⟩
  · intro c _ k k' h1 h2 h3
    have h3 : k' < c + 1 := h3
    have h1 : c ≤ k := h1
    omega
  · rintro r c hc ⟨v, k, h1, h2, h3, _⟩
    have h3 : 0 = r := h3
    omega

/-- With a stored zero beside the diagonal, some refresh is not followed. -/
example : ¬ ∀ fs : List (Refresh ℚ), (∀ f ∈ fs, Refresh.OK exP0 exA f) →
      IsKkt (1 / 1000000) 2 3 (ent (current exP0 exA fs).1) (ent (current exP0 exA fs).2)
        (fs.foldl (fun s f => refreshKkt (1 / 1000000) 2 f s) ⟨kInit (1 / 1000000) 2 3 exP0 exA, ktInit 2 3 exP0 exA⟩).K
        (fs.foldl (fun s f => refreshKkt (1 / 1000000) 2 f s) ⟨kInit (1 / 1000000) 2 3 exP0 exA, ktInit 2 3 exP0 exA⟩).Kt := by
  rw [C33_iff exP0_data]
  intro h
  have ho : Occupied exP0 0 1 := (occupied_iff _ _ _).2 ⟨1, Nat.le_refl 1, Nat.lt_succ_self 1, rfl⟩
  refine h 0 1 (by decide) ho ?_
  have e : ent exP0 0 1 = 0 := ColValid.ent exP0_data.vP (c := 1) (k := 1) (by decide) (Nat.le_refl 1) (Nat.lt_succ_self 1)
  rw [e, if_neg (by decide), add_zero]

section
variable {R : Type} [Field R] [DecidableEq R] [LinearOrder R] [IsStrictOrderedRing R]

/-- **C28, exactly.** For every history of calls and every perturbation, the computed gradients give the change of the solution exactly if the
last correction of iterative refinement is orthogonal to the change of the solution, with the sign of the active multipliers reversed. The
hypotheses are those of `C28_adjoint`, which are met by the example at the end of `Props/GradSign.lean`, and `eps ≠ 0`. -/
theorem C28_iff {eps tol : R} (he : eps ≠ 0) {n N : Nat} {P A : CscL R} {qdldl : CscL R → Fac R} {sqrt : R → R}
    (hq : QdldlOK n N qdldl) (hsqrt : ∀ x, 0 < x → sqrt x * sqrt x = x) (h : GradSetup eps n N P A)
    (W : Ws R) (delta : Nat → R) (g : DCanon R) (cs : List (Call R)) (c : Call R)
    (hcs : CallsOK n P A (cs ++ [c]))
    (hsym : ∀ r < n, ∀ t < n, ent (current P A ((cs ++ [c]).map Call.f)).1 r t =
      ent (current P A ((cs ++ [c]).map Call.f)).1 t r)
    (dP dA : CscL R) (hdP : SamePattern P dP) (hdA : SamePattern A dA)
    (hdPs : ∀ r < n, ∀ t < n, ent dP r t = ent dP t r)
    (dq dl du x' y' : Nat → R) (eqRow : Nat → Prop)
    (heq : ∀ k < N - n, eqRow k → dl k = du k)
    (hineq : ∀ k < N - n, ¬ eqRow k → ∀ c' ∈ cs ++ [c], -tol ≤ c'.y k)
    (hlin : Linearised n (N - n) (ent (current P A ((cs ++ [c]).map Call.f)).1)
      (ent (current P A ((cs ++ [c]).map Call.f)).2) (ent dP) (ent dA) (Active tol c.y) dq du c.x c.y x' y') :
    let s := runGrad qdldl sqrt eps tol n N P A (genState eps n N P A W delta g) (cs ++ [c])
    ∑ i ∈ range n, c.dx i * x' i =
      ∑ i ∈ range n, s.g.dq i * dq i + storedDot n s.g.dP dP + storedDot n s.g.dA dA +
      ∑ k ∈ range (N - n), s.g.dl k * dl k + ∑ k ∈ range (N - n), s.g.du k * du k ↔
    ∑ i ∈ range n, s.delta i * x' i = ∑ k ∈ range (N - n), if Active tol c.y k then s.delta (n + k) * y' k else 0 := by
  have key := C28_adjoint (tol := tol) hq hsqrt h W delta g cs c hcs hsym dP dA hdP hdA hdPs dq dl du x' y' eqRow heq hineq hlin
  simp only at key ⊢
  rw [key, add_eq_left, mul_eq_zero, sub_eq_zero]
  exact ⟨fun h => h.resolve_left he, Or.inr⟩

end

end Verif.Props
