import Verif.Lemmas.KktHist
import Mathlib.Algebra.Order.Ring.Rat
import Mathlib.Tactic.NormNum
/-!
C33: the KKT matrices used for differentiation follow the data.
-/
namespace Verif.Props
open Verif.Model.Factor Verif.Model.Grad Verif.Spec.Factor Verif.Spec.Grad Verif.Lemmas.Factor
  Verif.Lemmas.Grad Finset

variable {R : Type} [Field R] [DecidableEq R]

/-- The matrices written into the generated workspace are the KKT matrices of the generation-time
data. -/
theorem C33_initial (eps : R) {n N : Nat} {P A : CscL R} (h : QpData n N P A) :
    IsKkt eps n N (ent P) (ent A) (kInit eps n N P A) (ktInit n N P A) :=
  init_isKkt eps h

/-- Starting from the generated workspace, after any sequence of refreshes of `P` and `A` the KKT
matrices are those of the current data: `P` with regularized diagonal, `A` in all blocks, nothing
else.  The only condition is that no stored entry of `P + eps I` vanishes at generation time. -/
theorem C33_history {eps : R} {n N : Nat} {P A : CscL R} (hD : QpData n N P A)
    (hz : ∀ r, ∀ c < n, Occupied P r c → ent P r c + (if r = c then eps else 0) ≠ 0)
    (fs : List (Refresh R)) (hf : ∀ f ∈ fs, Refresh.OK P A f) :
    IsKkt eps n N (ent (current P A fs).1) (ent (current P A fs).2)
      (fs.foldl (fun s f => refreshKkt eps n f s) ⟨kInit eps n N P A, ktInit n N P A⟩).K
      (fs.foldl (fun s f => refreshKkt eps n f s) ⟨kInit eps n N P A, ktInit n N P A⟩).Kt := by
  have key : ∀ (fs : List (Refresh R)) (P' A' : CscL R) (s : Kkt R), SamePattern P P' → SamePattern A A' →
      HasSlots n N P' A' s.K s.Kt → IsKkt eps n N (ent P') (ent A') s.K s.Kt →
      (∀ f ∈ fs, Refresh.OK P A f) →
      IsKkt eps n N (ent (current P' A' fs).1) (ent (current P' A' fs).2)
        (fs.foldl (fun s f => refreshKkt eps n f s) s).K
        (fs.foldl (fun s f => refreshKkt eps n f s) s).Kt := by
    intro fs
    induction fs with
    | nil => intro P' A' s _ _ _ h _; exact h
    | cons f fs ih =>
      intro P' A' s hP hA hS h hf
      have hf0 := hf f (List.mem_cons_self ..)
      have hf1 : Refresh.OK P' A' f := ⟨fun Q hQ => SamePattern.trans' hP (hf0.1 Q hQ),
        fun Q hQ => SamePattern.trans' hA (hf0.2 Q hQ)⟩
      obtain ⟨a1, a2, a3⟩ := refresh_one hS hf1 h
      have hP1 : SamePattern P (f.P.getD P') := by
        cases hfp : f.P with
        | none => exact hP
        | some Q => exact hf0.1 Q hfp
      have hA1 : SamePattern A (f.A.getD A') := by
        cases hfa : f.A with
        | none => exact hA
        | some Q => exact hf0.2 Q hfa
      exact ih (f.P.getD P') (f.A.getD A') _ hP1 hA1
        (HasSlots.change hS (SamePattern.trans' hP hP1) (SamePattern.trans' hA hA1) a1 a2) a3
        (fun g hg => hf g (List.mem_cons_of_mem _ hg))
  exact key fs P A _ ⟨rfl, rfl⟩ ⟨rfl, rfl⟩ (init_slots hD hz) (init_isKkt eps hD) hf

/-- The condition is needed: an off-diagonal entry of `P` that is stored but zero at generation time has
no place in `K`, so whatever `P` is written later, `K` has zero there. -/
theorem C33_zero_entry_is_lost {eps : R} {n N : Nat} {P A : CscL R} (hD : QpData n N P A) {r c : Nat}
    (hc : c < n) (hrc : r ≠ c) (h0 : ent P r c = 0) (P' : CscL R) (s : Kkt R)
    (hs : s.K = kInit eps n N P A) : ent (pToK eps n P' s).K r c = 0 := by
  have hpat : SamePat s.K (pToK eps n P' s).K := by
    rw [pToK_eq]
    simp only
    generalize (pairs n P').map _ = ws
    generalize s.K = K
    induction ws generalizing K with
    | nil => exact SamePat.refl _
    | cons w ws ih => exact (setEntry_samePat _ _ _ _).trans (ih _)
  apply ent_free
  rw [hpat.occ, hs]
  unfold kInit
  rw [compress_occ _ (Nat.lt_of_lt_of_le hc hD.nN)]
  rintro ⟨v, hv⟩
  rw [if_pos hc] at hv
  obtain ⟨a1, a2, a3⟩ := mem_plusDiag.1 hv
  simp only at a1 a2 a3
  rw [h0, if_neg hrc, add_zero] at a3
  exact a2 a3

/-- `K` meets the documented requirement of QDLDL (upper triangle only, full diagonal) if `P` has no
entry below the diagonal and no vanishing regularized diagonal entry … -/
theorem C33_upper_triangular {eps : R} {n N : Nat} {P A : CscL R} (h : QpData n N P A)
    (hup : ∀ r, ∀ c < n, c < r → ent P r c = 0) (hd : ∀ c < n, ent P c c + eps ≠ 0) :
    UpperValid N (kInit eps n N P A) :=
  init_upper h hup hd

/-- … and only then; in particular a symmetric `P` that is not diagonal violates it. -/
theorem C33_not_upper_triangular {eps : R} {n N : Nat} {P A : CscL R} (h : QpData n N P A) {r c : Nat}
    (hc : c < n) (hcr : c < r) (hne : ent P r c ≠ 0) : ¬ UpperValid N (kInit eps n N P A) := by
  intro hU
  have hr : r < n := by
    by_contra hge
    exact hne (ent_free (fun ho => hge (h.Prow r c hc ho)))
  have hcN : c < N := Nat.lt_of_lt_of_le hc h.nN
  have hrN : r < N := Nat.lt_of_lt_of_le hr h.nN
  have hk := (init_isKkt eps h).reg r hrN c hcN
  rw [if_neg (by omega)] at hk
  unfold kkt at hk
  rw [if_pos hr, if_pos hc, if_neg (by omega), add_zero] at hk
  by_cases ho : Occupied (kInit eps n N P A) r c
  · obtain ⟨k, h1, h2, h3⟩ := (occupied_iff _ _ _).1 ho
    -- rows increase up to the diagonal
    have mono : ∀ d k, (kInit eps n N P A).p c ≤ k → k + d < (kInit eps n N P A).p (c + 1) →
        (kInit eps n N P A).i k ≤ (kInit eps n N P A).i (k + d) := by
      intro d
      induction d with
      | zero => intro k _ _; exact Nat.le_refl _
      | succ d ih =>
        intro k g1 g2
        have := hU.sorted c hcN (k + d) (by omega) (by omega)
        have := ih k g1 (by omega)
        rw [← Nat.add_assoc]
        omega
    have := mono ((kInit eps n N P A).p (c + 1) - 1 - k) k h1 (by omega)
    rw [show k + ((kInit eps n N P A).p (c + 1) - 1 - k) = (kInit eps n N P A).p (c + 1) - 1 by omega,
      hU.diag c hcN] at this
    omega
  · rw [ent_free ho] at hk
    exact hne hk.symm

/-- A problem with two variables and one constraint, `P = diag(1, 0)` (the zero is stored) and
`A = [1 2]`; later `P = diag(3, 4)` is written. -/
def exP : CscL ℚ := { p := fun c => c, i := fun k => k, x := fun k => if k = 0 then 1 else 0, nnz := 2 }
/-- Its constraint matrix. -/
def exA : CscL ℚ := { p := fun c => c, i := fun _ => 0, x := fun k => k + 1, nnz := 2 }
/-- New values of `P`. -/
def exP' : CscL ℚ := { exP with x := fun k => k + 3 }

theorem ex_data : QpData 2 3 exP exA := by
  refine ⟨by decide, ⟨fun c _ => Nat.le_succ c, ?_⟩, ⟨fun c _ => Nat.le_succ c, ?_⟩, ?_, ?_⟩
  · intro c _ k k' h1 h2 h3
    have h3 : k' < c + 1 := h3
    have h1 : c ≤ k := h1
    omega
  · intro c _ k k' h1 h2 h3
    have h3 : k' < c + 1 := h3
    have h1 : c ≤ k := h1
    omega
  · rintro r c hc ⟨v, k, h1, h2, h3, _⟩
    have h2 : k < c + 1 := h2
    have h3 : k = r := h3
    omega
  · rintro r c hc ⟨v, k, h1, h2, h3, _⟩
    have h3 : 0 = r := h3
    omega

/-- The hypotheses of `C33_history` are met, with a refresh that changes `P`. -/
example : (∀ r, ∀ c < 2, Occupied exP r c → ent exP r c + (if r = c then (1 / 1000000 : ℚ) else 0) ≠ 0) ∧
    ∀ f ∈ [(⟨some exP', none⟩ : Refresh ℚ)], Refresh.OK exP exA f := by
  constructor
  · rintro r c hc ⟨v, k, h1, h2, h3, _⟩
    have h1 : c ≤ k := h1
    have h2 : k < c + 1 := h2
    have h3 : k = r := h3
    obtain rfl : r = c := by omega
    rw [if_pos rfl]
    have h4 : ent exP r r = if r = 0 then 1 else 0 := by
      have := ColValid.ent ex_data.vP hc (k := r) (Nat.le_refl r) (Nat.lt_succ_self r)
      exact this
    rw [h4]
    split <;> norm_num
  · intro f hf
    rw [List.mem_singleton] at hf
    subst hf
    refine ⟨fun P' h => ?_, fun A' h => ?_⟩
    · obtain rfl := Option.some.inj h
      exact ⟨rfl, rfl⟩
    · cases h

end Verif.Props
