import Verif.Lemmas.KktInit
namespace Verif.Lemmas.Grad
open Verif.Model.Factor Verif.Model.Grad Verif.Spec.Factor Verif.Spec.Grad Verif.Lemmas.Factor Finset

variable {R : Type} [Field R] [DecidableEq R]

omit [DecidableEq R] in
theorem SamePattern.trans' {M M' M'' : CscL R} (h : SamePattern M M') (h' : SamePattern M M'') :
    SamePattern M' M'' := ⟨h'.1.trans h.1.symm, h'.2.trans h.2.symm⟩

theorem HasSlots.change {n N : Nat} {P A K Kt P' A' K' Kt' : CscL R} (h : HasSlots n N P A K Kt)
    (hP : SamePattern P P') (hA : SamePattern A A') (hK : SamePat K K') (hKt : SamePat Kt Kt') :
    HasSlots n N P' A' K' Kt' := by
  have oP := SamePattern.toSame hP
  have oA := SamePattern.toSame hA
  refine ⟨h.nN, SamePattern.col hP h.vP, SamePattern.col hA h.vA, ColValid.same h.vK hK,
    ColValid.same h.vKt hKt, ?_, ?_, ?_, ?_, ?_⟩
  · intro r c hc ho; exact h.Prow r c hc ((oP r c).1 ho)
  · intro r c hc ho; exact h.Arow r c hc ((oA r c).1 ho)
  · intro r c hc ho
    obtain ⟨a, b⟩ := h.PK r c hc ((oP r c).1 ho)
    exact ⟨(hK.occ _ _).2 a, (hKt.occ _ _).2 b⟩
  · intro c r hr ho; exact h.KtN c r hr ((hKt.occ _ _).1 ho)
  · intro r c hc ho
    obtain ⟨a, b, d⟩ := h.AK r c hc ((oA r c).1 ho)
    exact ⟨(hK.occ _ _).2 a, (hKt.occ _ _).2 b, (hKt.occ _ _).2 d⟩

theorem refresh_one {eps : R} {n N : Nat} {P A : CscL R} {s : Kkt R} {f : Refresh R}
    (hS : HasSlots n N P A s.K s.Kt) (hf : Refresh.OK P A f)
    (h : IsKkt eps n N (ent P) (ent A) s.K s.Kt) :
    SamePat s.K (refreshKkt eps n f s).K ∧ SamePat s.Kt (refreshKkt eps n f s).Kt ∧
    IsKkt eps n N (ent (f.P.getD P)) (ent (f.A.getD A)) (refreshKkt eps n f s).K
      (refreshKkt eps n f s).Kt := by
  obtain ⟨fP, fA⟩ := f
  have step1 : ∃ s1, s1 = refreshKkt eps n ⟨fP, none⟩ s ∧
      SamePat s.K s1.K ∧ SamePat s.Kt s1.Kt ∧ IsKkt eps n N (ent (fP.getD P)) (ent A) s1.K s1.Kt := by
    cases fP with
    | none => exact ⟨s, rfl, SamePat.refl _, SamePat.refl _, h⟩
    | some P' => exact ⟨_, rfl, pToK_spec hS (hf.1 P' rfl) h⟩
  obtain ⟨s1, hs1, a1, a2, a3⟩ := step1
  have hP : SamePattern P (fP.getD P) := by
    cases fP with
    | none => exact ⟨rfl, rfl⟩
    | some P' => exact hf.1 P' rfl
  have hS1 := HasSlots.change hS hP (A' := A) ⟨rfl, rfl⟩ a1 a2
  cases fA with
  | none => rw [← hs1]; exact ⟨a1, a2, a3⟩
  | some A' =>
    have hs2 : refreshKkt eps n ⟨fP, some A'⟩ s = aToK n A' s1 := by rw [hs1]; rfl
    rw [hs2]
    obtain ⟨b1, b2, b3⟩ := aToK_spec hS1 (hf.2 A' rfl) a3
    exact ⟨a1.trans b1, a2.trans b2, b3⟩

end Verif.Lemmas.Grad
