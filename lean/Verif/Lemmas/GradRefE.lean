import Verif.Lemmas.GradRefD
/-!
Lemmas for C94: start of a call, active set.
-/
namespace Verif.Lemmas.GradRef
open Verif.Model.GradMem Verif.Spec.GradMem Verif.Lemmas.GradMem Verif.Spec.GradRef
open Verif.Model.Factor (upd loop)

variable {R : Type} [Field R] [DecidableEq R] [LT R] [DecidableRel (fun x y : R => x < y)] {sqrt : R → R} {eps tol : R}
  {n N NP : Nat} {d : Patterns} {s : St R}

theorem refresh_wp (hp : Problem n N d) {c : Call R} (hP : HasPat d.pP d.iP c.P) (hA : HasPat d.pA d.iA c.A) (h : Sizes n N NP d s)
    {Q : St R → Prop} (f : St R → Mem (St R))
    (hf : ∀ K Kt, Sizes n N NP d (setK s K Kt) → (⟨csc K, csc Kt⟩ : Verif.Model.Grad.Kkt R) =
      Verif.Model.Grad.refreshKkt eps n (callOf c s.dx).f ⟨csc s.K, csc s.Kt⟩ → Wp Q (f (setK s K Kt))) :
    Wp Q (do
      let s ← refreshP (exact sqrt eps tol) n c s
      let s ← refreshA n c s
      f s) := by
  refine Wp.bind (P := fun t => Sizes n N NP d t ∧ ∃ K Kt, t = setK s K Kt ∧ (⟨csc K, csc Kt⟩ : Verif.Model.Grad.Kkt R) =
    match (callOf c s.dx).f.P with
    | some P => Verif.Model.Grad.pToK eps n P ⟨csc s.K, csc s.Kt⟩
    | none => ⟨csc s.K, csc s.Kt⟩) ?_ ?_
  · unfold refreshP callOf
    simp only
    by_cases ho : c.outP = true
    · rw [if_pos ho, if_pos ho]
      exact ((pToK_ok hp hP h).and (pToK_wp c.P s)).wp.mono fun t ht => ⟨ht.1.sz, ht.2⟩
    · rw [if_neg ho, if_neg ho]
      exact Wp.pure ⟨h, s.K, s.Kt, rfl, rfl⟩
  rintro _ ⟨hs, K, Kt, rfl, hk⟩
  refine Wp.bind (P := fun t => Sizes n N NP d t ∧ ∃ K' Kt', t = setK s K' Kt' ∧ (⟨csc K', csc Kt'⟩ : Verif.Model.Grad.Kkt R) =
    match (callOf c s.dx).f.A with
    | some A => Verif.Model.Grad.aToK n A ⟨csc K, csc Kt⟩
    | none => ⟨csc K, csc Kt⟩) ?_ ?_
  · unfold refreshA callOf
    simp only
    by_cases ho : c.outA = true
    · rw [if_pos ho, if_pos ho]
      exact ((aToK_ok hp hA hs).and (aToK_wp c.A _)).wp.mono fun t ht => ⟨ht.1.sz, ht.2⟩
    · rw [if_neg ho, if_neg ho]
      exact Wp.pure ⟨hs, K, Kt, rfl, rfl⟩
  rintro _ ⟨hs', K', Kt', rfl, hk'⟩
  refine hf K' Kt' hs' ?_
  rw [hk', hk]
  rfl

theorem prologue_ref {Q : Qdldl R} (hQ : QdldlOK N d Q) (hp : Problem n N d) (hK : ix d.pK N = d.iK.length) {c : Call R}
    (hP : HasPat d.pP d.iP c.P) (hA : HasPat d.pA d.iA c.A) (h : Between n N NP d s) :
    Ok (fun t => (Inv n N NP d t ∧ t.init = false) ∧ workspace t =
      Verif.Model.Grad.prologue (factorOf N Q.factor) eps n N (callOf c s.dx).f (workspace s) ∧ t.dx = s.dx)
      (prologue (exact sqrt eps tol) Q.factor n N c s) := by
  refine (prologue_ok hQ hp hP hA h).and ?_
  unfold prologue
  refine refresh_wp hp hP hA h.1 _ fun K Kt hs hk => ?_
  unfold Verif.Model.Grad.prologue
  have hk' : Verif.Model.Grad.refreshKkt eps n (callOf c s.dx).f (workspace s).kkt = ⟨csc K, csc Kt⟩ := hk.symm
  rw [hk']
  by_cases hi : s.init = true
  · rw [if_pos (show (setK s K Kt).init = true from hi)]
    simp only
    rw [if_pos (show (workspace s).init = true from hi)]
    have hs' : Sizes n N NP d (symbolic Q.factor (setK s K Kt)) := { hs with }
    have hn' : (symbolic Q.factor (setK s K Kt)).L.nnz = d.iL.length := by
      show (Q.factor K).i.length = _
      rw [hQ.i K hs.K]
    refine ((numeric_ok hQ hp hs' hn').and (numeric_wp hQ hp hK hs' hn')).wp.bind ?_
    rintro _ ⟨⟨hI, -⟩, ⟨L, D, Dinv, rfl, -⟩, hw⟩
    refine (writeMask_wp hp hI).bind ?_
    rintro _ ⟨mk, rfl, hm⟩
    refine Wp.pure ⟨?_, rfl⟩
    have hw' : ws { symbolic Q.factor (setK s K Kt) with L := L, D := D, Dinv := Dinv } =
      Verif.Model.Grad.numeric (factorOf N Q.factor) (csc K) (ws s) := hw
    rw [hw'] at hm
    have e : ws { symbolic Q.factor (setK s K Kt) with L := L, D := D, Dinv := Dinv, mask := mk } =
        { ws { symbolic Q.factor (setK s K Kt) with L := L, D := D, Dinv := Dinv } with
          S := (ws { symbolic Q.factor (setK s K Kt) with L := L, D := D, Dinv := Dinv, mask := mk }).S } := rfl
    rw [hw', hm] at e
    unfold workspace
    simp only
    congr 1
  · rw [if_neg (show ¬ (setK s K Kt).init = true from hi)]
    simp only
    rw [if_neg (show ¬ (workspace s).init = true from hi)]
    have hI := h.2 (by simpa using hi)
    have hb : ((callOf c s.dx).f.P.isSome || (callOf c s.dx).f.A.isSome) = (c.outP || c.outA) := by
      unfold callOf
      cases c.outP <;> cases c.outA <;> rfl
    rw [hb]
    by_cases ho : (c.outP || c.outA) = true
    · rw [if_pos ho, if_pos ho]
      refine (numeric_wp hQ hp hK hs hI.nnz).bind ?_
      rintro _ ⟨⟨L, D, Dinv, rfl, -⟩, hw⟩
      refine (fillF _ 0 (N - n) 1 _).bind fun a ha => Wp.pure ⟨?_, rfl⟩
      have hw' : ws { setK s K Kt with L := L, D := D, Dinv := Dinv } =
        Verif.Model.Grad.numeric (factorOf N Q.factor) (csc K) (ws s) := hw
      unfold workspace
      simp only
      congr 1
    · rw [if_neg ho, if_neg ho]
      exact Wp.pure ⟨rfl, rfl⟩

theorem activeStep_ref (hp : Problem n N d) {y : List R} (hy : y.length = N - n) {i : Nat} (hi : i < N - n)
    (h : Inv n N NP d s) :
    Ok (fun t => Inv n N NP d t ∧ (workspace t = { workspace s with
        W := (Verif.Model.Factor.activeStep sqrt tol n N (csc s.K) (arr y) ⟨ws s, flags s.a⟩ i).W
        a := (Verif.Model.Factor.activeStep sqrt tol n N (csc s.K) (arr y) ⟨ws s, flags s.a⟩ i).a } ∧ t.dx = s.dx ∧ t.init = s.init))
      (activeStep (exact sqrt eps tol) n N y s i) := by
  refine (activeStep_ok finite_exact hp hy hi h).and ?_
  unfold activeStep Verif.Model.Factor.activeStep
  refine (rdA _ y i).bind fun yi hyi => ?_
  refine (rdF _ s.a i).bind fun ai hai => ?_
  rw [← hyi]
  simp only
  rw [← hai]
  have add : ∀ v : Int, Wp (fun t => workspace t = { workspace s with
      W := Verif.Model.Factor.ldlAdd sqrt N (csc s.K) (n + i) (ws s), a := upd (flags s.a) i v } ∧ t.dx = s.dx ∧ t.init = s.init)
      (do let t ← ldlAdd (exact sqrt eps tol) N (n + i) s
          let a ← wr .a t.a i v
          (.ok { t with a := a } : Mem (St R))) := by
    intro v
    refine (ldlAdd_ref hp h (index := n + i) (by omega) (by omega)).wp.bind ?_
    rintro _ ⟨-, ⟨c, l, li, lx, w, wi, x, D, Dinv, rfl⟩, hw⟩
    refine (wrF _ _ i v).bind fun a ha => Wp.pure ⟨?_, rfl, rfl⟩
    rw [← hw]
    unfold workspace
    simp only
    congr 1
  have del : Wp (fun t => workspace t = { workspace s with
      W := Verif.Model.Factor.ldlDelete sqrt N (n + i) (ws s), a := upd (flags s.a) i 0 } ∧ t.dx = s.dx ∧ t.init = s.init)
      (do let t ← ldlDelete (exact sqrt eps tol) N (n + i) s
          let a ← wr .a t.a i 0
          (.ok { t with a := a } : Mem (St R))) := by
    refine (ldlDelete_ref hp h (index := n + i) (by omega)).wp.bind ?_
    rintro _ ⟨-, ⟨w, wi, x, mk, D, Dinv, rfl⟩, hw⟩
    refine (wrF _ _ i 0).bind fun a ha => Wp.pure ⟨?_, rfl, rfl⟩
    rw [← hw]
    unfold workspace
    simp only
    congr 1
  by_cases h1 : yi < -tol
  · have e1 : (exact sqrt eps tol).low yi = true := decide_eq_true h1
    rw [if_pos e1]
    simp only [if_pos h1]
    by_cases h2 : ai = 0
    · rw [if_pos h2]
      simp only [if_pos h2]
      exact add (-1)
    · rw [if_neg h2]
      simp only [if_neg h2]
      exact Wp.pure ⟨rfl, rfl, rfl⟩
  · have e1 : ¬ (exact sqrt eps tol).low yi = true := fun h => h1 (of_decide_eq_true h)
    rw [if_neg e1]
    simp only [if_neg h1]
    by_cases h2 : tol < yi
    · have e2 : (exact sqrt eps tol).high yi = true := decide_eq_true h2
      rw [if_pos e2]
      simp only [if_pos h2]
      by_cases h3 : ai = 0
      · rw [if_pos h3]
        simp only [if_pos h3]
        exact add 1
      · rw [if_neg h3]
        simp only [if_neg h3]
        exact Wp.pure ⟨rfl, rfl, rfl⟩
    · have e2 : ¬ (exact sqrt eps tol).high yi = true := fun h => h2 (of_decide_eq_true h)
      rw [if_neg e2]
      simp only [if_neg h2]
      by_cases h3 : ai ≠ 0
      · rw [if_pos h3]
        simp only [if_pos h3]
        exact del
      · rw [if_neg h3]
        simp only [if_neg h3]
        exact Wp.pure ⟨rfl, rfl, rfl⟩

theorem active_ref (hp : Problem n N d) {y : List R} (hy : y.length = N - n) (h : Inv n N NP d s) :
    Wp (fun t => Inv n N NP d t ∧ workspace t = { workspace s with
        W := (Verif.Model.Factor.activeUpdate sqrt tol n N (csc s.K) (arr y) ⟨ws s, flags s.a⟩).W
        a := (Verif.Model.Factor.activeUpdate sqrt tol n N (csc s.K) (arr y) ⟨ws s, flags s.a⟩).a } ∧ t.dx = s.dx ∧ t.init = s.init)
      (each 0 (N - n) s (activeStep (exact sqrt eps tol) n N y)) := by
  refine each_wp (fun (t : St R) (q : Verif.Model.Factor.GradSt R) => Inv n N NP d t ∧
    workspace t = { workspace s with W := q.W, a := q.a } ∧ t.dx = s.dx ∧ t.init = s.init)
    (g := Verif.Model.Factor.activeStep sqrt tol n N (csc s.K) (arr y)) 0 (N - n) ⟨h, rfl, rfl, rfl⟩ ?_
  rintro i - hi t ⟨W, a⟩ ⟨hI, hw, hdx, hin⟩
  refine (activeStep_ref hp hy hi hI).wp.mono ?_
  rintro u ⟨hu, hw', hdx', hin'⟩
  refine ⟨hu, ?_, hdx'.trans hdx, hin'.trans hin⟩
  have e1 : csc t.K = csc s.K := congrArg (fun g : Verif.Model.Grad.GradWs R => g.kkt.K) hw
  have e2 : ws t = W := congrArg (fun g : Verif.Model.Grad.GradWs R => g.W) hw
  have e3 : flags t.a = a := congrArg (fun g : Verif.Model.Grad.GradWs R => g.a) hw
  rw [hw', hw, e1, e2, e3]

end Verif.Lemmas.GradRef
