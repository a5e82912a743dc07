import Verif.Lemmas.GradRefC
/-!
Lemmas for C94: refresh of the KKT matrices, factorization, active set.
-/
namespace Verif.Lemmas.GradRef
open Verif.Model.GradMem Verif.Spec.GradMem Verif.Lemmas.GradMem Verif.Spec.GradRef
open Verif.Model.Factor (upd loop)

variable {R : Type} [Field R] [DecidableEq R] [LT R] [DecidableRel (fun x y : R => x < y)] {sqrt : R → R} {eps tol : R}
  {n N NP : Nat} {d : Patterns} {s : St R}

theorem rdF (a : Arr) (v : List Int) (k : Nat) : Wp (fun x => x = flags v k) (rd a v k) := (rd_wp a v k).mono fun _ h => h.2 1

theorem flags_set (v : List Int) (k : Nat) (x : Int) (hk : k < v.length) : flags (v.set k x) = upd (flags v) k x := by
  funext q
  show (v.set k x).getD q 1 = if q = k then x else v.getD q 1
  rw [List.getD_eq_getElem?_getD, List.getD_eq_getElem?_getD, List.getElem?_set]
  by_cases h : q = k
  · subst h; rw [if_pos rfl, if_pos hk, if_pos rfl]; rfl
  · rw [if_neg (Ne.symm h), if_neg h]

theorem wrF (a : Arr) (v : List Int) (k : Nat) (x : Int) : Wp (fun v' => flags v' = upd (flags v) k x) (wr a v k x) :=
  (wr_wp a v k x).mono fun _ h => by rw [h.2]; exact flags_set v k x h.1

theorem fillF (a : Arr) (lo hi : Nat) (x : Int) (v : List Int) :
    Wp (fun v' => flags v' = (loop lo hi).foldl (fun f k => upd f k x) (flags v)) (fillWith a lo hi x v) := by
  unfold fillWith
  refine each_wp (fun (v' : List Int) (f : Nat → Int) => flags v' = f) (g := fun f k => upd f k x) lo hi (t := flags v) rfl
    fun k _ _ s t h => ?_
  exact (wrF a s k x).mono fun v' hv => by rw [hv, h]

/-! ### refresh -/

theorem setFirst_wp (m : Mat) (t : Nat) (v : R) : ∀ (ks : List Nat) (M : Csc R),
    Wp (fun M' => ∃ x, M' = { M with x := x } ∧ arr x = Verif.Model.Grad.setFirst (arr M.i) t v ks (arr M.x))
      (eachBreak (fun M k => do
        let i ← rd (.i m) M.i k
        if i = t then do
          let x ← wr (.x m) M.x k v
          .ok ({ M with x := x }, true)
        else .ok (M, false)) ks M) := by
  intro ks
  induction ks with
  | nil => intro M; exact Wp.pure ⟨M.x, rfl, rfl⟩
  | cons k ks ih =>
    intro M
    unfold eachBreak Verif.Model.Grad.setFirst
    refine Wp.bind (P := fun r : Csc R × Bool => (arr M.i k = t ∧ r.2 = true ∧ ∃ x, r.1 = { M with x := x } ∧
      arr x = upd (arr M.x) k v) ∨ (¬ arr M.i k = t ∧ r.2 = false ∧ r.1 = M)) ?_ ?_
    · refine (rdA _ M.i k).bind fun i hi => ?_
      rw [← hi]
      by_cases h : i = t
      · rw [if_pos h]
        refine (wrA _ M.x k v).bind fun x hx => ?_
        exact Wp.pure (Or.inl ⟨h, rfl, x, rfl, hx.1⟩)
      · rw [if_neg h]
        exact Wp.pure (Or.inr ⟨h, rfl, rfl⟩)
    · rintro r (⟨h1, h2, h3⟩ | ⟨h1, h2, h3⟩)
      · rw [h2, if_pos h1]
        exact Wp.pure h3
      · rw [h2, if_neg h1, h3]
        exact ih M

theorem setEntry_wp (m : Mat) (line t : Nat) (v : R) (M : Csc R) :
    Wp (fun M' => csc M' = Verif.Model.Grad.setEntry (csc M) line t v) (setEntry m line t v M) := by
  unfold setEntry
  refine (rdA _ M.p line).bind fun lo hlo => ?_
  refine (rdA _ M.p (line + 1)).bind fun hi hhi => ?_
  refine (setFirst_wp m t v _ M).mono ?_
  rintro _ ⟨x, rfl, hx⟩
  show Verif.Model.Factor.CscL.mk _ _ _ _ = _
  rw [hx, hlo, hhi]
  rfl

/-- Replacing the KKT matrices. -/
def setK (s : St R) (K Kt : Csc R) : St R := { s with K := K, Kt := Kt }

theorem pToK_wp (P : Csc R) (s : St R) :
    Wp (fun t => ∃ K Kt, t = setK s K Kt ∧
      (⟨csc K, csc Kt⟩ : Verif.Model.Grad.Kkt R) = Verif.Model.Grad.pToK eps n (csc P) ⟨csc s.K, csc s.Kt⟩)
      (pToK (exact sqrt eps tol) n P s) := by
  refine each_wp (fun (t : St R) (q : Verif.Model.Grad.Kkt R) => ∃ K Kt, t = setK s K Kt ∧ (⟨csc K, csc Kt⟩ : Verif.Model.Grad.Kkt R) = q)
    0 n ⟨s.K, s.Kt, rfl, rfl⟩ ?_
  rintro col - - _ _ ⟨K, Kt, rfl, rfl⟩
  refine (rdA _ P.p col).bind fun lo hlo => ?_
  refine (rdA _ P.p (col + 1)).bind fun hi hhi => ?_
  subst hlo hhi
  refine each_wp (fun (t : St R) (q : Verif.Model.Grad.Kkt R) => ∃ K Kt, t = setK s K Kt ∧ (⟨csc K, csc Kt⟩ : Verif.Model.Grad.Kkt R) = q)
    (g := Verif.Model.Grad.pEntry eps (csc P) col) _ _ ⟨K, Kt, rfl, rfl⟩ ?_
  rintro idx - - _ _ ⟨K, Kt, rfl, rfl⟩
  refine (rdA _ P.i idx).bind fun row hrow => ?_
  refine (rdA _ P.x idx).bind fun v hv => ?_
  refine (setEntry_wp _ col row _ K).bind fun K' hK => ?_
  refine (setEntry_wp _ row col v Kt).bind fun Kt' hKt => Wp.pure ⟨K', Kt', rfl, ?_⟩
  rw [hK, hKt, hrow, hv]
  rfl

theorem aToK_wp (A : Csc R) (s : St R) :
    Wp (fun t => ∃ K Kt, t = setK s K Kt ∧
      (⟨csc K, csc Kt⟩ : Verif.Model.Grad.Kkt R) = Verif.Model.Grad.aToK n (csc A) ⟨csc s.K, csc s.Kt⟩)
      (aToK n A s) := by
  refine each_wp (fun (t : St R) (q : Verif.Model.Grad.Kkt R) => ∃ K Kt, t = setK s K Kt ∧ (⟨csc K, csc Kt⟩ : Verif.Model.Grad.Kkt R) = q)
    0 n ⟨s.K, s.Kt, rfl, rfl⟩ ?_
  rintro col - - _ _ ⟨K, Kt, rfl, rfl⟩
  refine (rdA _ A.p col).bind fun lo hlo => ?_
  refine (rdA _ A.p (col + 1)).bind fun hi hhi => ?_
  subst hlo hhi
  refine each_wp (fun (t : St R) (q : Verif.Model.Grad.Kkt R) => ∃ K Kt, t = setK s K Kt ∧ (⟨csc K, csc Kt⟩ : Verif.Model.Grad.Kkt R) = q)
    (g := Verif.Model.Grad.aEntry n (csc A) col) _ _ ⟨K, Kt, rfl, rfl⟩ ?_
  rintro idx - - _ _ ⟨K, Kt, rfl, rfl⟩
  refine (rdA _ A.i idx).bind fun row hrow => ?_
  refine (rdA _ A.x idx).bind fun v hv => ?_
  refine (setEntry_wp _ (n + row) col v K).bind fun K' hK => ?_
  refine (setEntry_wp _ col (n + row) v Kt).bind fun Kt' hKt => ?_
  refine (setEntry_wp _ (n + row) col v Kt').bind fun Kt'' hKt' => Wp.pure ⟨K', Kt'', rfl, ?_⟩
  rw [hK, hKt', hKt, hrow, hv]
  rfl

/-! ### factorization -/

theorem map_arr {α : Type} [Zero α] (v : List α) (m : Nat) (h : v.length = m) : (List.range m).map (arr v) = v := by
  subst h
  refine List.ext_getElem (by simp) fun k h1 h2 => ?_
  rw [List.getElem_map, List.getElem_range]
  unfold arr
  rw [List.getD_eq_getElem?_getD, List.getElem?_eq_getElem h2]
  rfl

theorem stored_csc {M : Csc R} (hp : M.p.length = N + 1) (hi : arr M.p N = M.i.length) (hx : M.x.length = M.i.length) :
    stored N (csc M) = M := by
  unfold stored csc
  simp only
  rw [map_arr _ _ hp, map_arr M.i _ hi.symm, map_arr M.x _ (hx.trans hi.symm)]

theorem numeric_wp {Q : Qdldl R} (hQ : QdldlOK N d Q) (hp : Problem n N d) (hK : ix d.pK N = d.iK.length) (h : Sizes n N NP d s)
    (hnnz : s.L.nnz = d.iL.length) :
    Wp (fun t => (∃ L D Dinv, t = { s with L := L, D := D, Dinv := Dinv } ∧ L.nnz = s.L.nnz) ∧
      ws t = Verif.Model.Grad.numeric (factorOf N Q.factor) (csc s.K) (ws s)) (numeric Q.factor s) := by
  unfold numeric
  simp only
  have es : stored N (csc s.K) = s.K := stored_csc (by rw [h.K.p, hp.K.len]) (by rw [h.K.p, h.K.i]; exact hK) (by rw [h.K.x, h.K.i])
  split
  · exact Wp.error _
  split
  · exact Wp.error _
  refine Wp.pure ⟨⟨_, _, _, rfl, rfl⟩, ?_⟩
  have hi := hQ.i s.K h.K
  have hx := hQ.x s.K h.K
  have e1 : s.L.nnz = (Q.factor s.K).i.length := by rw [hi, hnnz]
  have e2 : s.L.nnz = (Q.factor s.K).x.length := by rw [hx, hnnz]
  have t1 : ((Q.factor s.K).i ++ s.L.i.drop (Q.factor s.K).i.length).take s.L.nnz = (Q.factor s.K).i := by
    rw [e1]; exact List.take_left
  have t2 : ((Q.factor s.K).x ++ s.L.x.drop (Q.factor s.K).x.length).take s.L.nnz = (Q.factor s.K).x := by
    rw [e2]; exact List.take_left
  unfold Verif.Model.Grad.numeric ws factorOf factor
  simp only
  rw [es, t1, t2, e1]

theorem writeMask_wp (hp : Problem n N d) (h : Inv n N NP d s) :
    Wp (fun t => ∃ mk, t = { s with mask := mk } ∧ (ws t).S = Verif.Model.Grad.writeMask N (ws s).S) (writeMask N s) := by
  refine (each_wp (fun (t : St R) (m : Int → Bool) => ∃ mk, t = { s with mask := mk } ∧ marks mk = m)
    (g := fun m j => (loop ((factor s.L).p j) ((factor s.L).p (j + 1))).foldl
      (fun m k q => if q = Verif.Model.Factor.maskIndex N ((factor s.L).i k) j then true else m q) m) 0 (N - 1) ⟨s.mask, rfl, rfl⟩ ?_).mono ?_
  · rintro j - hj _ _ ⟨mk, rfl, rfl⟩
    refine (rdA _ s.L.p j).bind fun lo hlo => ?_
    refine (rdA _ s.L.p (j + 1)).bind fun hi hhi => ?_
    subst hlo hhi
    have hle : (factor s.L).p (j + 1) ≤ s.L.nnz := Inv.col_le hp h (c := j + 1) (by omega)
    refine each_wp (fun (t : St R) (m : Int → Bool) => ∃ mk, t = { s with mask := mk } ∧ marks mk = m)
      (g := fun m k q => if q = Verif.Model.Factor.maskIndex N ((factor s.L).i k) j then true else m q) _ _ ⟨mk, rfl, rfl⟩ ?_
    rintro k - hk _ _ ⟨mk, rfl, rfl⟩
    have hk' : k < (factor s.L).p (j + 1) := hk
    refine (rdT _ s.L.i s.L.nnz k (by omega)).bind fun i hi => ?_
    refine (wrI_wp _ mk _).bind fun mk' hmk => Wp.pure ⟨mk', rfl, ?_⟩
    rw [hmk, hi]
    rfl
  · rintro _ ⟨mk, rfl, hmk⟩
    refine ⟨mk, rfl, ?_⟩
    show Verif.Model.Factor.MaskedL.mk _ _ = _
    rw [hmk]
    rfl

end Verif.Lemmas.GradRef
