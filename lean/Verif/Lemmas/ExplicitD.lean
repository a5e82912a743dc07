import Verif.Lemmas.ExplicitC
namespace Verif.Lemmas.Explicit
open Verif.Model Verif.Model.Explicit Verif.Spec Verif.Spec.Explicit Finset
variable {R : Type} [CommRing R]

theorem exRun_snoc (T : ExTab R) (E : ExCanon R) (ops : List (ExOp R)) (o : ExOp R) :
    exRun T E (ops ++ [o]) = (exRun T E ops).bind fun s => exStep T E s o := by
  unfold exRun
  rw [List.foldlM_append]
  cases List.foldlM (exStep T E) (exInit T.NP) ops with
  | none => rfl
  | some s =>
    rw [Option.bind_eq_bind, Option.bind_some, List.foldlM_cons, Option.bind_some]
    cases exStep T E s o <;> rfl

theorem regionOf_snoc (ops : List (ExOp R)) (o : ExOp R) :
    regionOf (ops ++ [o]) = match o with
      | .solve r => some r
      | .gradient (some r) => some r
      | .gradient none => regionOf ops
      | .setD _ _ => regionOf ops := by
  unfold regionOf
  rw [List.filterMap_append]
  cases o with
  | solve r => simp
  | setD k v => simp
  | gradient u => cases u <;> simp

theorem givenDx_snoc (ops : List (ExOp R)) (o : ExOp R) (k : Nat) :
    givenDx (ops ++ [o]) k = match o with
      | .setD j w => if k = j then w else givenDx ops k
      | .gradient _ => 0
      | .solve _ => givenDx ops k := by
  unfold givenDx
  rw [List.foldl_append]
  cases o <;> rfl

theorem exRun_inv (T : ExTab R) (E : ExCanon R) (hq : E.qc = true → Csr.Valid E.q E.n T.NP)
    (hu : E.uc = true → Csr.Valid E.u E.m T.NP) (ops : List (ExOp R)) : ∀ s, exRun T E ops = some s →
    s.region = regionOf ops ∧ s.dp.length = T.NP ∧ ∀ k < T.nLoop, s.dx k = givenDx ops k := by
  induction ops using List.reverseRecOn with
  | nil =>
    intro s h
    cases h
    exact ⟨rfl, by simp [exInit], fun k _ => rfl⟩
  | append_singleton ops o ih =>
    intro s h
    rw [exRun_snoc] at h
    cases h0 : exRun T E ops with
    | none => rw [h0] at h; cases h
    | some s0 =>
      rw [h0, Option.bind_some] at h
      obtain ⟨i1, i2, i3⟩ := ih s0 h0
      rw [regionOf_snoc]
      cases o with
      | solve r =>
        cases h
        exact ⟨rfl, i2, fun k hk => by rw [givenDx_snoc]; exact i3 k hk⟩
      | setD j v =>
        cases h
        refine ⟨i1, i2, fun k hk => ?_⟩
        rw [givenDx_snoc]
        show (if k = j then v else s0.dx k) = if k = j then v else givenDx ops k
        rw [i3 k hk]
      | gradient u =>
        have main : ∀ r, (do
            let dp ← uncanonExplicit T.NP E (dtheta T.K T.nSol T.nLoop T.fb (T.hp r) s0.dx) s0.dp
            pure { region := some r, dx := fun i => if i < T.nLoop then 0 else s0.dx i, dp := dp } : Option (ExSt R)) =
              some s → s.region = some r ∧ s.dp.length = T.NP ∧ ∀ k < T.nLoop, s.dx k = 0 := by
          intro r h
          obtain ⟨dp', e, l, _⟩ := uncanonExplicit_spec T.NP E (dtheta T.K T.nSol T.nLoop T.fb (T.hp r) s0.dx) hq hu s0.dp i2
          rw [e] at h
          cases h
          exact ⟨rfl, l, fun k hk => by simp [hk]⟩
        cases u with
        | some r =>
          obtain ⟨a, b, c⟩ := main r h
          exact ⟨a, b, fun k hk => by rw [givenDx_snoc]; exact c k hk⟩
        | none =>
          unfold exStep at h
          simp only at h
          cases hr : s0.region with
          | none => rw [hr] at h; cases h
          | some r =>
            rw [hr] at h
            obtain ⟨a, b, c⟩ := main r h
            exact ⟨by rw [a, ← i1, hr], b, fun k hk => by rw [givenDx_snoc]; exact c k hk⟩

theorem exRun_gradient (T : ExTab R) (E : ExCanon R) (hq : E.qc = true → Csr.Valid E.q E.n T.NP)
    (hu : E.uc = true → Csr.Valid E.u E.m T.NP) (ops : List (ExOp R)) (s0 : ExSt R) (h : exRun T E ops = some s0)
    (u : Option Nat) (r : Nat) (hr : u.or (regionOf ops) = some r) :
    ∃ s, exRun T E (ops ++ [.gradient u]) = some s ∧ s.dp.length = T.NP ∧
      ∀ c, fn s.dp c = ∑ k ∈ range (picked E).length, exAt E ((picked E).getD k 0) c *
        ∑ i ∈ range T.nLoop, feedback T.K T.nSol T.fb (T.hp r) i k * givenDx ops i := by
  obtain ⟨i1, i2, i3⟩ := exRun_inv T E hq hu ops s0 h
  obtain ⟨dp', e, l, hdp⟩ := uncanonExplicit_spec T.NP E (dtheta T.K T.nSol T.nLoop T.fb (T.hp r) s0.dx) hq hu s0.dp i2
  refine ⟨{ region := some r, dx := fun i => if i < T.nLoop then 0 else s0.dx i, dp := dp' }, ?_, l, ?_⟩
  · rw [exRun_snoc, h, Option.bind_some]
    unfold exStep
    cases u with
    | some r' =>
      rw [Option.some_or] at hr
      cases hr
      simp only [e]
      rfl
    | none =>
      rw [Option.none_or, ← i1] at hr
      simp only [hr, e]
      rfl
  · intro c
    rw [hdp c]
    apply sum_congr rfl
    intro k _
    congr 1
    unfold dtheta
    apply sum_congr rfl
    intro i hi
    rw [i3 i (mem_range.1 hi)]

theorem givenDx_zero (ops : List (ExOp R)) (n k : Nat) (h : ∀ j w, .setD j w ∈ ops → j < n) (hk : n ≤ k) :
    givenDx ops k = 0 := by
  induction ops using List.reverseRecOn with
  | nil => rfl
  | append_singleton ops o ih =>
    have ih := ih (fun j w hm => h j w (List.mem_append_left _ hm))
    rw [givenDx_snoc]
    cases o with
    | solve r => exact ih
    | gradient u => rfl
    | setD j w =>
      have := h j w (by simp)
      simp only
      rw [if_neg (by omega), ih]

end Verif.Lemmas.Explicit
