import Verif.Lemmas.GradRefE
import Mathlib.Algebra.BigOperators.Intervals
/-!
Lemmas for C94: linear system, canonical gradients, user gradients.
-/
namespace Verif.Lemmas.GradRef
open Verif.Model.GradMem Verif.Spec.GradMem Verif.Lemmas.GradMem Verif.Spec.GradRef
open Verif.Model.Factor (upd loop)

variable {R : Type} [Field R] [DecidableEq R] [LT R] [DecidableRel (fun x y : R => x < y)] {sqrt : R → R} {eps tol : R}
  {n N NP : Nat} {d : Patterns} {s : St R}

theorem foldl_keep {α β : Type} (f : (Nat → α) → β → (Nat → α)) (k : Nat) : ∀ (ks : List β) (x : Nat → α),
    (∀ j ∈ ks, ∀ x, f x j k = x k) → ks.foldl f x k = x k := by
  intro ks
  induction ks with
  | nil => intro x _; rfl
  | cons j ks ih =>
    intro x h
    rw [List.foldl_cons, ih _ fun q hq => h q (List.mem_cons_of_mem _ hq), h j List.mem_cons_self]

theorem qsolve_out {L : Verif.Model.Factor.CscL R} (hL : ∀ c < N, ∀ k, L.p c ≤ k → k < L.p (c + 1) → L.i k < N) (D x : Nat → R)
    {k : Nat} (hk : N ≤ k) : Verif.Model.Grad.qsolve N L D x k = x k := by
  unfold Verif.Model.Grad.qsolve Verif.Model.Grad.ltsolve Verif.Model.Grad.lsolve
  rw [foldl_keep, foldl_keep, foldl_keep]
  · intro j hj x
    have hj := mem_loop hj
    refine foldl_keep _ _ _ _ fun q hq x => ?_
    have hq := mem_loop hq
    have := hL j hj.2 q hq.1 hq.2
    exact if_neg (by omega)
  · intro j hj x
    have hj := mem_loop hj
    exact if_neg (by omega)
  · intro j hj x
    have hj := mem_loop (List.mem_reverse.1 hj)
    exact foldl_keep _ _ _ _ fun q hq x => if_neg (by omega)

theorem factor_below (hp : Problem n N d) (h : Inv n N NP d s) :
    ∀ c < N, ∀ k, (factor s.L).p c ≤ k → k < (factor s.L).p (c + 1) → (factor s.L).i k < N := by
  intro c hc k _ h2
  have hle : (factor s.L).p (c + 1) ≤ s.L.nnz := Inv.col_le hp h (c := c + 1) (by omega)
  have hk : k < d.iL.length := by rw [← h.nnz]; omega
  show arr (s.L.i.take s.L.nnz) k < N
  rw [arr_take _ (by omega)]
  have e : arr s.L.i k = ix d.iL k := h.ix_eq hk
  rw [e]
  exact hp.sym.lines.below k hk

theorem solve_eq {solve : Csc R → List R → List R → List R} (hS : SolveOK N solve) (hp : Problem n N d) (h : Inv n N NP d s)
    {x : List R} (hx : x.length = N) : (solve s.L s.Dinv x).length = N ∧
      arr (solve s.L s.Dinv x) = Verif.Model.Grad.qsolve N (ws s).S.L (ws s).Dinv (arr x) := by
  obtain ⟨h1, h2⟩ := hS s.L s.Dinv x hx
  refine ⟨h1, ?_⟩
  funext k
  by_cases hk : k < N
  · exact h2 k hk
  · rw [arr_out _ (by omega)]
    show 0 = Verif.Model.Grad.qsolve N (factor s.L) (arr s.Dinv) (arr x) k
    rw [qsolve_out (factor_below hp h) _ _ (by omega), arr_out _ (by omega)]

theorem inactive_wp (a : List Int) (i : Nat) : Wp (fun b => b = Verif.Model.Grad.inactive n (flags a) i) (inactive n a i) := by
  unfold inactive Verif.Model.Grad.inactive
  by_cases h : n ≤ i
  · rw [if_pos h]
    refine (rdF _ a (i - n)).bind fun v hv => Wp.pure ?_
    rw [hv]
    exact decide_eq_decide.2 ⟨fun h' => ⟨h, h'⟩, fun h' => h'.2⟩
  · rw [if_neg h]
    exact Wp.pure (decide_eq_false fun h' => h h'.1).symm

/-- Replacing the arrays of the linear system. -/
def lins (s : St R) (r delta : List R) : St R := { s with r := r, delta := delta }

theorem refine_wp {solve : Csc R → List R → List R → List R} (hS : SolveOK N solve) (hp : Problem n N d) (h : Inv n N NP d s) :
    Wp (fun t => ∃ r delta, t = lins s r delta ∧ r.length = N ∧ delta.length = N ∧
      (⟨arr r, arr delta⟩ : Verif.Model.Grad.Lin R) =
        Verif.Model.Grad.refine n N (flags s.a) (ws s) (csc s.Kt) (arr s.rhs) ⟨arr s.r, arr s.delta⟩)
      (refine (exact sqrt eps tol) solve n N s) := by
  unfold refine
  refine Wp.bind (P := fun t => ∃ delta, t = lins s s.r delta ∧ delta.length = N ∧
    arr delta = (loop 0 N).foldl (fun d i => upd d i (arr s.rhs i)) (arr s.delta)) ?_ ?_
  · refine each_wp (fun (t : St R) (f : Nat → R) => ∃ delta, t = lins s s.r delta ∧ delta.length = N ∧ arr delta = f) 0 N
      ⟨s.delta, rfl, h.sz.delta, rfl⟩ ?_
    rintro i - - _ _ ⟨delta, rfl, hl, rfl⟩
    refine (rdA _ s.rhs i).bind fun v hv => ?_
    refine (wrA _ delta i v).bind fun delta' hd => Wp.pure ⟨delta', rfl, hd.2.trans hl, ?_⟩
    rw [hd.1, hv]
  rintro _ ⟨d0, rfl, hl0, hd0⟩
  refine Wp.bind (P := fun t => ∃ delta, t = lins s s.r delta ∧ delta.length = N ∧
    arr delta = Verif.Model.Grad.residual n N (flags s.a) (csc s.Kt) (arr s.rhs) (arr s.r) (arr s.delta)) ?_ ?_
  · refine each_wp (fun (t : St R) (f : Nat → R) => ∃ delta, t = lins s s.r delta ∧ delta.length = N ∧ arr delta = f)
      (g := fun d i => if Verif.Model.Grad.inactive n (flags s.a) i then upd d i 0
        else (loop ((csc s.Kt).p i) ((csc s.Kt).p (i + 1))).foldl (fun d k =>
          if Verif.Model.Grad.inactive n (flags s.a) ((csc s.Kt).i k) then d
          else upd d i (d i - (csc s.Kt).x k * arr s.r ((csc s.Kt).i k))) d) 0 N ⟨d0, rfl, hl0, hd0⟩ ?_
    rintro i - - _ _ ⟨delta, rfl, hl, rfl⟩
    unfold residRow
    refine (inactive_wp s.a i).bind fun b hb => ?_
    rw [← hb]
    cases b with
    | true =>
      refine (wrA _ delta i _).bind fun delta' hd => Wp.pure ⟨delta', rfl, hd.2.trans hl, hd.1⟩
    | false =>
      refine (rdA _ s.Kt.p i).bind fun lo hlo => ?_
      refine (rdA _ s.Kt.p (i + 1)).bind fun hi hhi => ?_
      subst hlo hhi
      refine each_wp (fun (t : St R) (f : Nat → R) => ∃ delta, t = lins s s.r delta ∧ delta.length = N ∧ arr delta = f)
        (g := fun d k => if Verif.Model.Grad.inactive n (flags s.a) ((csc s.Kt).i k) then d
          else upd d i (d i - (csc s.Kt).x k * arr s.r ((csc s.Kt).i k))) _ _ ⟨delta, rfl, hl, rfl⟩ ?_
      rintro k - - _ _ ⟨delta, rfl, hl, rfl⟩
      unfold residEntry
      refine (rdA _ s.Kt.i k).bind fun j hj => ?_
      refine (inactive_wp s.a j).bind fun b hb => ?_
      have hj' : (csc s.Kt).i k = j := hj.symm
      rw [hj', ← hb]
      cases b with
      | true => exact Wp.pure ⟨delta, rfl, hl, rfl⟩
      | false =>
        refine (rdA _ s.Kt.x k).bind fun x hx => ?_
        refine (rdA _ s.r j).bind fun rj hrj => ?_
        refine (rdA _ delta i).bind fun dd hdd => ?_
        refine (wrA _ delta i _).bind fun delta' hd => Wp.pure ⟨delta', rfl, hd.2.trans hl, ?_⟩
        rw [hd.1, hdd, hrj, hx]
        rfl
  rintro _ ⟨d1, rfl, hl1, hd1⟩
  obtain ⟨hl2, hd2⟩ := solve_eq hS hp h hl1
  rw [hd1] at hd2
  refine (each_wp (fun (t : St R) (f : Nat → R) => ∃ r, t = lins s r (solve s.L s.Dinv d1) ∧ r.length = N ∧ arr r = f)
    (g := fun r i => upd r i (r i + arr (solve s.L s.Dinv d1) i)) 0 N ⟨s.r, rfl, h.sz.r, rfl⟩ ?_).mono ?_
  · rintro i - - _ _ ⟨r, rfl, hl, rfl⟩
    refine (rdA _ r i).bind fun a ha => ?_
    refine (rdA _ (solve s.L s.Dinv d1) i).bind fun b hb => ?_
    refine (wrA _ r i _).bind fun r' hr => Wp.pure ⟨r', rfl, hr.2.trans hl, ?_⟩
    rw [hr.1, ha, hb]
    rfl
  · rintro _ ⟨r, rfl, hl, hr⟩
    refine ⟨r, _, rfl, hl, hl2, ?_⟩
    rw [hr, hd2]
    rfl

/-- The workspace with other arrays of the linear system. -/
theorem Inv.lins (h : Inv n N NP d s) {r delta : List R} (h1 : r.length = N) (h2 : delta.length = N) :
    Inv n N NP d (lins s r delta) := (h.setR (h1.trans h.sz.r.symm)).setDelta (h2.trans h.sz.delta.symm)

theorem linsolve_wp {solve : Csc R → List R → List R → List R} (hS : SolveOK N solve) (hp : Problem n N d) (h : Inv n N NP d s) :
    Wp (fun t => ∃ r rhs delta, t = lins { s with rhs := rhs } r delta ∧ r.length = N ∧ delta.length = N ∧ rhs.length = N ∧
      (⟨arr r, arr delta⟩ : Verif.Model.Grad.Lin R) =
        Verif.Model.Grad.linsolve n N (flags s.a) (ws s) (csc s.Kt) (arr s.dx) (arr s.delta))
      (linsolve (exact sqrt eps tol) solve n N s) := by
  have hnN := hp.nN
  unfold linsolve
  refine Wp.bind (P := fun t => ∃ r rhs, t = { s with r := r, rhs := rhs } ∧ r.length = N ∧ rhs.length = N ∧ ∀ j < n,
    arr r j = Verif.Model.Grad.rhsOf n (arr s.dx) j ∧ arr rhs j = Verif.Model.Grad.rhsOf n (arr s.dx) j) ?_ ?_
  · refine count_wp (fun k t => ∃ r rhs, t = { s with r := r, rhs := rhs } ∧ r.length = N ∧ rhs.length = N ∧ ∀ j < k,
      arr r j = Verif.Model.Grad.rhsOf n (arr s.dx) j ∧ arr rhs j = Verif.Model.Grad.rhsOf n (arr s.dx) j) 0 n (Nat.zero_le _)
      ⟨s.r, s.rhs, rfl, h.sz.r, h.sz.rhs, fun j hj => absurd hj (Nat.not_lt_zero _)⟩ ?_
    rintro i - hi _ ⟨r, rhs, rfl, hr, hrhs, hj⟩
    refine (rdA _ s.dx i).bind fun v hv => ?_
    refine (wrA _ r i v).bind fun r' hr' => ?_
    refine (wrA _ rhs i v).bind fun rhs' hrhs' => Wp.pure ⟨r', rhs', rfl, hr'.2.trans hr, hrhs'.2.trans hrhs, fun j hji => ?_⟩
    rw [hr'.1, hrhs'.1]
    unfold upd
    by_cases e : j = i
    · rw [if_pos e, if_pos e, hv, e]
      unfold Verif.Model.Grad.rhsOf
      rw [if_pos hi]
      exact ⟨rfl, rfl⟩
    · rw [if_neg e, if_neg e]
      exact hj j (by omega)
  rintro _ ⟨r0, rhs0, rfl, hr0, hrhs0, hj0⟩
  refine Wp.bind (P := fun t => ∃ r rhs, t = { s with r := r, rhs := rhs } ∧ r.length = N ∧ rhs.length = N ∧ ∀ j < N,
    arr r j = Verif.Model.Grad.rhsOf n (arr s.dx) j ∧ arr rhs j = Verif.Model.Grad.rhsOf n (arr s.dx) j) ?_ ?_
  · refine count_wp (fun k t => ∃ r rhs, t = { s with r := r, rhs := rhs } ∧ r.length = N ∧ rhs.length = N ∧ ∀ j < k,
      arr r j = Verif.Model.Grad.rhsOf n (arr s.dx) j ∧ arr rhs j = Verif.Model.Grad.rhsOf n (arr s.dx) j) n N hnN
      ⟨r0, rhs0, rfl, hr0, hrhs0, hj0⟩ ?_
    rintro i hni hi _ ⟨r, rhs, rfl, hr, hrhs, hj⟩
    refine (wrA _ r i _).bind fun r' hr' => ?_
    refine (wrA _ rhs i _).bind fun rhs' hrhs' => Wp.pure ⟨r', rhs', rfl, hr'.2.trans hr, hrhs'.2.trans hrhs, fun j hji => ?_⟩
    rw [hr'.1, hrhs'.1]
    unfold upd
    by_cases e : j = i
    · rw [if_pos e, if_pos e, e]
      unfold Verif.Model.Grad.rhsOf
      rw [if_neg (by omega)]
      exact ⟨rfl, rfl⟩
    · rw [if_neg e, if_neg e]
      exact hj j (by omega)
  rintro _ ⟨r1, rhs1, rfl, hr1, hrhs1, hj1⟩
  have out : ∀ v : List R, v.length = N → (∀ j < N, arr v j = Verif.Model.Grad.rhsOf n (arr s.dx) j) →
      arr v = Verif.Model.Grad.rhsOf n (arr s.dx) := by
    intro v hv hj
    funext j
    by_cases hjN : j < N
    · exact hj j hjN
    · rw [arr_out _ (by omega)]
      unfold Verif.Model.Grad.rhsOf
      rw [if_neg (by omega)]
  have er := out r1 hr1 fun j hj => (hj1 j hj).1
  have erhs := out rhs1 hrhs1 fun j hj => (hj1 j hj).2
  obtain ⟨hl2, hd2⟩ := solve_eq hS hp h hr1
  rw [er] at hd2
  have hI : Inv n N NP d { s with rhs := rhs1 } := h.setRhs (hrhs1.trans h.sz.rhs.symm)
  refine (each_wp (fun (t : St R) (q : Verif.Model.Grad.Lin R) => ∃ r delta, t = lins { s with rhs := rhs1 } r delta ∧ r.length = N ∧
      delta.length = N ∧ (⟨arr r, arr delta⟩ : Verif.Model.Grad.Lin R) = q)
    (g := fun q _ => Verif.Model.Grad.refine n N (flags s.a) (ws s) (csc s.Kt) (Verif.Model.Grad.rhsOf n (arr s.dx)) q) 0 3
    ⟨solve s.L s.Dinv r1, s.delta, rfl, hl2, h.sz.delta, rfl⟩ ?_).mono ?_
  · rintro i - - _ _ ⟨r, delta, rfl, hr, hdl, rfl⟩
    refine (refine_wp hS hp (Inv.lins hI hr hdl)).mono ?_
    rintro _ ⟨r', delta', rfl, hr', hdl', he⟩
    refine ⟨r', delta', rfl, hr', hdl', ?_⟩
    rw [he, ← erhs]
    rfl
  · rintro _ ⟨r, delta, rfl, hr, hdl, he⟩
    refine ⟨r, rhs1, delta, rfl, hr, hdl, hrhs1, ?_⟩
    rw [he, hd2]
    rfl

end Verif.Lemmas.GradRef
