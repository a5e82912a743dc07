import Verif.Lemmas.Adjoint
namespace Verif.Lemmas.Grad
open Verif.Model.Factor Verif.Model.Grad Verif.Spec.Factor Verif.Spec.Grad Verif.Lemmas.Factor Finset

variable {R : Type} [Field R] [DecidableEq R] [LinearOrder R] [IsStrictOrderedRing R]

theorem run_snoc (qdldl : CscL R → Fac R) (sqrt : R → R) (eps tol : R) (n N : Nat) (P A : CscL R)
    (s : GradWs R) (cs : List (Call R)) (c : Call R) :
    runGrad qdldl sqrt eps tol n N P A s (cs ++ [c]) =
      gradCall qdldl sqrt eps tol n N P A c.f c.x c.y c.dx
        (runGrad qdldl sqrt eps tol n N P A s cs) := by
  unfold runGrad; rw [List.foldl_append]; rfl

theorem current_snoc (P A : CscL R) (cs : List (Call R)) (c : Call R) :
    current P A ((cs ++ [c]).map Call.f) =
      (c.f.P.getD (current P A (cs.map Call.f)).1, c.f.A.getD (current P A (cs.map Call.f)).2) := by
  unfold current; rw [List.map_append, List.foldl_append]; rfl

/-- All that is needed about the state after a call. -/
theorem run_call {eps tol : R} {n N : Nat} {P A : CscL R} {qdldl : CscL R → Fac R} {sqrt : R → R}
    (hq : QdldlOK n N qdldl) (hsqrt : ∀ x, 0 < x → sqrt x * sqrt x = x) (h : GradSetup eps n N P A)
    (W : Ws R) (delta : Nat → R) (g : DCanon R) (cs : List (Call R)) (c : Call R)
    (hcs : CallsOK n P A (cs ++ [c])) :
    ∃ s d0 g0, s = runGrad qdldl sqrt eps tol n N P A (genState eps n N P A W delta g) (cs ++ [c]) ∧
      Inv eps n N (current P A ((cs ++ [c]).map Call.f)).1 (current P A ((cs ++ [c]).map Call.f)).2 s ∧
      s.init = false ∧
      (∀ j < N - n, s.a j = flagStep tol (c.y j) (if c.f.P.isSome || c.f.A.isSome then 1 else
        (runGrad qdldl sqrt eps tol n N P A (genState eps n N P A W delta g) cs).a j)) ∧
      (∀ r < N, (actOf n s.a r ↔ Kept tol n c.y r)) ∧
      s.g = fill n N s.a P A c.x c.y (linsolve n N s.a s.W s.kkt.Kt c.dx d0).r g0 ∧
      s.delta = (linsolve n N s.a s.W s.kkt.Kt c.dx d0).delta := by
  obtain ⟨i1, i2, i3⟩ := run_inv hq hsqrt h W delta g cs (fun d hd => hcs d (List.mem_append_left _ hd))
    (tol := tol)
  obtain ⟨c1, c2⟩ := hcs c (List.mem_append_right _ (List.mem_singleton.2 rfl))
  obtain ⟨k1, k2, k3⟩ := call_inv (tol := tol) (P0 := P) (A0 := A) hq hsqrt h.eps i1 c
    ⟨fun Q hQ => SamePattern.trans' i2 (c1.1 Q hQ), fun Q hQ => SamePattern.trans' i3 (c1.2 Q hQ)⟩ c2
  obtain ⟨s', hs'⟩ : ∃ s', s' = runGrad qdldl sqrt eps tol n N P A (genState eps n N P A W delta g) cs :=
    ⟨_, rfl⟩
  rw [← hs'] at k1 k2 k3
  refine ⟨gradCall qdldl sqrt eps tol n N P A c.f c.x c.y c.dx s', (prologue qdldl eps n N c.f s').delta,
    (prologue qdldl eps n N c.f s').g, ?_, ?_, k2, ?_, ?_, rfl, rfl⟩
  · rw [run_snoc, hs']
  · rw [current_snoc]; exact k1
  · intro j hj
    rw [← hs']
    exact k3 j hj
  · intro r hr
    unfold actOf Kept
    by_cases hrn : r < n
    · simp [hrn]
    · rw [k3 (r - n) (by omega), flagStep_ne]

/-- The values the flags can take. -/
theorem run_flags {eps tol : R} {n N : Nat} {P A : CscL R} {qdldl : CscL R → Fac R} {sqrt : R → R}
    (hq : QdldlOK n N qdldl) (hsqrt : ∀ x, 0 < x → sqrt x * sqrt x = x) (h : GradSetup eps n N P A)
    (W : Ws R) (delta : Nat → R) (g : DCanon R) (cs : List (Call R)) (hcs : CallsOK n P A cs) {j : Nat}
    (hj : j < N - n) :
    ((runGrad qdldl sqrt eps tol n N P A (genState eps n N P A W delta g) cs).a j = -1 ∨
      (runGrad qdldl sqrt eps tol n N P A (genState eps n N P A W delta g) cs).a j = 0 ∨
      (runGrad qdldl sqrt eps tol n N P A (genState eps n N P A W delta g) cs).a j = 1) ∧
    ((∀ c ∈ cs, -tol ≤ c.y j) →
      (runGrad qdldl sqrt eps tol n N P A (genState eps n N P A W delta g) cs).a j ≠ -1) := by
  induction cs using List.reverseRecOn with
  | nil => exact ⟨Or.inr (Or.inr rfl), fun _ => by show (1 : Int) ≠ -1; decide⟩
  | append_singleton cs c ih =>
    obtain ⟨h1, h2⟩ := ih (fun d hd => hcs d (List.mem_append_left _ hd))
    obtain ⟨s, d0, g0, e1, _, _, e2, _⟩ := run_call (tol := tol) hq hsqrt h W delta g cs c hcs
    rw [← e1, e2 j hj]
    generalize (runGrad qdldl sqrt eps tol n N P A (genState eps n N P A W delta g) cs).a j = b at h1 h2
    have hb : (if (c.f.P.isSome || c.f.A.isSome) = true then 1 else b) = -1 ∨
        (if (c.f.P.isSome || c.f.A.isSome) = true then 1 else b) = 0 ∨
        (if (c.f.P.isSome || c.f.A.isSome) = true then 1 else b) = 1 := by
      split
      · exact Or.inr (Or.inr rfl)
      · exact h1
    have hb2 : (∀ c ∈ cs, -tol ≤ c.y j) → (if (c.f.P.isSome || c.f.A.isSome) = true then 1 else b) ≠ -1 := by
      intro hc
      split
      · decide
      · exact h2 hc
    generalize (if (c.f.P.isSome || c.f.A.isSome) = true then 1 else b) = b' at hb hb2
    unfold flagStep
    constructor
    · by_cases y1 : c.y j < -tol
      · rw [if_pos y1]
        by_cases b0 : b' = 0
        · rw [if_pos b0]; exact Or.inl rfl
        · rw [if_neg b0]; exact hb
      · rw [if_neg y1]
        by_cases y2 : tol < c.y j
        · rw [if_pos y2]
          by_cases b0 : b' = 0
          · rw [if_pos b0]; exact Or.inr (Or.inr rfl)
          · rw [if_neg b0]; exact hb
        · rw [if_neg y2]; exact Or.inr (Or.inl rfl)
    · intro hy
      have := hb2 (fun d hd => hy d (List.mem_append_left _ hd))
      have hyc := hy c (List.mem_append_right _ (List.mem_singleton.2 rfl))
      rw [if_neg (not_lt.2 hyc)]
      by_cases y2 : tol < c.y j
      · rw [if_pos y2]
        by_cases b0 : b' = 0
        · rw [if_pos b0]; decide
        · rw [if_neg b0]; exact this
      · rw [if_neg y2]; decide

omit [LinearOrder R] [IsStrictOrderedRing R] in
/-- What the last loops of the gradient write. -/
theorem fill_spec {n N : Nat} {P A : CscL R} (hD : QpData n N P A) (a : Nat → Int) (x y r : Nat → R)
    (g : DCanon R) :
    (∀ i < n, (fill n N a P A x y r g).dq i = - r i) ∧
    (∀ i < N - n, (fill n N a P A x y r g).dl i = if a i = -1 then r (n + i) else 0) ∧
    (∀ i < N - n, (fill n N a P A x y r g).du i = if a i = 1 then r (n + i) else 0) ∧
    (∀ j < n, ∀ k, P.p j ≤ k → k < P.p (j + 1) →
      (fill n N a P A x y r g).dP k = -(1 / 2) * (r (P.i k) * x j + x (P.i k) * r j)) ∧
    (∀ j < n, ∀ k, A.p j ≤ k → k < A.p (j + 1) → (fill n N a P A x y r g).dA k =
      if a (A.i k) = 0 then 0 else - (r (n + A.i k) * x j + y (A.i k) * r j)) := by
  refine ⟨?_, ?_, ?_, ?_, ?_⟩
  · intro i hi
    unfold fill
    simp only
    rw [loop_write n (fun i (_ : R) => - r i), if_pos hi]
  · intro i hi
    unfold fill
    simp only
    rw [loop_write (N - n) (fun i (_ : R) => if a i = -1 then r (n + i) else 0), if_pos hi]
  · intro i hi
    unfold fill
    simp only
    rw [loop_write (N - n) (fun i (_ : R) => if a i = -1 then 0 else if a i = 1 then r (n + i) else 0),
      if_pos hi]
    by_cases h : a i = -1
    · rw [if_pos h, if_neg (by omega)]
    · rw [if_neg h]
  · intro j hj k h1 h2
    unfold fill
    simp only
    exact nested_write hD.vP.mono (fun j k => -(1 / 2) * (r (P.i k) * x j + x (P.i k) * r j)) g.dP hj h1 h2
  · intro j hj k h1 h2
    unfold fill
    simp only
    exact nested_write hD.vA.mono (fun j k => if a (A.i k) = 0 then 0
      else - (r (n + A.i k) * x j + y (A.i k) * r j)) g.dA hj h1 h2

end Verif.Lemmas.Grad
