import Verif.Lemmas.GradRefI
import Verif.Props.GradSign
/-!
C94: the differentiation code on its arrays computes the gradient with respect to the user parameters.
-/
namespace Verif.Props
open Verif.Model.GradMem Verif.Spec.GradMem Verif.Lemmas.GradMem Verif.Spec.GradRef Verif.Lemmas.GradRef
open Verif.Spec.Factor (ent UnitLower IsLDL unitOf decoupled)
open Verif.Spec.Grad (kkt symUp Linearised GradSetup)
open Finset

section
variable {R : Type} [Field R] [DecidableEq R] [LinearOrder R] [IsStrictOrderedRing R] {sqrt : R → R} {eps tol : R}
  {n N NP : Nat} {P A : Csc R} {pL iL : List Nat} {Q : Qdldl R} {M : Maps R}

/-- **C94** (refinement): in exact arithmetic every sequence of calls runs without an access outside an array, and the arrays then
hold what the abstract model of differentiation — index functions, the calls with the incoming gradient that was set for them —
computes from the generated workspace. -/
theorem C94_refines (hg : Generated (exact sqrt eps tol) n N NP P A pL iL Q M) (ops : List (Op R))
    (ho : ∀ op ∈ ops, OpOK n N (patternsOf (exact sqrt eps tol) n N P A pL iL) op) :
    ∃ t W delta g, run (exact sqrt eps tol) Q n N NP M (start (exact sqrt eps tol) n N NP P A) ops = .ok t ∧
      workspace t = Verif.Model.Grad.runGrad (factorOf N Q.factor) sqrt eps tol n N (csc P) (csc A)
        (Verif.Model.Grad.genState eps n N (csc P) (csc A) W delta g) (calls n (List.replicate n 0) ops) := by
  obtain ⟨t, h1, -, h2⟩ := run_ref (sqrt := sqrt) (eps := eps) (tol := tol) hg.lib hg.solve
    (C91_generated _ n N P A pL iL hg.nN hg.patP hg.patA hg.sym) hg.maps (compress_last _) rfl rfl rfl rfl ops _ ho (start_between hg)
  refine ⟨t, ws (start (exact sqrt eps tol) n N NP P A), (workspace (start (exact sqrt eps tol) n N NP P A)).delta,
    (workspace (start (exact sqrt eps tol) n N NP P A)).g, h1, ?_⟩
  rw [h2]
  have := generated_eq (sqrt := sqrt) (eps := eps) (tol := tol) (n := n) (N := N) (NP := NP) P A
  rw [show workspace (start (exact sqrt eps tol) n N NP P A) = _ from this]
  rfl

/-- The factor in the arrays: after any sequence of calls that ends with `cpg_gradient` it is the exact factorization of the
regularized KKT matrix of the matrices announced last, with the constraints that are inactive at this solution decoupled. -/
theorem C94_factor_exact (hg : Generated (exact sqrt eps tol) n N NP P A pL iL Q M)
    (hq : Verif.Spec.Grad.QdldlOK n N (factorOf N Q.factor)) (hsqrt : ∀ x, 0 < x → sqrt x * sqrt x = x)
    (h : GradSetup eps n N (csc P) (csc A)) (ops : List (Op R)) (c : Call R)
    (ho : ∀ op ∈ ops ++ [.grad c], OpOK n N (patternsOf (exact sqrt eps tol) n N P A pL iL) op) (hv : Convex n (ops ++ [.grad c])) :
    ∃ t, run (exact sqrt eps tol) Q n N NP M (start (exact sqrt eps tol) n N NP P A) (ops ++ [.grad c]) = .ok t ∧
      UnitLower N (unitOf (factor t.L)) ∧
      IsLDL N (unitOf (factor t.L)) (arr t.D) (decoupled (kkt eps n (symUp (ent (csc (latest P A (ops ++ [.grad c])).1)))
        (ent (csc (latest P A (ops ++ [.grad c])).2))) (Verif.Spec.Grad.Kept tol n (arr c.y))) ∧
      ∀ k < N, arr t.D k ≠ 0 ∧ arr t.Dinv k = 1 / arr t.D k := by
  obtain ⟨t, W, delta, g, h1, h2, -⟩ := start_last hg ops c ho
  refine ⟨t, h1, ?_⟩
  have hc := calls_ok _ ho hv (List.replicate n (0 : R))
  rw [calls_snoc] at hc h2
  have := C29_factor_exact (tol := tol) hq hsqrt h W delta g _ _ hc
  rw [← calls_snoc, current_calls, calls_snoc] at this
  simp only at this
  rw [← h2] at this
  exact this

/-- The gradients do not depend on the history: two sequences of calls that end with the same matrices, the same solution and the same
incoming gradient leave the same gradient with respect to every user parameter.  On equality rows the maps of both bounds agree; on
the other rows no multiplier was negative. -/
theorem C94_history_independent (hg : Generated (exact sqrt eps tol) n N NP P A pL iL Q M)
    (hq : Verif.Spec.Grad.QdldlOK n N (factorOf N Q.factor)) (hsqrt : ∀ x, 0 < x → sqrt x * sqrt x = x)
    (h : GradSetup eps n N (csc P) (csc A)) (hPw : Whole n P) (hAw : Whole n A) (ops ops' : List (Op R)) (c c' : Call R)
    (ho : ∀ op ∈ ops ++ [.grad c], OpOK n N (patternsOf (exact sqrt eps tol) n N P A pL iL) op) (hv : Convex n (ops ++ [.grad c]))
    (ho' : ∀ op ∈ ops' ++ [.grad c'], OpOK n N (patternsOf (exact sqrt eps tol) n N P A pL iL) op)
    (hv' : Convex n (ops' ++ [.grad c'])) (hx : c.x = c'.x) (hy : c.y = c'.y)
    (hdx : incoming n (List.replicate n 0) ops = incoming n (List.replicate n 0) ops')
    (hl : latest P A (ops ++ [.grad c]) = latest P A (ops' ++ [.grad c'])) (eqRow : Nat → Prop)
    (heq : ∀ k < N - n, eqRow k → ∀ th, move M.l th k = move M.u th k)
    (hineq : ∀ k < N - n, ¬ eqRow k → ∀ b, Op.grad b ∈ ops ++ [.grad c] → -tol ≤ arr b.y k)
    (hineq' : ∀ k < N - n, ¬ eqRow k → ∀ b, Op.grad b ∈ ops' ++ [.grad c'] → -tol ≤ arr b.y k) :
    ∃ t t', run (exact sqrt eps tol) Q n N NP M (start (exact sqrt eps tol) n N NP P A) (ops ++ [.grad c]) = .ok t ∧
      run (exact sqrt eps tol) Q n N NP M (start (exact sqrt eps tol) n N NP P A) (ops' ++ [.grad c']) = .ok t' ∧
      ∀ p < NP, arr t.dp p = arr t'.dp p := by
  obtain ⟨t, W, delta, g, h1, h2, -, h3⟩ := start_last hg ops c ho
  obtain ⟨t', W', delta', g', h1', h2', -, h3'⟩ := start_last hg ops' c' ho'
  refine ⟨t, t', h1, h1', ?_⟩
  have hc := calls_ok _ ho hv (List.replicate n (0 : R))
  have hc' := calls_ok _ ho' hv' (List.replicate n (0 : R))
  have hP : csc (latest P A (ops ++ [.grad c])).1 = csc (latest P A (ops' ++ [.grad c'])).1 := by rw [hl]
  have hA : csc (latest P A (ops ++ [.grad c])).2 = csc (latest P A (ops' ++ [.grad c'])).2 := by rw [hl]
  have hsy : ∀ {k}, k < N - n → ¬ eqRow k → ∀ d ∈ calls n (List.replicate n 0) (ops ++ [.grad c]), -tol ≤ d.y k := by
    intro k hk hn d hd
    obtain ⟨b, dx', hb, rfl⟩ := mem_calls hd
    exact hineq k hk hn b hb
  have hsy' : ∀ {k}, k < N - n → ¬ eqRow k → ∀ d ∈ calls n (List.replicate n 0) (ops' ++ [.grad c']), -tol ≤ d.y k := by
    intro k hk hn d hd
    obtain ⟨b, dx', hb, rfl⟩ := mem_calls hd
    exact hineq' k hk hn b hb
  have cur := current_calls (n := n) P A (List.replicate n 0) (ops ++ [.grad c])
  have cur' := current_calls (n := n) P A (List.replicate n 0) (ops' ++ [.grad c'])
  rw [calls_snoc] at hc hc' h2 h2' hsy hsy' cur cur'
  have a1 := C29_history_independent (tol := tol) hq hsqrt h W W' delta delta' g g' _ _ _ _ hc hc' (congrArg arr hx) (congrArg arr hy)
    (congrArg arr hdx) (fun r _ s _ => by rw [cur, cur', hP]) (fun r _ s _ => by rw [cur, cur', hA])
  have a2 := C35_partial (tol := tol) hq hsqrt h W W' delta delta' g g' _ _ _ _ hc hc' (congrArg arr hx) (congrArg arr hy)
    (congrArg arr hdx) (fun r _ s _ => by rw [cur, cur', hP]) (fun r _ s _ => by rw [cur, cur', hA]) eqRow (fun k hk hn => hsy hk hn)
    (fun k hk hn => hsy' hk hn)
  simp only at a1 a2
  rw [← h2, ← h2'] at a1 a2
  obtain ⟨b1, b2, b3, -⟩ := a1
  obtain ⟨-, b4⟩ := a2
  intro p hp
  have one : ∀ f : Nat → R, f p = ∑ q ∈ range NP, f q * (if q = p then 1 else 0) := by
    intro f
    simp only [mul_ite, mul_one, mul_zero]
    rw [sum_ite_eq', if_pos (mem_range.2 hp)]
  rw [h3, h3', one (userGrad M (workspace t).g), one (userGrad M (workspace t').g), user_dot hg.maps, user_dot hg.maps, add_assoc,
    add_assoc _ (∑ k ∈ range (N - n), _) (∑ k ∈ range (N - n), _), ← sum_add_distrib, ← sum_add_distrib]
  congr 1
  · congr 1
    · congr 1
      · exact sum_congr rfl fun i hi => by rw [b1 i (mem_range.1 hi)]
      · refine sum_congr rfl fun k hk => ?_
        have hk : k < P.i.length := mem_range.1 hk
        obtain ⟨j, hj, s1, s2⟩ := slot_of hg.patP hPw.1 n (le_refl _) (by rw [hPw.2]; exact hk)
        rw [b2 j hj k s1 s2]
    · refine sum_congr rfl fun k hk => ?_
      have hk : k < A.i.length := mem_range.1 hk
      obtain ⟨j, hj, s1, s2⟩ := slot_of hg.patA hAw.1 n (le_refl _) (by rw [hAw.2]; exact hk)
      rw [b3 j hj k s1 s2]
  · exact sum_congr rfl fun k hk => b4 k (mem_range.1 hk) _ _ (fun he => heq k (mem_range.1 hk) he _)

/-- The gradient with respect to the user parameters is the adjoint of the derivative of the solution: after any sequence of calls
that ends with `cpg_gradient`, for every direction `th` of the user parameters, with `(x', y')` the derivative of the solution when
the canonical parameters move as their maps say, the incoming gradient times `x'` is `cpg_dp` times `th`, up to the constant `eps`
times the last correction of the iterative refinement. -/
theorem C94_adjoint (hg : Generated (exact sqrt eps tol) n N NP P A pL iL Q M)
    (hq : Verif.Spec.Grad.QdldlOK n N (factorOf N Q.factor)) (hsqrt : ∀ x, 0 < x → sqrt x * sqrt x = x)
    (h : GradSetup eps n N (csc P) (csc A)) (hPw : Whole n P) (hAw : Whole n A) (ops : List (Op R)) (c : Call R)
    (ho : ∀ op ∈ ops ++ [.grad c], OpOK n N (patternsOf (exact sqrt eps tol) n N P A pL iL) op) (hv : Convex n (ops ++ [.grad c]))
    (hsym : ∀ r < n, ∀ s < n, ent (csc (latest P A (ops ++ [.grad c])).1) r s = ent (csc (latest P A (ops ++ [.grad c])).1) s r)
    (th x' y' : Nat → R) (hdPs : ∀ r < n, ∀ s < n, ent (moveM P M.P th) r s = ent (moveM P M.P th) s r) (eqRow : Nat → Prop)
    (heq : ∀ k < N - n, eqRow k → move M.l th k = move M.u th k)
    (hineq : ∀ k < N - n, ¬ eqRow k → ∀ b, Op.grad b ∈ ops ++ [.grad c] → -tol ≤ arr b.y k)
    (hlin : Linearised n (N - n) (ent (csc (latest P A (ops ++ [.grad c])).1)) (ent (csc (latest P A (ops ++ [.grad c])).2))
      (ent (moveM P M.P th)) (ent (moveM A M.A th)) (Verif.Spec.Grad.Active tol (arr c.y)) (move M.q th) (move M.u th) (arr c.x)
      (arr c.y) x' y') :
    ∃ t, run (exact sqrt eps tol) Q n N NP M (start (exact sqrt eps tol) n N NP P A) (ops ++ [.grad c]) = .ok t ∧
      t.dx = List.replicate n 0 ∧
      ∑ i ∈ range n, arr (incoming n (List.replicate n 0) ops) i * x' i = ∑ p ∈ range NP, arr t.dp p * th p +
        eps * (∑ i ∈ range n, arr t.delta i * x' i -
          ∑ k ∈ range (N - n), if Verif.Spec.Grad.Active tol (arr c.y) k then arr t.delta (n + k) * y' k else 0) := by
  obtain ⟨t, W, delta, g, h1, h2, h3, h4⟩ := start_last hg ops c ho
  refine ⟨t, h1, h3, ?_⟩
  have hc := calls_ok _ ho hv (List.replicate n (0 : R))
  have hsy : ∀ {k}, k < N - n → ¬ eqRow k → ∀ d ∈ calls n (List.replicate n 0) (ops ++ [.grad c]), -tol ≤ d.y k := by
    intro k hk hn d hd
    obtain ⟨b, dx', hb, rfl⟩ := mem_calls hd
    exact hineq k hk hn b hb
  have cur := current_calls (n := n) P A (List.replicate n 0) (ops ++ [.grad c])
  rw [calls_snoc] at hc h2 hsy cur
  have key := C28_adjoint (tol := tol) hq hsqrt h W delta g _ _ hc (by rw [cur]; exact hsym) (moveM P M.P th) (moveM A M.A th) ⟨rfl, rfl⟩
    ⟨rfl, rfl⟩ hdPs (move M.q th) (move M.l th) (move M.u th) x' y' eqRow heq (fun k hk hn => hsy hk hn) (by rw [cur]; exact hlin)
  simp only at key
  rw [← h2] at key
  rw [h4, user_dot hg.maps]
  rw [stored_dot hg.patP hPw, stored_dot hg.patA hAw] at key
  exact key

end

/-! ### a problem: `minimize ½ v x² + q x  subject to  x ≤ u`, with parameters `q`, `u`, `v` -/

section
variable {R : Type} [Field R] [DecidableEq R] [LinearOrder R] [IsStrictOrderedRing R] {sqrt : R → R} {eps tol : R}

/-- The matrix `[v]`. -/
def rOne (v : R) : Csc R := ⟨[0, 1], [0], [v], 1⟩

/-- Factorization of a KKT matrix with one variable and one constraint. -/
def rFac (K : Csc R) : Fac R :=
  { p := [0, 1, 1], i := [1], x := [ent (csc K) 0 1 / ent (csc K) 0 0]
    D := [ent (csc K) 0 0, ent (csc K) 1 1 - ent (csc K) 0 1 * ent (csc K) 0 1 / ent (csc K) 0 0]
    Dinv := [1 / ent (csc K) 0 0, 1 / (ent (csc K) 1 1 - ent (csc K) 0 1 * ent (csc K) 0 1 / ent (csc K) 0 0)] }

/-- The library: this factorization, and substitution with the factor. -/
def rQ : Qdldl R := ⟨rFac, fun L D x => (List.range x.length).map (Verif.Model.Grad.qsolve x.length (factor L) (arr D) (arr x))⟩

/-- `q` is parameter 0, the bound is parameter 1, the entry of `P` is parameter 2. -/
def rM : Maps R :=
  ⟨⟨true, 1, ⟨[0, 1], [0], [1], 1⟩⟩, ⟨false, 0, ⟨[], [], [], 0⟩⟩, ⟨true, 1, ⟨[0, 1], [1], [1], 1⟩⟩, ⟨true, 1, ⟨[0, 1], [2], [1], 1⟩⟩,
    ⟨false, 0, ⟨[], [], [], 0⟩⟩⟩

/-- The patterns of this problem. -/
def rPat : Patterns := ⟨[0, 1, 3], [0, 0, 1], [0, 2, 3], [0, 1, 0], [0, 1], [0], [0, 1], [0], [0, 1, 1], [1]⟩

theorem rPat_eq (he : 0 < eps) : patternsOf (exact sqrt eps tol) 1 2 (rOne 1) (rOne 1) [0, 1, 1] [1] = rPat := by
  have h1 : (1 : R) + eps ≠ 0 := by positivity
  unfold patternsOf rPat kInit ktInit compress plusDiag rowOf lineOf cellOf rOne
  simp [exact, List.range_succ, lineOf, h1]

theorem rSymbolic : Symbolic 2 rPat.pK rPat.iK [0, 1, 1] [1] := by
  have hlt : ∀ r c, c < 2 → Has [0, 1, 1] [1] r c → r = 1 := by
    rintro r c hc ⟨k, h1, h2, h3⟩
    have hb : ∀ c < 2, ix [0, 1, 1] (c + 1) ≤ 1 := by decide
    have := hb c hc
    obtain rfl : k = 0 := by omega
    exact h3.symm
  have h1 : ∀ c < 2, ∀ k < 1, ix [0, 1, 1] c ≤ k → k < ix [0, 1, 1] (c + 1) → c < ix [1] k := by decide
  have h3 : ∀ c < 2, ∀ r < c, Has rPat.pK rPat.iK r c → Has [0, 1, 1] [1] c r := by decide
  have hb : ∀ c < 2, ix [0, 1, 1] (c + 1) ≤ 1 := by decide
  refine ⟨⟨rfl, by decide, by decide, by decide⟩, rfl, rfl, fun c hc k a b => h1 c hc k (by have := hb c hc; omega) a b,
    fun c hc k a b => ?_, fun r c a b => h3 c b r a, fun j r s a b e f => ?_⟩
  · have := hb c hc
    omega
  · have := hlt r j a e
    have := hlt s j a f
    omega

theorem rGenerated (he : 0 < eps) : Generated (exact sqrt eps tol) 1 2 3 (rOne 1) (rOne 1) [0, 1, 1] [1] rQ rM := by
  have hl : Lines 1 1 [0, 1] [0] := ⟨rfl, by decide, by decide, by decide⟩
  have m0 : ∀ c < 3, Lines 1 3 [0, 1] [c] := fun c hc => ⟨rfl, by decide, Nat.le_refl 1, fun k hk => by
    obtain rfl : k = 0 := by simpa using hk
    exact hc⟩
  refine ⟨by decide, hl, rfl, hl, rfl, ?_, ?_, ?_, ?_⟩
  · have := rSymbolic
    rw [← rPat_eq (sqrt := sqrt) (tol := tol) he] at this
    exact this
  · rw [rPat_eq he]
    refine ⟨fun _ _ => rfl, fun _ _ => rfl, fun _ _ => rfl, fun _ _ => rfl, fun _ _ => rfl, fun _ _ x => ?_⟩
    show ((List.range x.length).map _).length = _
    rw [List.length_map, List.length_range]
  · intro L D x hx
    have e : rQ.solve L D x = (List.range 2).map (Verif.Model.Grad.qsolve 2 (factor L) (arr D) (arr x)) := by
      show (List.range x.length).map (Verif.Model.Grad.qsolve x.length (factor L) (arr D) (arr x)) = _
      rw [hx]
    rw [e]
    refine ⟨by rw [List.length_map, List.length_range], fun k hk => ?_⟩
    unfold arr
    rw [List.getD_eq_getElem?_getD, List.getElem?_map, List.getElem?_range hk]
    rfl
  · rw [rPat_eq he]
    exact ⟨fun _ => ⟨le_refl _, m0 0 (by decide), rfl⟩, fun h => (by cases h), fun _ => ⟨le_refl _, m0 1 (by decide), rfl⟩,
      fun _ => ⟨le_refl _, m0 2 (by decide), rfl⟩, fun h => (by cases h)⟩

theorem rOne_ent (v : R) : ent (csc (rOne v)) 0 0 = v := by simp [ent, csc, rOne, arr]

theorem rSetup (he : 0 < eps) : GradSetup eps 1 2 (csc (rOne (1 : R))) (csc (rOne 1)) := by
  have hv : Verif.Spec.Grad.ColValid 1 (csc (rOne (1 : R))) := by
    refine ⟨fun c hc => ?_, fun c hc k k' h1 h2 h3 => ?_⟩
    · obtain rfl : c = 0 := by omega
      exact Nat.zero_le _
    · obtain rfl : c = 0 := by omega
      have h3 : k' < 1 := h3
      omega
  have hr : ∀ r, ∀ c < 1, Verif.Spec.Factor.Occupied (csc (rOne (1 : R))) r c → r = 0 := by
    rintro r c hc ⟨_, k, h1, h2, h3, _⟩
    obtain rfl : c = 0 := by omega
    have h2 : k < 1 := h2
    obtain rfl : k = 0 := by omega
    exact h3.symm
  refine ⟨⟨by decide, hv, hv, ?_, ?_⟩, ?_, ?_, ?_, he⟩
  · intro r c hc ho; have := hr r c hc ho; omega
  · intro r c hc ho; have := hr r c hc ho; omega
  · intro r c hc ho; have := hr r c hc ho; omega
  · intro r c hc ho; have := hr r c hc ho; omega
  · intro x
    rw [sum_range_one, sum_range_one]
    have : symUp (ent (csc (rOne (1 : R)))) 0 0 = 1 := rOne_ent 1
    rw [this, mul_one]
    exact mul_self_nonneg _

theorem stored_ent {N : Nat} {K : Verif.Model.Factor.CscL R} (hm : ∀ c < N, K.p c ≤ K.p (c + 1)) (r : Nat) {c : Nat} (hc : c < N) :
    ent (csc (stored N K)) r c = ent K r c := by
  have mono : ∀ m, m ≤ N → ∀ c ≤ m, K.p c ≤ K.p m := by
    intro m
    induction m with
    | zero => intro _ c h; rw [Nat.le_zero.1 h]
    | succ m ih =>
      intro h c hc
      rcases Nat.lt_or_ge c (m + 1) with h1 | h1
      · exact le_trans (ih (by omega) c (by omega)) (hm m (by omega))
      · rw [show c = m + 1 by omega]
  have ap : ∀ c ≤ N, arr ((List.range (N + 1)).map K.p) c = K.p c := by
    intro c h
    unfold arr
    rw [List.getD_eq_getElem?_getD, List.getElem?_map, List.getElem?_range (by omega)]
    rfl
  unfold ent csc stored
  simp only
  rw [ap c (by omega), ap (c + 1) (by omega)]
  refine sum_congr rfl fun k hk => ?_
  have := mono N (le_refl _) (c + 1) hc
  have hk : k < K.p N := by have := mem_Ico.1 hk; omega
  unfold arr
  rw [List.getD_eq_getElem?_getD, List.getD_eq_getElem?_getD, List.getElem?_map, List.getElem?_map, List.getElem?_range hk]
  rfl

theorem rFac_ok : Verif.Spec.Grad.QdldlOK 1 2 (factorOf 2 (rFac : Csc R → Fac R)) := by
  intro K hU hQ hpos
  have hm : ∀ c < 2, K.p c ≤ K.p (c + 1) := fun c hc => le_of_lt (hU.nonempty c hc)
  have s00 := stored_ent hm 0 (show 0 < 2 by decide)
  have s01 := stored_ent hm 0 (show 1 < 2 by decide)
  have s11 := stored_ent hm 1 (show 1 < 2 by decide)
  obtain ⟨f1, f2, f3, f4⟩ := fac2_ok K hU hQ hpos
  have h0 : ent K 0 0 ≠ 0 := f3 0 (by decide)
  have e10 : ent (factorOf 2 rFac K).L 1 0 = ent K 0 1 / ent K 0 0 := by
    rw [← s00, ← s01]
    show (∑ k ∈ Ico 0 1, if arr [1] k = 1 then arr [_] k else 0) = _
    simp only [Nat.Ico_zero_eq_range, sum_range_one]
    rfl
  have e01 : ent (factorOf 2 rFac K).L 0 1 = 0 := by simp [ent, factorOf, rFac, arr]
  have g10 : ent (fac2 K).L 1 0 = ent K 0 1 / ent K 0 0 := by simp [ent, fac2]
  have g01 : ent (fac2 K).L 0 1 = 0 := by simp [ent, fac2]
  have eD : ∀ t < 2, (factorOf 2 rFac K).D t = (fac2 K).D t := by
    intro t ht
    rcases (show t = 0 ∨ t = 1 by omega) with rfl | rfl
    · exact s00
    · show ent _ 1 1 - ent _ 0 1 * ent _ 0 1 / ent _ 0 0 = _
      rw [s00, s01, s11]
      rfl
  have eI : ∀ t < 2, (factorOf 2 rFac K).Dinv t = (fac2 K).Dinv t := by
    intro t ht
    rcases (show t = 0 ∨ t = 1 by omega) with rfl | rfl
    · show 1 / ent _ 0 0 = _
      rw [s00]
      rfl
    · show 1 / (ent _ 1 1 - ent _ 0 1 * ent _ 0 1 / ent _ 0 0) = _
      rw [s00, s01, s11]
      rfl
  have eU : ∀ r < 2, ∀ c < 2, unitOf (factorOf 2 rFac K).L r c = unitOf (fac2 K).L r c := by
    intro r hr c hc
    rcases (show r = 0 ∨ r = 1 by omega) with rfl | rfl <;> rcases (show c = 0 ∨ c = 1 by omega) with rfl | rfl <;>
      simp [unitOf, e10, e01, g10, g01]
  have pb : ∀ c < 2, ((factorOf 2 rFac K).L.p c = if c = 0 then 0 else 1) ∧ (factorOf 2 rFac K).L.p (c + 1) = 1 := by
    intro c hc
    rcases (show c = 0 ∨ c = 1 by omega) with rfl | rfl <;> exact ⟨rfl, rfl⟩
  have occ : ∀ r c, c < 2 → Verif.Spec.Factor.Occupied (factorOf 2 rFac K).L r c → r = 1 := by
    rintro r c hc ⟨_, k, h1, h2, h3, _⟩
    rw [(pb c hc).2] at h2
    obtain rfl : k = 0 := by omega
    exact h3.symm
  refine ⟨⟨⟨rfl, ?_, rfl, ?_, ?_⟩, ?_, ?_⟩, ?_, ?_, ?_⟩
  · intro c hc
    rw [(pb c hc).1, (pb c hc).2]
    split <;> decide
  · intro c hc k h1 h2
    rw [(pb c hc).2] at h2
    omega
  · intro c hc k h1 h2
    rw [(pb c hc).1] at h1
    rw [(pb c hc).2] at h2
    by_cases h : c = 0
    · subst h
      obtain rfl : k = 0 := by omega
      exact ⟨Nat.zero_lt_one, Nat.lt_succ_self 1⟩
    · rw [if_neg h] at h1
      omega
  · intro r c hrc hc _
    obtain rfl : r = 0 := by omega
    obtain rfl : c = 1 := by omega
    exact ⟨_, 0, Nat.le_refl _, Nat.zero_lt_one, rfl, rfl⟩
  · intro j r s hj hrs h1 h2
    have := occ r j hj h1
    have := occ s j hj h2
    omega
  · intro r hr c hc
    rw [← f2 r hr c hc]
    refine sum_congr rfl fun t ht => ?_
    have ht := mem_range.1 ht
    rw [eU r hr t ht, eU c hc t ht, eD t ht]
  · intro t ht
    rw [eD t ht]
    exact f3 t ht
  · intro t ht
    rw [eI t ht, eD t ht]
    exact f4 t ht

/-- A refresh with `P = [v]`, at primal solution `x` and dual solution `y`. -/
def rCall (v x y : R) : Call R := ⟨rOne v, rOne 1, true, false, [x], [y]⟩

/-- Any sequence of such calls, with incoming gradients set in between. -/
def rOps (l : List (R × R × R × R)) : List (Op R) := l.flatMap fun e => [.delta 0 e.1, .grad (rCall e.2.1 e.2.2.1 e.2.2.2)]

theorem rOps_ok (he : 0 < eps) (l : List (R × R × R × R)) :
    ∀ op ∈ rOps l, OpOK 1 2 (patternsOf (exact sqrt eps tol) 1 2 (rOne 1) (rOne 1) [0, 1, 1] [1]) op := by
  intro op hop
  rw [rPat_eq he]
  obtain ⟨e, _, h⟩ := List.mem_flatMap.1 hop
  rcases List.mem_cons.1 h with rfl | h
  · exact Nat.zero_lt_one
  · rw [List.mem_singleton.1 h]
    exact ⟨⟨rfl, rfl, rfl⟩, ⟨rfl, rfl, rfl⟩, rfl, rfl⟩

theorem rOps_mem {l : List (R × R × R × R)} {c : Call R} (h : Op.grad c ∈ rOps l) : ∃ e ∈ l, c = rCall e.2.1 e.2.2.1 e.2.2.2 := by
  obtain ⟨e, he, h⟩ := List.mem_flatMap.1 h
  rcases List.mem_cons.1 h with h | h
  · cases h
  · refine ⟨e, he, ?_⟩
    have := List.mem_singleton.1 h
    injection this

theorem rOps_convex {l : List (R × R × R × R)} (hl : ∀ e ∈ l, 0 ≤ e.2.1) : Convex 1 (rOps l) := by
  intro c hc _ x
  obtain ⟨e, he, rfl⟩ := rOps_mem hc
  rw [sum_range_one, sum_range_one]
  have : symUp (ent (csc (rOne e.2.1))) 0 0 = e.2.1 := rOne_ent _
  show 0 ≤ x 0 * symUp (ent (csc (rOne e.2.1))) 0 0 * x 0
  rw [this]
  have := hl e he
  have := mul_nonneg this (mul_self_nonneg (x 0))
  linarith

theorem rOps_snoc (l : List (R × R × R × R)) (w v x y : R) :
    (rOps l ++ [.delta 0 w]) ++ [.grad (rCall v x y)] = rOps (l ++ [(w, v, x, y)]) := by simp [rOps]

theorem rOps_latest (l : List (R × R × R × R)) (w v x y : R) (P : Csc R) :
    latest P (rOne 1) (rOps (l ++ [(w, v, x, y)])) = (rOne v, rOne 1) := by
  induction l generalizing P with
  | nil => rfl
  | cons e l ih => exact ih _

theorem rOps_incoming (l : List (R × R × R × R)) (w u : R) : incoming 1 [u] (rOps l ++ [.delta 0 w]) = [w] := by
  induction l generalizing u with
  | nil => rfl
  | cons e l ih => exact ih 0

/-- The derivative of the solution when the constraint is active: `x` follows the bound. -/
theorem rLinearised (v x y : R) (hy : tol < y) (th : Nat → R) :
    Linearised 1 1 (ent (csc (rOne v))) (ent (csc (rOne 1))) (ent (moveM (rOne 1) rM.P th)) (ent (moveM (rOne 1) rM.A th))
      (Verif.Spec.Grad.Active tol (arr [y])) (move rM.q th) (move rM.u th) (arr [x]) (arr [y]) (fun _ => th 1)
      (fun _ => -(v * th 1 + th 2 * x + th 0)) := by
  have e1 := rOne_ent v
  have e2 := rOne_ent (1 : R)
  have e3 : ent (moveM (rOne (1 : R)) rM.P th) 0 0 = th 2 := by simp [ent, moveM, rOne, arr, move, rM]
  have e4 : ent (moveM (rOne (1 : R)) rM.A th) 0 0 = 0 := by simp [ent, moveM, rOne, move, rM]
  have e5 : move rM.q th 0 = th 0 := by simp [move, rM, arr]
  have e6 : move rM.u th 0 = th 1 := by simp [move, rM, arr]
  have a0 : Verif.Spec.Grad.Active tol (arr [y]) 0 := Or.inr hy
  have x0 : arr [x] 0 = x := rfl
  constructor
  · intro i hi
    obtain rfl : i = 0 := by omega
    rw [sum_range_one, sum_range_one, if_pos a0, e1, e2, e3, e4, e5, x0]
    ring
  · intro k hk _
    obtain rfl : k = 0 := by omega
    rw [sum_range_one, e2, e4, e6]
    ring

end

theorem rEps : (0 : ℝ) < 1 / 1000000 := by norm_num

/-- The hypotheses of `C94_refines` are met, by calls with any values. -/
example (l : List (ℝ × ℝ × ℝ × ℝ)) :=
  C94_refines (sqrt := Real.sqrt) (eps := (1 / 1000000 : ℝ)) (tol := 1 / 10 ^ 12) (rGenerated rEps) (rOps l) (rOps_ok rEps l)

/-- The hypotheses of `C94_factor_exact` are met, by any sequence of calls with nonnegative entries of `P`. -/
example (l : List (ℝ × ℝ × ℝ × ℝ)) (w v x y : ℝ) (hl : ∀ e ∈ l ++ [(w, v, x, y)], 0 ≤ e.2.1) :=
  C94_factor_exact (sqrt := Real.sqrt) (eps := (1 / 1000000 : ℝ)) (tol := 1 / 10 ^ 12) (rGenerated rEps) rFac_ok
    (fun _ hx => Real.mul_self_sqrt (le_of_lt hx)) (rSetup rEps) (rOps l ++ [.delta 0 w]) (rCall v x y)
    (by rw [rOps_snoc]; exact rOps_ok rEps _) (by rw [rOps_snoc]; exact rOps_convex hl)

theorem rWhole : Whole 1 (rOne (1 : ℝ)) := ⟨rfl, rfl⟩

/-- The hypotheses of `C94_history_independent` are met, by two such sequences of any length that end with the same call. -/
example (l l' : List (ℝ × ℝ × ℝ × ℝ)) (w v x y : ℝ) (hl : ∀ e ∈ l ++ [(w, v, x, y)], 0 ≤ e.2.1 ∧ 0 ≤ e.2.2.2)
    (hl' : ∀ e ∈ l' ++ [(w, v, x, y)], 0 ≤ e.2.1 ∧ 0 ≤ e.2.2.2) :
    ∃ t t', run (exact Real.sqrt (1 / 1000000) (1 / 10 ^ 12)) rQ 1 2 3 rM (start (exact Real.sqrt (1 / 1000000) (1 / 10 ^ 12)) 1 2 3
        (rOne 1) (rOne 1)) (rOps (l ++ [(w, v, x, y)])) = .ok t ∧
      run (exact Real.sqrt (1 / 1000000) (1 / 10 ^ 12)) rQ 1 2 3 rM (start (exact Real.sqrt (1 / 1000000) (1 / 10 ^ 12)) 1 2 3
        (rOne 1) (rOne 1)) (rOps (l' ++ [(w, v, x, y)])) = .ok t' ∧ ∀ p < 3, arr t.dp p = arr t'.dp p := by
  have key : ∀ l : List (ℝ × ℝ × ℝ × ℝ), (∀ e ∈ l, 0 ≤ e.2.1 ∧ 0 ≤ e.2.2.2) → ∀ k < 2 - 1, ¬ False → ∀ b, Op.grad b ∈ rOps l →
      -(1 / 10 ^ 12 : ℝ) ≤ arr b.y k := by
    intro l hl k hk _ b hb
    obtain ⟨e, he, rfl⟩ := rOps_mem hb
    obtain rfl : k = 0 := by omega
    have := (hl e he).2
    show _ ≤ e.2.2.2
    have : (0 : ℝ) ≤ 1 / 10 ^ 12 := by positivity
    linarith
  have := C94_history_independent (sqrt := Real.sqrt) (eps := (1 / 1000000 : ℝ)) (tol := 1 / 10 ^ 12) (rGenerated rEps) rFac_ok
    (fun _ hx => Real.mul_self_sqrt (le_of_lt hx)) (rSetup rEps) rWhole rWhole (rOps l ++ [.delta 0 w]) (rOps l' ++ [.delta 0 w])
    (rCall v x y) (rCall v x y)
    (by rw [rOps_snoc]; exact rOps_ok rEps _) (by rw [rOps_snoc]; exact rOps_convex fun e he => (hl e he).1)
    (by rw [rOps_snoc]; exact rOps_ok rEps _) (by rw [rOps_snoc]; exact rOps_convex fun e he => (hl' e he).1) rfl rfl
    (by rw [show List.replicate 1 (0 : ℝ) = [0] from rfl, rOps_incoming, rOps_incoming]) (by rw [rOps_snoc, rOps_snoc, rOps_latest, rOps_latest])
    (fun _ => False) (fun k hk h => h.elim) (by rw [rOps_snoc]; exact key _ hl) (by rw [rOps_snoc]; exact key _ hl')
  rw [rOps_snoc, rOps_snoc] at this
  exact this

/-- The hypotheses of `C94_adjoint` are met: after any such sequence, with the constraint active at the last solution, for every
direction of the three parameters; the derivative of the solution is that of the bound. -/
example (l : List (ℝ × ℝ × ℝ × ℝ)) (w v x y : ℝ) (hl : ∀ e ∈ l ++ [(w, v, x, y)], 0 ≤ e.2.1 ∧ 0 ≤ e.2.2.2) (hy : 1 / 10 ^ 12 < y)
    (th : Nat → ℝ) :
    ∃ t, run (exact Real.sqrt (1 / 1000000) (1 / 10 ^ 12)) rQ 1 2 3 rM (start (exact Real.sqrt (1 / 1000000) (1 / 10 ^ 12)) 1 2 3
        (rOne 1) (rOne 1)) (rOps (l ++ [(w, v, x, y)])) = .ok t ∧
      w * th 1 = arr t.dp 0 * th 0 + arr t.dp 1 * th 1 + arr t.dp 2 * th 2 +
        1 / 1000000 * (arr t.delta 0 * th 1 - arr t.delta 1 * -(v * th 1 + th 2 * x + th 0)) := by
  obtain ⟨t, h1, -, h2⟩ := C94_adjoint (sqrt := Real.sqrt) (eps := (1 / 1000000 : ℝ)) (tol := 1 / 10 ^ 12) (rGenerated rEps) rFac_ok
    (fun _ hx => Real.mul_self_sqrt (le_of_lt hx)) (rSetup rEps) rWhole rWhole (rOps l ++ [.delta 0 w]) (rCall v x y)
    (by rw [rOps_snoc]; exact rOps_ok rEps _) (by rw [rOps_snoc]; exact rOps_convex fun e he => (hl e he).1)
    (fun r hr s hs => by rw [show r = 0 by omega, show s = 0 by omega]) th _ _
    (fun r hr s hs => by rw [show r = 0 by omega, show s = 0 by omega])
    (fun _ => False) (fun k hk h => h.elim) (by
      rw [rOps_snoc]
      intro k hk _ b hb
      obtain ⟨e, he, rfl⟩ := rOps_mem hb
      obtain rfl : k = 0 := by omega
      have := (hl e he).2
      show _ ≤ e.2.2.2
      have : (0 : ℝ) ≤ 1 / 10 ^ 12 := by positivity
      linarith)
    (by
      rw [rOps_snoc, rOps_latest]
      exact rLinearised v x y hy th)
  rw [rOps_snoc] at h1
  refine ⟨t, h1, ?_⟩
  rw [show List.replicate 1 (0 : ℝ) = [0] from rfl, rOps_incoming, sum_range_one, sum_range_one, sum_range_one, sum_range_succ,
    sum_range_succ, sum_range_one, if_pos (show Verif.Spec.Grad.Active (1 / 10 ^ 12) (arr (rCall v x y).y) 0 from Or.inr hy)] at h2
  exact h2

end Verif.Props
