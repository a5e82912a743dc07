import Verif.Lemmas.Uncanon
import Verif.Props.GradHist
import Verif.Props.GradSign
/-!
C27: gradients with respect to the user parameters.
-/
namespace Verif.Props
open Verif.Model Verif.Spec Verif.Lemmas Finset Verif.Model.Grad

section
variable {R : Type} [CommRing R]

/-- The maps fit the canonical parameters: a changing canonical parameter has a valid map with as many
rows as the loop visits. -/
structure MapsOK (NP : Nat) (s : QpDims) (M : QpMaps R) : Prop where
  q : M.qc = true → Csr.Valid M.q s.n NP
  l : M.lc = true → Csr.Valid M.l s.nl NP
  u : M.uc = true → Csr.Valid M.u s.nu NP
  P : M.Pc = true → Csr.Valid M.P s.nnzP NP
  A : M.Ac = true → Csr.Valid M.A s.nnzA NP

/-- The stored values of the canonical parameters. -/
structure CanonVals (R : Type) where
  (q l u P A : List R)

/-- Canonicalization of all five from the parameter vector `p`, starting from stored values `o`. -/
def canonAll (s : QpDims) (M : QpMaps R) (p : List R) (o : CanonVals R) : Option (CanonVals R) := do
  let q ← canonStep M.qc s.n M.q p o.q
  let l ← canonStep M.lc s.nl M.l p o.l
  let u ← canonStep M.uc s.nu M.u p o.u
  let P ← canonStep M.Pc s.nnzP M.P p o.P
  let A ← canonStep M.Ac s.nnzA M.A p o.A
  return ⟨q, l, u, P, A⟩

/-- The stored values have room for the loops. -/
structure Room (s : QpDims) (o : CanonVals R) : Prop where
  q : s.n ≤ o.q.length
  l : s.nl ≤ o.l.length
  u : s.nu ≤ o.u.length
  P : s.nnzP ≤ o.P.length
  A : s.nnzA ≤ o.A.length

omit [CommRing R] in
theorem canonAll_parts [Zero R] [Add R] [Mul R] {s : QpDims} {M : QpMaps R} {p : List R}
    {o v : CanonVals R}
    (h : (do
      let q ← canonStep M.qc s.n M.q p o.q
      let l ← canonStep M.lc s.nl M.l p o.l
      let u ← canonStep M.uc s.nu M.u p o.u
      let P ← canonStep M.Pc s.nnzP M.P p o.P
      let A ← canonStep M.Ac s.nnzA M.A p o.A
      return (⟨q, l, u, P, A⟩ : CanonVals R)) = some v) :
    canonStep M.qc s.n M.q p o.q = some v.q ∧ canonStep M.lc s.nl M.l p o.l = some v.l ∧
    canonStep M.uc s.nu M.u p o.u = some v.u ∧ canonStep M.Pc s.nnzP M.P p o.P = some v.P ∧
    canonStep M.Ac s.nnzA M.A p o.A = some v.A := by
  simp only [Option.bind_eq_bind, Option.bind_eq_some_iff] at h
  obtain ⟨q, h1, l, h2, u, h3, P, h4, A, h5, h6⟩ := h
  cases h6
  exact ⟨h1, h2, h3, h4, h5⟩

/-- C27. The gradient of the user parameters is the adjoint of canonicalization: for all canonical
gradients `g`, whatever `cpg_dp` held before, and for any two values `p`, `p'` of the user parameters, the
inner product of `cpg_dp` with `p' - p` is the inner product of `g` with the change of the canonical
parameters that the generated canonicalization makes between `p` and `p'`. No access is out of bounds. -/
theorem C27_adjoint_of_canonicalization {NP : Nat} {s : QpDims} {M : QpMaps R} (hM : MapsOK NP s M)
    (g : DCanon R) (dp p p' : List R) (o v v' : CanonVals R) (hdp : dp.length = NP)
    (hp : p.length = NP) (hp' : p'.length = NP) (ho : Room s o)
    (h : canonAll s M p o = some v) (h' : canonAll s M p' o = some v') :
    ∃ dp', uncanonicalize NP s M g dp = some dp' ∧ dp'.length = NP ∧
      ∑ c ∈ range NP, fn dp' c * (fn p' c - fn p c) =
        ∑ i ∈ range s.n, g.dq i * (fn v'.q i - fn v.q i) +
        ∑ k ∈ range s.nl, g.dl k * (fn v'.l k - fn v.l k) +
        ∑ k ∈ range s.nu, g.du k * (fn v'.u k - fn v.u k) +
        ∑ k ∈ range s.nnzP, g.dP k * (fn v'.P k - fn v.P k) +
        ∑ k ∈ range s.nnzA, g.dA k * (fn v'.A k - fn v.A k) := by
  obtain ⟨q1, l1, u1, P1, A1⟩ := canonAll_parts h
  obtain ⟨q2, l2, u2, P2, A2⟩ := canonAll_parts h'
  have hq := block_adjoint g.dq hM.q p p' _ _ _ hp hp' ho.q q1 q2
  have hl := block_adjoint g.dl hM.l p p' _ _ _ hp hp' ho.l l1 l2
  have hu := block_adjoint g.du hM.u p p' _ _ _ hp hp' ho.u u1 u2
  have hP := block_adjoint g.dP hM.P p p' _ _ _ hp hp' ho.P P1 P2
  have hA := block_adjoint g.dA hM.A p p' _ _ _ hp hp' ho.A A1 A2
  obtain ⟨dp', e, el, eh⟩ := uncanon_spec' NP (gradBlocks s M g) dp hdp (by
    intro b hb hc
    simp only [gradBlocks, List.mem_cons, List.not_mem_nil, or_false] at hb
    rcases hb with rfl | rfl | rfl | rfl | rfl
    · exact ⟨_, le_refl _, hM.q hc⟩
    · exact ⟨_, le_refl _, hM.l hc⟩
    · exact ⟨_, le_refl _, hM.u hc⟩
    · exact ⟨_, le_refl _, hM.P hc⟩
    · exact ⟨_, le_refl _, hM.A hc⟩)
  refine ⟨dp', e, el, ?_⟩
  rw [← hq, ← hl, ← hu, ← hP, ← hA, ← sum_add_distrib, ← sum_add_distrib, ← sum_add_distrib,
    ← sum_add_distrib]
  apply sum_congr rfl
  intro c _
  rw [eh c]
  simp only [gradBlocks, List.map_cons, List.map_nil, List.sum_cons, List.sum_nil]
  ring

end

section
open Verif.Model.Factor Verif.Spec.Factor Verif.Spec.Grad
variable {R : Type} [Field R]

theorem storedDot_range (n : Nat) (M : CscL R) (g : Nat → R) (nnz : Nat) (hm : ∀ c < n, M.p c ≤ M.p (c + 1))
    (h0 : M.p 0 = 0) (hn : M.p n = nnz) : storedDot n g M = ∑ k ∈ range nnz, g k * M.x k := by
  have : ∀ t ≤ n, ∑ j ∈ range t, ∑ k ∈ Ico (M.p j) (M.p (j + 1)), g k * M.x k =
      ∑ k ∈ range (M.p t), g k * M.x k := by
    intro t
    induction t with
    | zero => intro _; rw [h0]; simp
    | succ t ih =>
      intro ht
      rw [sum_range_succ, ih (by omega), range_eq_Ico, sum_Ico_consecutive _ (Nat.zero_le _) (hm t (by omega)),
        ← range_eq_Ico]
  unfold storedDot
  rw [this n le_rfl, hn]

/-- C27 and C28 together: `cpg_dp` is the gradient of the solution with respect to the user parameters.
After any history of calls, for any two values `p`, `p'` of the user parameters, the inner product of
`cpg_dp` with `p' - p` is the derivative of `⟨dx, x⟩` along the change of the problem that
canonicalization makes between `p` and `p'`, up to `eps` times the last correction of the iterative
refinement. -/
theorem C27_end_to_end [DecidableEq R] [LinearOrder R] [IsStrictOrderedRing R]
    {eps tol : R} {n N : Nat} {P A : CscL R} {qdldl : CscL R → Fac R} {sqrt : R → R}
    (hq : QdldlOK n N qdldl) (hsqrt : ∀ x, 0 < x → sqrt x * sqrt x = x) (h : GradSetup eps n N P A)
    (W : Ws R) (delta : Nat → R) (g : DCanon R) (cs : List (Call R)) (c : Call R)
    (hcs : CallsOK n P A (cs ++ [c]))
    {NP : Nat} {s : QpDims} {M : QpMaps R} (hM : MapsOK NP s M)
    (hn : s.n = n) (hnu : s.nu = N - n) (hnl : s.nl ≤ s.nu)
    (hP0 : P.p 0 = 0 ∧ P.p n = s.nnzP) (hA0 : A.p 0 = 0 ∧ A.p n = s.nnzA)
    (dp p p' : List R) (o v v' : CanonVals R) (hdp : dp.length = NP)
    (hp : p.length = NP) (hp' : p'.length = NP) (ho : Room s o)
    (hv : canonAll s M p o = some v) (hv' : canonAll s M p' o = some v')
    (hlu : ∀ k < s.nl, fn v.l k = fn v.u k ∧ fn v'.l k = fn v'.u k)
    (hsym : ∀ r < n, ∀ t < n, ent (current P A ((cs ++ [c]).map Call.f)).1 r t =
      ent (current P A ((cs ++ [c]).map Call.f)).1 t r)
    (hdPs : ∀ r < n, ∀ t < n, ent { P with x := fun k => fn v'.P k - fn v.P k } r t =
      ent { P with x := fun k => fn v'.P k - fn v.P k } t r)
    (x' y' : Nat → R)
    (hineq : ∀ k < N - n, s.nl ≤ k → ∀ c' ∈ cs ++ [c], -tol ≤ c'.y k)
    (hlin : Linearised n (N - n) (ent (current P A ((cs ++ [c]).map Call.f)).1)
      (ent (current P A ((cs ++ [c]).map Call.f)).2)
      (ent { P with x := fun k => fn v'.P k - fn v.P k }) (ent { A with x := fun k => fn v'.A k - fn v.A k })
      (Active tol c.y) (fun i => fn v'.q i - fn v.q i) (fun i => fn v'.u i - fn v.u i) c.x c.y x' y') :
    let st := runGrad qdldl sqrt eps tol n N P A (genState eps n N P A W delta g) (cs ++ [c])
    ∃ dp', uncanonicalize NP s M st.g dp = some dp' ∧ dp'.length = NP ∧
      ∑ i ∈ range n, c.dx i * x' i =
        ∑ j ∈ range NP, fn dp' j * (fn p' j - fn p j) +
        eps * (∑ i ∈ range n, st.delta i * x' i -
          ∑ k ∈ range (N - n), if Active tol c.y k then st.delta (n + k) * y' k else 0) := by
  have key := C28_adjoint (tol := tol) hq hsqrt h W delta g cs c hcs hsym
    { P with x := fun k => fn v'.P k - fn v.P k } { A with x := fun k => fn v'.A k - fn v.A k }
    ⟨rfl, rfl⟩ ⟨rfl, rfl⟩ hdPs (fun i => fn v'.q i - fn v.q i)
    (fun i => if i < s.nl then fn v'.l i - fn v.l i else 0) (fun i => fn v'.u i - fn v.u i) x' y'
    (fun k => k < s.nl)
    (by
      intro k _ hk
      simp only [if_pos hk]
      rw [(hlu k hk).1, (hlu k hk).2])
    (by
      intro k hk hne
      exact hineq k hk (Nat.le_of_not_lt hne)) hlin
  simp only at key ⊢
  generalize runGrad qdldl sqrt eps tol n N P A (genState eps n N P A W delta g) (cs ++ [c]) = st at *
  obtain ⟨dp', e1, e2, e3⟩ := C27_adjoint_of_canonicalization hM st.g dp p p' o v v' hdp hp hp' ho hv hv'
  refine ⟨dp', e1, e2, ?_⟩
  rw [key, e3, hn, hnu, storedDot_range n { P with x := fun k => fn v'.P k - fn v.P k } st.g.dP s.nnzP h.data.vP.mono hP0.1 hP0.2,
    storedDot_range n { A with x := fun k => fn v'.A k - fn v.A k } st.g.dA s.nnzA h.data.vA.mono hA0.1 hA0.2]
  have hl : ∑ k ∈ range (N - n), st.g.dl k * (if k < s.nl then fn v'.l k - fn v.l k else 0) =
      ∑ k ∈ range s.nl, st.g.dl k * (fn v'.l k - fn v.l k) := by
    rw [← Nat.add_sub_cancel' (show s.nl ≤ N - n by omega), sum_range_add]
    have : ∀ k ∈ range (N - n - s.nl), st.g.dl (s.nl + k) *
        (if s.nl + k < s.nl then fn v'.l (s.nl + k) - fn v.l (s.nl + k) else 0) = 0 := by
      intro k _
      rw [if_neg (by omega), mul_zero]
    rw [sum_eq_zero this, add_zero]
    apply sum_congr rfl
    intro k hk
    rw [if_pos (mem_range.1 hk)]
  rw [hl]
  ring

end

section
/-- An instance: one variable, one constraint row (an equality), two user parameters `a`, `b` and the
constant; `q = 2a + b`, `l = u = 3b + 1`, `A = a - b`, `P` constant. -/
def uncMaps : QpMaps Int where
  qc := true
  lc := true
  uc := true
  Pc := false
  Ac := true
  q := ⟨[0, 2], [0, 1], [2, 1]⟩
  l := ⟨[0, 2], [1, 2], [3, 1]⟩
  u := ⟨[0, 2], [1, 2], [3, 1]⟩
  P := ⟨[0, 1], [2], [1]⟩
  A := ⟨[0, 2], [0, 1], [1, -1]⟩

def uncDims : QpDims := ⟨1, 1, 1, 1, 1⟩

theorem uncMaps_ok : MapsOK 3 uncDims uncMaps := by
  refine ⟨?_, ?_, ?_, ?_, ?_⟩ <;> intro h <;>
    first
    | exact ⟨by decide, by decide, by decide, by decide, by decide⟩
    | cases h

example : Room (R := Int) uncDims ⟨[0], [0], [0], [1], [0]⟩ ∧
    (∃ v, canonAll uncDims uncMaps [5, 7, 1] ⟨[0], [0], [0], [1], [0]⟩ = some v) ∧
    uncanonicalize 3 uncDims uncMaps
      { dq := fun _ => 10, dl := fun _ => 0, du := fun _ => 100, dP := fun _ => 9, dA := fun _ => 1000 }
      [4, 4, 4] = some [1020, -690, 100] :=
  ⟨⟨by decide, by decide, by decide, by decide, by decide⟩, ⟨_, rfl⟩, by decide⟩

/-- For the end-to-end statement: `minimize ½ x²` subject to `x = a` with user parameter `a`, changed from
0 to 2. -/
noncomputable def uncReal : QpMaps ℝ where
  qc := false
  lc := true
  uc := true
  Pc := false
  Ac := false
  q := ⟨[], [], []⟩
  l := ⟨[0, 1], [0], [1]⟩
  u := ⟨[0, 1], [0], [1]⟩
  P := ⟨[], [], []⟩
  A := ⟨[], [], []⟩

open Verif.Spec.Grad Verif.Spec.Factor Verif.Model.Factor in
example : MapsOK 2 uncDims uncReal ∧ ∃ v v' : CanonVals ℝ,
    canonAll uncDims uncReal [0, 1] ⟨[0], [0], [0], [1], [1]⟩ = some v ∧
    canonAll uncDims uncReal [2, 1] ⟨[0], [0], [0], [1], [1]⟩ = some v' ∧
    (∀ k < 1, fn v.l k = fn v.u k ∧ fn v'.l k = fn v'.u k) ∧
    ∃ x' y' : Nat → ℝ, Linearised 1 (2 - 1) (ent (oneM : CscL ℝ)) (ent oneM)
      (ent { (oneM : CscL ℝ) with x := fun k => fn v'.P k - fn v.P k })
      (ent { (oneM : CscL ℝ) with x := fun k => fn v'.A k - fn v.A k })
      (Active (1 / 1000000000000) (plain (1 : ℝ)).y) (fun i => fn v'.q i - fn v.q i)
      (fun i => fn v'.u i - fn v.u i) (plain 1).x (plain 1).y x' y' ∧ x' 0 = 2 := by
  refine ⟨?_, ⟨[0], [0 + 1 * 0], [0 + 1 * 0], [1], [1]⟩, ⟨[0], [0 + 1 * 2], [0 + 1 * 2], [1], [1]⟩, rfl, rfl,
    fun k _ => ⟨rfl, rfl⟩, fun _ => 2, fun _ => -2, ⟨?_, ?_⟩, rfl⟩
  · refine ⟨?_, ?_, ?_, ?_, ?_⟩ <;> intro h <;>
      first
      | exact ⟨by decide, by decide, by simp [uncReal, uncDims]; decide, by simp [uncReal], by decide⟩
      | cases h
  · intro i hi
    obtain rfl : i = 0 := by omega
    rw [sum_range_one, sum_range_one, oneM_ent, if_pos]
    · simp [ent, oneM, fn]
    · right
      show (1 / 1000000000000 : ℝ) < 1
      norm_num
  · intro k hk _
    obtain rfl : k = 0 := by omega
    rw [sum_range_one, oneM_ent]
    simp [ent, oneM, fn]
end
end Verif.Props
