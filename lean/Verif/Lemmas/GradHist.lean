import Verif.Lemmas.GradSolve
namespace Verif.Lemmas.Grad
open Verif.Model.Factor Verif.Model.Grad Verif.Spec.Factor Verif.Spec.Grad Verif.Lemmas.Factor Finset

variable {R : Type} [Field R] [DecidableEq R]

/-- Rows kept according to the flags. -/
def actOf (n : Nat) (a : Nat → Int) (r : Nat) : Prop := r < n ∨ a (r - n) ≠ 0

instance (n : Nat) (a : Nat → Int) : DecidablePred (actOf n a) := fun r => by
  unfold actOf; infer_instance

omit [DecidableEq R] in
theorem UpperValid.same {N : Nat} {K K' : CscL R} (h : UpperValid N K) (hS : SamePat K K') :
    UpperValid N K' := by
  constructor
  · intro c hc; rw [hS.p]; exact h.nonempty c hc
  · intro c hc; rw [hS.p, hS.i]; exact h.diag c hc
  · intro c hc k; rw [hS.p, hS.i]; exact h.sorted c hc k

variable [LinearOrder R] [IsStrictOrderedRing R]

omit [LinearOrder R] [IsStrictOrderedRing R] in
/-- What `K` stands for. -/
theorem symOf_kkt {eps : R} {n N : Nat} {P A K Kt : CscL R} (h : IsKkt eps n N (ent P) (ent A) K Kt)
    {r c : Nat} (hr : r < N) (hc : c < N) : symOf K r c = kkt eps n (symUp (ent P)) (ent A) r c := by
  unfold symOf
  by_cases hrc : r ≤ c
  · rw [if_pos hrc, h.reg r hr c hc, if_neg (by omega)]
    unfold kkt symUp
    rw [if_pos hrc]
  · rw [if_neg hrc, h.reg c hc r hr, if_neg (by omega)]
    unfold kkt symUp
    rw [if_neg hrc]
    by_cases h1 : c < n
    · by_cases h2 : r < n
      · simp only [if_pos h1, if_pos h2, if_neg (show ¬ c = r by omega), if_neg (show ¬ r = c by omega)]
      · simp only [if_pos h1, if_neg h2]
    · simp only [if_neg h1, if_neg (show ¬ r < n by omega), if_neg (show ¬ c = r by omega),
        if_neg (show ¬ r = c by omega)]

theorem quad_eps (eps : R) (n : Nat) (P : Nat → Nat → R) (A : Nat → Nat → R) (x : Nat → R) :
    ∑ r ∈ range n, ∑ c ∈ range n, x r * kkt eps n P A r c * x c =
      (∑ r ∈ range n, ∑ c ∈ range n, x r * P r c * x c) + eps * ∑ r ∈ range n, x r * x r := by
  rw [mul_sum, ← sum_add_distrib]
  apply sum_congr rfl
  intro r hr
  have hr' := mem_range.1 hr
  have : ∀ c ∈ range n, x r * kkt eps n P A r c * x c =
      x r * P r c * x c + (if r = c then eps * (x r * x c) else 0) := by
    intro c hc
    unfold kkt
    rw [if_pos hr', if_pos (mem_range.1 hc)]
    split <;> ring
  rw [sum_congr rfl this, sum_add_distrib, sum_ite_eq, if_pos hr]

theorem quasi_of_kkt {eps : R} {n N : Nat} {P A K Kt : CscL R} (hnN : n ≤ N) (he : 0 < eps)
    (hp : Psd n (symUp (ent P))) (h : IsKkt eps n N (ent P) (ent A) K Kt) : QuasiDef n N K := by
  refine ⟨hnN, ?_, ?_, ?_⟩
  · intro x
    have : ∑ r ∈ range n, ∑ c ∈ range n, x r * symOf K r c * x c =
        ∑ r ∈ range n, ∑ c ∈ range n, x r * kkt eps n (symUp (ent P)) (ent A) r c * x c := by
      apply sum_congr rfl; intro r hr
      apply sum_congr rfl; intro c hc
      rw [symOf_kkt h (Nat.lt_of_lt_of_le (mem_range.1 hr) hnN) (Nat.lt_of_lt_of_le (mem_range.1 hc) hnN)]
    rw [this, quad_eps]
    have h1 := hp x
    have h2 : 0 ≤ ∑ r ∈ range n, x r * x r := sum_nonneg (fun r _ => mul_self_nonneg _)
    have := mul_nonneg (le_of_lt he) h2
    linarith
  · intro r c h1 h2 h3
    rw [h.reg r (by omega) c h3, if_neg (by omega)]
    unfold kkt
    rw [if_neg (by omega), if_neg (by omega), if_neg (by omega)]
  · intro r h1 h2
    rw [h.reg r h2 r h2, if_neg (by omega)]
    unfold kkt
    rw [if_neg (by omega), if_neg (by omega), if_pos rfl]
    linarith

theorem pos_of_kkt {eps : R} {n N : Nat} {P A K Kt : CscL R} (hnN : n ≤ N) (he : 0 < eps)
    (hp : Psd n (symUp (ent P))) (h : IsKkt eps n N (ent P) (ent A) K Kt) (x : Nat → R)
    (hx : ∃ i < n, x i ≠ 0) : 0 < ∑ r ∈ range n, ∑ c ∈ range n, x r * symOf K r c * x c := by
  have : ∑ r ∈ range n, ∑ c ∈ range n, x r * symOf K r c * x c =
      ∑ r ∈ range n, ∑ c ∈ range n, x r * kkt eps n (symUp (ent P)) (ent A) r c * x c := by
    apply sum_congr rfl; intro r hr
    apply sum_congr rfl; intro c hc
    rw [symOf_kkt h (Nat.lt_of_lt_of_le (mem_range.1 hr) hnN) (Nat.lt_of_lt_of_le (mem_range.1 hc) hnN)]
  rw [this, quad_eps]
  have h1 := hp x
  obtain ⟨i, hi, hne⟩ := hx
  have h2 : 0 < ∑ r ∈ range n, x r * x r := by
    apply sum_pos' (fun r _ => mul_self_nonneg _)
    exact ⟨i, mem_range.2 hi, mul_self_pos.2 hne⟩
  have := mul_pos he h2
  linarith

/-- What happens to a flag. -/
def flagStep (tol y : R) (a : Int) : Int :=
  if y < -tol then (if a = 0 then -1 else a)
  else if tol < y then (if a = 0 then 1 else a)
  else 0

omit [DecidableEq R] [IsStrictOrderedRing R] in
theorem flagStep_ne (tol y : R) (a : Int) : flagStep tol y a ≠ 0 ↔ y < -tol ∨ tol < y := by
  unfold flagStep
  by_cases h1 : y < -tol
  · rw [if_pos h1]
    by_cases h : a = 0 <;> simp [h, h1]
  · rw [if_neg h1]
    by_cases h2 : tol < y
    · rw [if_pos h2]
      by_cases h : a = 0 <;> simp [h, h2]
    · simp [h1, h2]

theorem decoupled_congr {N : Nat} {K : Nat → Nat → R} {act act' : Nat → Prop} [DecidablePred act]
    [DecidablePred act'] (h : ∀ r < N, (act r ↔ act' r)) {r c : Nat} (hr : r < N) (hc : c < N) :
    decoupled K act r c = decoupled K act' r c := by
  unfold decoupled
  simp only [h r hr, h c hc]

theorem Good.congr {N : Nat} {K : CscL R} {M M' : Nat → Nat → R} {W : Ws R} (h : Good N K M W)
    (hM : ∀ r < N, ∀ c < N, M r c = M' r c) : Good N K M' W :=
  ⟨h.pat, fun r hr c hc => (h.fac r hr c hc).trans (hM r hr c hc), h.D, h.Dinv⟩

theorem activeStep_good (sqrt : R → R) (hsqrt : ∀ x, 0 < x → sqrt x * sqrt x = x) (tol : R) {n N : Nat}
    {K : CscL R} (hKU : UpperValid N K) (hK : QuasiDef n N K) (y : Nat → R) (s : GradSt R)
    (hW : Good N K (decoupled (symOf K) (actOf n s.a)) s.W) {i : Nat} (hi : i < N - n) :
    Good N K (decoupled (symOf K) (actOf n (activeStep sqrt tol n N K y s i).a))
      (activeStep sqrt tol n N K y s i).W ∧
    ∀ j, (activeStep sqrt tol n N K y s i).a j = if j = i then flagStep tol (y i) (s.a i) else s.a j := by
  have hadd : ∀ v : Int, v ≠ 0 → s.a i = 0 → Good N K (decoupled (symOf K) (actOf n (upd s.a i v)))
      (ldlAdd sqrt N K (n + i) s.W) := by
    intro v hv h0
    apply ldlAdd_good sqrt hsqrt hKU hK (actOf n s.a) (actOf n (upd s.a i v)) (fun r hr => Or.inl hr)
      (Nat.le_add_right n i) (by omega) ?_ ?_ _ hW
    · rintro (h | h)
      · omega
      · rw [Nat.add_sub_cancel_left] at h; exact h h0
    · intro r
      unfold actOf upd
      by_cases h1 : r < n
      · simp [h1]
      · by_cases h2 : r = n + i
        · subst h2; simp [hv]
        · rw [if_neg (by omega)]; simp [h2]
  have hdel : s.a i ≠ 0 → Good N K (decoupled (symOf K) (actOf n (upd s.a i 0)))
      (ldlDelete sqrt N (n + i) s.W) := by
    intro h0
    apply ldlDelete_good sqrt hsqrt hK (actOf n s.a) (actOf n (upd s.a i 0)) (fun r hr => Or.inl hr)
      (Nat.le_add_right n i) (by omega) ?_ _ hW
    intro r
    unfold actOf upd
    by_cases h1 : r < n
    · simp [h1]; omega
    · by_cases h2 : r = n + i
      · subst h2; simp
      · rw [if_neg (by omega)]; simp [h2]
  have hid : ∀ v, s.a i = v → ∀ j, s.a j = if j = i then v else s.a j := by
    intro v hv j
    by_cases h : j = i
    · rw [if_pos h, h, hv]
    · rw [if_neg h]
  have fin : ∀ t, activeStep sqrt tol n N K y s i = t →
      (Good N K (decoupled (symOf K) (actOf n t.a)) t.W ∧
        ∀ j, t.a j = if j = i then flagStep tol (y i) (s.a i) else s.a j) →
      Good N K (decoupled (symOf K) (actOf n (activeStep sqrt tol n N K y s i).a))
      (activeStep sqrt tol n N K y s i).W ∧
    ∀ j, (activeStep sqrt tol n N K y s i).a j = if j = i then flagStep tol (y i) (s.a i) else s.a j := by
    intro t ht h; rw [ht]; exact h
  refine fin _ rfl ?_
  obtain ⟨t, ht⟩ : ∃ t, t = activeStep sqrt tol n N K y s i := ⟨_, rfl⟩
  rw [← ht]
  unfold activeStep at ht
  unfold flagStep
  by_cases h1 : y i < -tol
  · rw [if_pos h1] at ht
    simp only [if_pos h1]
    by_cases h0 : s.a i = 0
    · rw [if_pos h0] at ht; subst ht
      simp only [if_pos h0]
      exact ⟨hadd (-1) (by decide) h0, fun j => rfl⟩
    · rw [if_neg h0] at ht; subst ht
      simp only [if_neg h0]
      exact ⟨hW, hid _ rfl⟩
  · rw [if_neg h1] at ht
    simp only [if_neg h1]
    by_cases h2 : tol < y i
    · rw [if_pos h2] at ht
      simp only [if_pos h2]
      by_cases h0 : s.a i = 0
      · rw [if_pos h0] at ht; subst ht
        simp only [if_pos h0]
        exact ⟨hadd 1 (by decide) h0, fun j => rfl⟩
      · rw [if_neg h0] at ht; subst ht
        simp only [if_neg h0]
        exact ⟨hW, hid _ rfl⟩
    · rw [if_neg h2] at ht
      simp only [if_neg h2]
      by_cases h0 : s.a i = 0
      · rw [if_neg (by simpa using h0)] at ht; subst ht
        exact ⟨hW, hid _ h0⟩
      · rw [if_pos h0] at ht; subst ht
        exact ⟨hdel h0, fun j => rfl⟩

theorem activeUpdate_good (sqrt : R → R) (hsqrt : ∀ x, 0 < x → sqrt x * sqrt x = x) (tol : R) {n N : Nat}
    {K : CscL R} (hKU : UpperValid N K) (hK : QuasiDef n N K) (y : Nat → R) (s : GradSt R)
    (hW : Good N K (decoupled (symOf K) (actOf n s.a)) s.W) :
    Good N K (decoupled (symOf K) (actOf n (activeUpdate sqrt tol n N K y s).a))
      (activeUpdate sqrt tol n N K y s).W ∧
    ∀ j, (activeUpdate sqrt tol n N K y s).a j =
      if j < N - n then flagStep tol (y j) (s.a j) else s.a j := by
  exact loop_inv (activeStep sqrt tol n N K y)
    (fun m (t : GradSt R) => Good N K (decoupled (symOf K) (actOf n t.a)) t.W ∧
      ∀ j, t.a j = if j < m then flagStep tol (y j) (s.a j) else s.a j)
    (Nat.zero_le _) s ⟨hW, fun j => by simp⟩ (by
      rintro m t _ hm ⟨h1, h2⟩
      obtain ⟨g1, g2⟩ := activeStep_good sqrt hsqrt tol hKU hK y t h1 hm
      refine ⟨g1, fun j => ?_⟩
      rw [g2 j]
      by_cases hj : j = m
      · rw [if_pos hj, if_pos (by omega), h2 m, if_neg (by omega), hj]
      · rw [if_neg hj, h2 j]
        by_cases hlt : j < m
        · rw [if_pos hlt, if_pos (by omega)]
        · rw [if_neg hlt, if_neg (by omega)])

/-- What holds between calls. -/
structure Inv (eps : R) (n N : Nat) (P A : CscL R) (s : GradWs R) : Prop where
  slots : HasSlots n N P A s.kkt.K s.kkt.Kt
  isKkt : IsKkt eps n N (ent P) (ent A) s.kkt.K s.kkt.Kt
  upper : UpperValid N s.kkt.K
  psd : Psd n (symUp (ent P))
  ones : s.init = true → ∀ i, s.a i = 1
  good : s.init = false → Good N s.kkt.K (decoupled (symOf s.kkt.K) (actOf n s.a)) s.W

theorem inv_init {eps : R} {n N : Nat} {P A : CscL R} (h : GradSetup eps n N P A) (W : Ws R)
    (delta : Nat → R) (g : DCanon R) : Inv eps n N P A (genState eps n N P A W delta g) := by
  have hdiag : ∀ c < n, 0 ≤ ent P c c := by
    intro c hc
    have := h.convex (fun i => if i = c then 1 else 0)
    rw [sum_eq_single c, sum_eq_single c] at this
    · simpa [symUp] using this
    · intro b _ hb; simp [hb]
    · intro hn; exact absurd (mem_range.2 hc) hn
    · intro b _ hb; simp [hb]
    · intro hn; exact absurd (mem_range.2 hc) hn
  have hz : ∀ r, ∀ c < n, Occupied P r c → ent P r c + (if r = c then eps else 0) ≠ 0 := by
    intro r c hc ho
    by_cases hrc : r = c
    · subst hrc
      rw [if_pos rfl]
      have := hdiag r hc
      have := h.eps
      exact ne_of_gt (by linarith)
    · rw [if_neg hrc, add_zero]
      exact h.stored r c hc ho (by have := h.upper r c hc ho; omega)
  refine ⟨init_slots h.data hz, init_isKkt eps h.data, ?_, h.convex, fun _ _ => rfl, fun hf => ?_⟩
  · apply init_upper h.data
    · intro r c hc hcr
      apply ent_free
      intro ho
      have := h.upper r c hc ho
      omega
    · intro c hc
      have := hdiag c hc
      have := h.eps
      exact ne_of_gt (by linarith)
  · cases hf

/-- The factor computed by QDLDL belongs to the case that all constraints are active. -/
theorem numeric_good {eps : R} {n N : Nat} {P A : CscL R} {qdldl : CscL R → Fac R} (hq : QdldlOK n N qdldl)
    (he : 0 < eps) {k : Kkt R} (hS : HasSlots n N P A k.K k.Kt)
    (hI : IsKkt eps n N (ent P) (ent A) k.K k.Kt) (hU : UpperValid N k.K) (hp : Psd n (symUp (ent P)))
    (a : Nat → Int) (ha : ∀ i < N - n, a i = 1) (W : Ws R) (hL : W.S.L = (qdldl k.K).L)
    (hD : W.D = (qdldl k.K).D) (hDi : W.Dinv = (qdldl k.K).Dinv) :
    Good N k.K (decoupled (symOf k.K) (actOf n a)) W := by
  obtain ⟨h1, h2, h3, h4⟩ := hq k.K hU (quasi_of_kkt hS.nN he hp hI) (pos_of_kkt hS.nN he hp hI)
  rw [← hL, ← hD, ← hDi] at *
  refine ⟨h1, fun r hr c hc => ?_, h3, h4⟩
  rw [h2 r hr c hc]
  unfold decoupled
  have key : ∀ r < N, actOf n a r := by
    intro r hr
    by_cases h : r < n
    · exact Or.inl h
    · right
      rw [ha (r - n) (by omega)]
      decide
  rw [if_pos ⟨key r hr, key c hc⟩]

/-- The state after the refresh, the (re)factorization and the update of the active set. -/
theorem call_inv {eps tol : R} {n N : Nat} {P0 A0 P A : CscL R} {qdldl : CscL R → Fac R} {sqrt : R → R}
    (hq : QdldlOK n N qdldl) (hsqrt : ∀ x, 0 < x → sqrt x * sqrt x = x) (he : 0 < eps) {s : GradWs R}
    (h : Inv eps n N P A s) (c : Call R) (hf : Refresh.OK P A c.f)
    (hp : ∀ P', c.f.P = some P' → Psd n (symUp (ent P'))) :
    Inv eps n N (c.f.P.getD P) (c.f.A.getD A)
      (gradCall qdldl sqrt eps tol n N P0 A0 c.f c.x c.y c.dx s) ∧
    (gradCall qdldl sqrt eps tol n N P0 A0 c.f c.x c.y c.dx s).init = false ∧
    ∀ j < N - n, (gradCall qdldl sqrt eps tol n N P0 A0 c.f c.x c.y c.dx s).a j =
      flagStep tol (c.y j) (if c.f.P.isSome || c.f.A.isSome then 1 else s.a j) := by
  obtain ⟨r1, r2, r3⟩ := refresh_one h.slots hf h.isKkt
  have hP : SamePattern P (c.f.P.getD P) := by
    cases hfp : c.f.P with
    | none => exact ⟨rfl, rfl⟩
    | some Q => exact hf.1 Q hfp
  have hA : SamePattern A (c.f.A.getD A) := by
    cases hfa : c.f.A with
    | none => exact ⟨rfl, rfl⟩
    | some Q => exact hf.2 Q hfa
  have hS := HasSlots.change h.slots hP hA r1 r2
  have hU := UpperValid.same h.upper r1
  have hpsd : Psd n (symUp (ent (c.f.P.getD P))) := by
    cases hfp : c.f.P with
    | none => exact h.psd
    | some Q => exact hp Q hfp
  have hQ := quasi_of_kkt hS.nN he hpsd r3
  -- after the prologue
  have hpro : ∃ p, p = prologue qdldl eps n N c.f s ∧ p.init = false ∧
      p.kkt = refreshKkt eps n c.f s.kkt ∧
      (∀ j < N - n, p.a j = if c.f.P.isSome || c.f.A.isSome then 1 else s.a j) ∧
      Good N p.kkt.K (decoupled (symOf p.kkt.K) (actOf n p.a)) p.W := by
    obtain ⟨p, hpe⟩ : ∃ p, p = prologue qdldl eps n N c.f s := ⟨_, rfl⟩
    refine ⟨p, hpe, ?_⟩
    unfold prologue at hpe
    by_cases hi : s.init = true
    · simp only [if_pos hi] at hpe
      have ones := h.ones hi
      subst hpe
      refine ⟨rfl, rfl, fun j _ => ?_, ?_⟩
      · simp only; rw [ones j, ite_self]
      · exact numeric_good hq he hS r3 hU hpsd _ (fun i _ => ones i) _ rfl rfl rfl
    · simp only [if_neg hi] at hpe
      by_cases hr : (c.f.P.isSome || c.f.A.isSome) = true
      · simp only [if_pos hr] at hpe
        have ha : ∀ j < N - n, (loop 0 (N - n)).foldl (fun a i => upd a i (1 : Int)) s.a j = 1 := by
          intro j hj
          rw [loop_write (N - n) (fun _ (_ : Int) => 1), if_pos hj]
        subst hpe
        refine ⟨by simpa using hi, rfl, fun j hj => ?_, ?_⟩
        · simp only; rw [ha j hj, if_pos hr]
        · exact numeric_good hq he hS r3 hU hpsd _ ha _ rfl rfl rfl
      · simp only [if_neg hr] at hpe
        have hn : c.f = ⟨none, none⟩ := by
          rcases hc : c.f with ⟨_ | _, _ | _⟩ <;> simp_all
        have hk : refreshKkt eps n c.f s.kkt = s.kkt := by rw [hn]; rfl
        rw [hk] at hpe
        subst hpe
        refine ⟨by simpa using hi, hk.symm, fun j _ => by rw [if_neg hr], ?_⟩
        exact h.good (by simpa using hi)
  obtain ⟨p, hpe, p1, p2, p3, p4⟩ := hpro
  obtain ⟨g1, g2⟩ := activeUpdate_good sqrt hsqrt tol (K := p.kkt.K) (by rw [p2]; exact hU)
    (by rw [p2]; exact hQ) c.y { W := p.W, a := p.a } p4
  unfold gradCall
  rw [← hpe]
  refine ⟨⟨?_, ?_, ?_, hpsd, ?_, fun _ => g1⟩, p1, fun j hj => ?_⟩
  · simp only; rw [p2]; exact hS
  · simp only; rw [p2]; exact r3
  · simp only; rw [p2]; exact hU
  · intro hh
    have : p.init = true := hh
    rw [p1] at this; cases this
  · have := g2 j
    rw [if_pos hj] at this
    refine this.trans ?_
    simp only
    rw [p3 j hj]

/-- The data in use after a sequence of calls. -/
theorem run_inv {eps tol : R} {n N : Nat} {P A : CscL R} {qdldl : CscL R → Fac R} {sqrt : R → R}
    (hq : QdldlOK n N qdldl) (hsqrt : ∀ x, 0 < x → sqrt x * sqrt x = x) (h : GradSetup eps n N P A)
    (W : Ws R) (delta : Nat → R) (g : DCanon R) (cs : List (Call R)) (hcs : CallsOK n P A cs) :
    Inv eps n N (current P A (cs.map Call.f)).1 (current P A (cs.map Call.f)).2
      (runGrad qdldl sqrt eps tol n N P A (genState eps n N P A W delta g) cs) ∧
    SamePattern P (current P A (cs.map Call.f)).1 ∧ SamePattern A (current P A (cs.map Call.f)).2 := by
  induction cs using List.reverseRecOn with
  | nil => exact ⟨inv_init h W delta g, ⟨rfl, rfl⟩, ⟨rfl, rfl⟩⟩
  | append_singleton cs c ih =>
    obtain ⟨i1, i2, i3⟩ := ih (fun d hd => hcs d (List.mem_append_left _ hd))
    obtain ⟨c1, c2⟩ := hcs c (List.mem_append_right _ (List.mem_singleton.2 rfl))
    have hrun : runGrad qdldl sqrt eps tol n N P A (genState eps n N P A W delta g) (cs ++ [c]) =
        gradCall qdldl sqrt eps tol n N P A c.f c.x c.y c.dx
          (runGrad qdldl sqrt eps tol n N P A (genState eps n N P A W delta g) cs) := by
      unfold runGrad; rw [List.foldl_append]; rfl
    have hcur : current P A ((cs ++ [c]).map Call.f) =
        (c.f.P.getD (current P A (cs.map Call.f)).1, c.f.A.getD (current P A (cs.map Call.f)).2) := by
      unfold current; rw [List.map_append, List.foldl_append]; rfl
    rw [hrun, hcur]
    refine ⟨(call_inv hq hsqrt h.eps i1 c ⟨fun Q hQ => SamePattern.trans' i2 (c1.1 Q hQ),
      fun Q hQ => SamePattern.trans' i3 (c1.2 Q hQ)⟩ c2).1, ?_, ?_⟩
    · cases hfp : c.f.P with
      | none => exact i2
      | some Q => exact c1.1 Q hfp
    · cases hfa : c.f.A with
      | none => exact i3
      | some Q => exact c1.2 Q hfa

end Verif.Lemmas.Grad
