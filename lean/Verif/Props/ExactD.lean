import Verif.Props.GradSign
/-!
# C35: which bound a gradient is attributed to, for all histories
-/
namespace Verif.Props
open Verif.Model.Factor Verif.Model.Grad Verif.Spec.Factor Verif.Spec.Grad Verif.Lemmas.Factor
  Verif.Lemmas.Grad Finset

section
variable {R : Type} [Field R] [DecidableEq R] [LinearOrder R] [IsStrictOrderedRing R]

/-- The multiplier of row `k` is zero up to `tol`. -/
def Idle (tol : R) (k : Nat) (c : Call R) : Prop := ¬ (c.y k < -tol ∨ tol < c.y k)

/-- Row `k` is active and no matrix is refreshed. -/
def Stays (tol : R) (k : Nat) (c : Call R) : Prop := (c.y k < -tol ∨ tol < c.y k) ∧ (c.f.P.isSome || c.f.A.isSome) = false

/-- The row was inactive in some call, active with a negative multiplier in the next one, and active without refreshed matrices ever
since. -/
def EnteredLow (tol : R) (k : Nat) (cs : List (Call R)) : Prop :=
  ∃ pre d e post, cs = pre ++ d :: e :: post ∧ Idle tol k d ∧ e.y k < -tol ∧ ∀ c ∈ e :: post, Stays tol k c

omit [Field R] [DecidableEq R] [LinearOrder R] [IsStrictOrderedRing R] in
theorem snoc_cases {α : Type} {l : List α} {a : α} {pre post : List α} {d e : α} (h : l ++ [a] = pre ++ d :: e :: post) :
    (post = [] ∧ l = pre ++ [d] ∧ a = e) ∨ ∃ post', post = post' ++ [a] ∧ l = pre ++ d :: e :: post' := by
  cases post using List.reverseRecOn with
  | nil =>
    left
    have h' : l ++ [a] = (pre ++ [d]) ++ [e] := by simpa using h
    obtain ⟨h1, h2⟩ := List.append_inj' h' rfl
    exact ⟨rfl, h1, by simpa using h2⟩
  | append_singleton post b _ =>
    right
    have h' : l ++ [a] = (pre ++ d :: e :: post) ++ [b] := by simpa using h
    obtain ⟨h1, h2⟩ := List.append_inj' h' rfl
    obtain rfl : a = b := by simpa using h2
    exact ⟨post, rfl, h1⟩

omit [DecidableEq R] [IsStrictOrderedRing R] in
theorem enteredLow_snoc (tol : R) (k : Nat) (cs : List (Call R)) (c : Call R) :
    EnteredLow tol k (cs ++ [c]) ↔
      Stays tol k c ∧ (EnteredLow tol k cs ∨ (c.y k < -tol ∧ ∃ pre d, cs = pre ++ [d] ∧ Idle tol k d)) := by
  constructor
  · rintro ⟨pre, d, e, post, h, h1, h2, h3⟩
    rcases snoc_cases h with ⟨rfl, rfl, rfl⟩ | ⟨post', rfl, rfl⟩
    · exact ⟨h3 _ (List.mem_cons_self ..), Or.inr ⟨h2, pre, d, rfl, h1⟩⟩
    · exact ⟨h3 c (by simp), Or.inl ⟨pre, d, e, post', rfl, h1, h2, fun x hx => h3 x (by
        rcases List.mem_cons.1 hx with h | h
        · simp [h]
        · simp [h])⟩⟩
  · rintro ⟨hs, ⟨pre, d, e, post, rfl, h1, h2, h3⟩ | ⟨hl, pre, d, rfl, hd⟩⟩
    · refine ⟨pre, d, e, post ++ [c], by simp, h1, h2, fun x hx => ?_⟩
      rw [← List.cons_append, List.mem_append, List.mem_singleton] at hx
      rcases hx with hx | rfl
      · exact h3 x hx
      · exact hs
    · exact ⟨pre, d, c, [], by simp, hd, hl, fun x hx => by rw [List.mem_singleton.1 hx]; exact hs⟩

/-- The flag of a row, as a function of the history. -/
theorem run_flag_exact {eps tol : R} {n N : Nat} {P A : CscL R} {qdldl : CscL R → Fac R} {sqrt : R → R}
    (hq : QdldlOK n N qdldl) (hsqrt : ∀ x, 0 < x → sqrt x * sqrt x = x) (h : GradSetup eps n N P A)
    (W : Ws R) (delta : Nat → R) (g : DCanon R) (cs : List (Call R)) (hcs : CallsOK n P A cs) {k : Nat} (hk : k < N - n) :
    ((runGrad qdldl sqrt eps tol n N P A (genState eps n N P A W delta g) cs).a k = 0 ↔ ∃ pre d, cs = pre ++ [d] ∧ Idle tol k d) ∧
    ((runGrad qdldl sqrt eps tol n N P A (genState eps n N P A W delta g) cs).a k = -1 ↔ EnteredLow tol k cs) := by
  induction cs using List.reverseRecOn with
  | nil =>
    refine ⟨⟨fun h => absurd (show (1 : Int) = 0 from h) (by decide), ?_⟩, ⟨fun h => absurd (show (1 : Int) = -1 from h) (by decide), ?_⟩⟩
    · rintro ⟨pre, d, h, -⟩
      simp at h
    · rintro ⟨pre, d, e, post, h, -⟩
      simp at h
  | append_singleton cs c ih =>
    obtain ⟨h1, h2⟩ := ih (fun d hd => hcs d (List.mem_append_left _ hd))
    obtain ⟨s, d0, g0, e1, _, _, e2, _⟩ := run_call (tol := tol) hq hsqrt h W delta g cs c hcs
    have h3 := (run_flags (tol := tol) hq hsqrt h W delta g cs (fun d hd => hcs d (List.mem_append_left _ hd)) hk).1
    rw [← e1, e2 k hk]
    generalize (runGrad qdldl sqrt eps tol n N P A (genState eps n N P A W delta g) cs).a k = b at h1 h2 h3
    constructor
    · rw [← not_iff_not, ← ne_eq, flagStep_ne]
      constructor
      · rintro hy ⟨pre, d, hd, hi⟩
        obtain ⟨-, h4⟩ := List.append_inj' hd rfl
        obtain rfl : c = d := by simpa using h4
        exact hi hy
      · intro hn
        by_contra hy
        exact hn ⟨cs, c, rfl, hy⟩
    · rw [enteredLow_snoc]
      unfold Stays flagStep
      cases hr : (c.f.P.isSome || c.f.A.isSome) with
      | true => by_cases y1 : c.y k < -tol <;> by_cases y2 : tol < c.y k <;> simp [y1, y2]
      | false =>
        rw [← h1, ← h2]
        by_cases y1 : c.y k < -tol <;> by_cases y2 : tol < c.y k <;> by_cases b0 : b = 0 <;> simp [y1, y2, b0]

/-- **C35 (exact)** For all histories: what a constraint contributes to the gradient is attributed to its lower bound if the row entered
the active set with a negative multiplier (`EnteredLow`), and to its upper bound otherwise, whatever the sign of the multiplier is in
this call. -/
theorem C35_exact {eps tol : R} {n N : Nat} {P A : CscL R} {qdldl : CscL R → Fac R}
    {sqrt : R → R} (hq : QdldlOK n N qdldl) (hsqrt : ∀ x, 0 < x → sqrt x * sqrt x = x)
    (h : GradSetup eps n N P A) (W : Ws R) (delta : Nat → R) (g : DCanon R) (cs : List (Call R)) (c : Call R)
    (hcs : CallsOK n P A (cs ++ [c])) :
    let s := runGrad qdldl sqrt eps tol n N P A (genState eps n N P A W delta g) (cs ++ [c])
    ∀ k < N - n, (EnteredLow tol k (cs ++ [c]) → s.g.du k = 0) ∧ (¬ EnteredLow tol k (cs ++ [c]) → s.g.dl k = 0) := by
  intro s k hk
  have fl := (run_flag_exact (tol := tol) hq hsqrt h W delta g (cs ++ [c]) hcs hk).2
  obtain ⟨s', d0, g0, e1, _, _, _, _, e5, _⟩ := run_call (tol := tol) hq hsqrt h W delta g cs c hcs
  have es : s = s' := e1.symm
  rw [← e1] at fl
  rw [es, e5]
  obtain ⟨-, f2, f3, -⟩ := fill_spec h.data s'.a c.x c.y (linsolve n N s'.a s'.W s'.kkt.Kt c.dx d0).r g0
  constructor
  · intro hl
    rw [f3 k hk, fl.mpr hl, if_neg (by decide)]
  · intro hl
    rw [f2 k hk, if_neg (fun e => hl (fl.mp e))]

/-- **C35 (iff)** Two histories that end in the same call with the same data attribute the contribution of a row to the same bound
exactly if there is none or the row entered the active set on the same side in both. -/
theorem C35_iff {eps tol : R} {n N : Nat} {P A : CscL R} {qdldl : CscL R → Fac R}
    {sqrt : R → R} (hq : QdldlOK n N qdldl) (hsqrt : ∀ x, 0 < x → sqrt x * sqrt x = x)
    (h : GradSetup eps n N P A) (W W' : Ws R) (delta delta' : Nat → R) (g g' : DCanon R)
    (cs cs' : List (Call R)) (c c' : Call R)
    (hcs : CallsOK n P A (cs ++ [c])) (hcs' : CallsOK n P A (cs' ++ [c']))
    (hx : c.x = c'.x) (hy : c.y = c'.y) (hdx : c.dx = c'.dx)
    (hP : ∀ r < n, ∀ t < n, ent (current P A ((cs ++ [c]).map Call.f)).1 r t =
      ent (current P A ((cs' ++ [c']).map Call.f)).1 r t)
    (hA : ∀ r < N - n, ∀ t < n, ent (current P A ((cs ++ [c]).map Call.f)).2 r t =
      ent (current P A ((cs' ++ [c']).map Call.f)).2 r t) :
    let s := runGrad qdldl sqrt eps tol n N P A (genState eps n N P A W delta g) (cs ++ [c])
    let s' := runGrad qdldl sqrt eps tol n N P A (genState eps n N P A W' delta' g') (cs' ++ [c'])
    ∀ k < N - n, (s.g.dl k = s'.g.dl k ∧ s.g.du k = s'.g.du k) ↔
      s.g.dl k + s.g.du k = 0 ∨ (EnteredLow tol k (cs ++ [c]) ↔ EnteredLow tol k (cs' ++ [c'])) := by
  have hsum := (C29_history_independent (tol := tol) hq hsqrt h W W' delta delta' g g' cs cs' c c' hcs hcs' hx hy
    hdx hP hA).2.2.2
  have h1 := C35_exact (tol := tol) hq hsqrt h W delta g cs c hcs
  have h2 := C35_exact (tol := tol) hq hsqrt h W' delta' g' cs' c' hcs'
  simp only at hsum h1 h2 ⊢
  intro k hk
  have hs := hsum k hk
  obtain ⟨a1, a2⟩ := h1 k hk
  obtain ⟨b1, b2⟩ := h2 k hk
  by_cases l1 : EnteredLow tol k (cs ++ [c]) <;> by_cases l2 : EnteredLow tol k (cs' ++ [c'])
  · have x1 := a1 l1
    have x2 := b1 l2
    rw [x1, x2, add_zero, add_zero] at hs
    simp [x1, x2, hs, l1, l2]
  · have x1 := a1 l1
    have x2 := b2 l2
    rw [x1, x2, add_zero, zero_add] at hs
    simp [x1, x2, hs, l1, l2, eq_comm]
  · have x1 := a2 l1
    have x2 := b1 l2
    rw [x1, x2, add_zero, zero_add] at hs
    simp [x1, x2, hs, l1, l2, eq_comm]
  · have x1 := a2 l1
    have x2 := b2 l2
    rw [x1, x2, zero_add, zero_add] at hs
    simp [x1, x2, hs, l1, l2]

end

/-- The histories of `C35_fails`: after an inactive call the row enters on the lower side, as the first call it does not. -/
example : EnteredLow (1 / 1000000000000 : ℝ) 0 ([0, -1].map plain) ∧ ¬ EnteredLow (1 / 1000000000000 : ℝ) 0 ([-1].map plain) := by
  constructor
  · refine ⟨[], plain 0, plain (-1), [], rfl, ?_, ?_, ?_⟩
    · simp only [Idle, plain]; norm_num
    · simp only [plain]; norm_num
    · intro c hc
      rw [List.mem_singleton.1 hc]
      refine ⟨Or.inl ?_, rfl⟩
      simp only [plain]; norm_num
  · rintro ⟨pre, d, e, post, h, -⟩
    have := congrArg List.length h
    simp at this
    omega

end Verif.Props
