import Verif.Lemmas.GradMemG
import Mathlib.Algebra.Order.Ring.Rat
/-!
C91: `cpg_gradient` makes no access outside its arrays.
-/
namespace Verif.Props
open Verif.Model.GradMem Verif.Spec.GradMem Verif.Lemmas.GradMem

variable {R : Type}

/-! ### the generated arrays -/

/-- The KKT matrices that the generator assembles fit the problem, for every `P` and `A` that are compressed matrices. -/
theorem C91_generated (F : Flops R) (n N : Nat) (P A : Csc R) (pL iL : List Nat) (hn : n ≤ N) (hP : Lines n n P.p P.i)
    (hA : Lines n (N - n) A.p A.i) (hL : Symbolic N (kInit F n N P A).p (kInit F n N P A).i pL iL) :
    Problem n N (patternsOf F n N P A pL iL) :=
  ⟨hn, kInit_lines hn P A, fun _ h1 h2 => kInit_diag P A h1 h2, ktInit_lines hn hA, hP, hA, hL⟩

/-- The generated workspace has the sizes of the problem. -/
theorem C91_sizes (F : Flops R) (n N NP : Nat) (P A : Csc R) (pL iL : List Nat) (hPx : P.x.length = P.i.length)
    (hAx : A.x.length = A.i.length) :
    Sizes n N NP (patternsOf F n N P A pL iL) (generated F n N NP (kInit F n N P A) (ktInit F n N P A) P A) :=
  generated_sizes ⟨rfl, rfl, compress_len _⟩ ⟨rfl, rfl, compress_len _⟩ ⟨rfl, rfl, hPx⟩ ⟨rfl, rfl, hAx⟩

/-! ### no access outside -/

/-- **C91** (with arithmetic that yields neither infinity nor NaN): from the generated workspace on, no sequence of calls accesses an
array outside its bounds, whatever the values; and the stored pattern of the factor is that of the symbolic factorization after every
sequence. -/
theorem C91_partial (F : Flops R) (hF : Finite F) (n N NP : Nat) (P A : Csc R) (pL iL : List Nat) (Q : Qdldl R) (M : Maps R)
    (hn : n ≤ N) (hP : Lines n n P.p P.i) (hPx : P.x.length = P.i.length) (hA : Lines n (N - n) A.p A.i)
    (hAx : A.x.length = A.i.length) (hL : Symbolic N (kInit F n N P A).p (kInit F n N P A).i pL iL)
    (hQ : QdldlOK N (patternsOf F n N P A pL iL) Q) (hM : MapsOK n N NP (patternsOf F n N P A pL iL) M)
    (ops : List (Op R)) (ho : ∀ op ∈ ops, OpOK n N (patternsOf F n N P A pL iL) op) :
    ∃ t, run F Q n N NP M (generated F n N NP (kInit F n N P A) (ktInit F n N P A) P A) ops = .ok t ∧
      Sizes n N NP (patternsOf F n N P A pL iL) t ∧
      (t.init = false → t.L.p = pL ∧ t.L.i.take iL.length = iL ∧ t.L.nnz = iL.length) := by
  obtain ⟨t, ht, hb⟩ := run_ok hF hQ (C91_generated F n N P A pL iL hn hP hA hL) hM ops _ ho
    ⟨C91_sizes F n N NP P A pL iL hPx hAx, fun h => by cases h⟩
  refine ⟨t, ht, hb.1, fun hi => ⟨(hb.2 hi).Lp, ?_, (hb.2 hi).nnz⟩⟩
  obtain ⟨rest, hr⟩ := (hb.2 hi).Li
  rw [hr]
  exact List.take_left

/-- Any arithmetic, including infinity and NaN: no access is outside if the KKT matrices are not refreshed, in particular if `P` and
`A` do not depend on parameters. -/
theorem C91_constant (F : Flops R) (n N NP : Nat) (P A : Csc R) (pL iL : List Nat) (Q : Qdldl R) (M : Maps R)
    (hn : n ≤ N) (hP : Lines n n P.p P.i) (hPx : P.x.length = P.i.length) (hA : Lines n (N - n) A.p A.i)
    (hAx : A.x.length = A.i.length) (hL : Symbolic N (kInit F n N P A).p (kInit F n N P A).i pL iL)
    (hQ : QdldlOK N (patternsOf F n N P A pL iL) Q) (hM : MapsOK n N NP (patternsOf F n N P A pL iL) M)
    (ops : List (Op R)) (ho : ∀ op ∈ ops, OpOK n N (patternsOf F n N P A pL iL) op ∧ Unrefreshed op) :
    InBounds (run F Q n N NP M (generated F n N NP (kInit F n N P A) (ktInit F n N P A) P A) ops) := by
  obtain ⟨t, ht, -⟩ := run_any F hQ (C91_generated F n N P A pL iL hn hP hA hL) hM ops _ ho
    ⟨C91_sizes F n N NP P A pL iL hPx hAx, fun h => by cases h⟩
  exact ⟨t, ht⟩

/-- Any arithmetic, one call in any state with a valid factor: no access is outside and the factor stays valid, if the counter
`L->nnz` agrees with the pattern of QDLDL whenever the matrices are refreshed. -/
theorem C91_call (F : Flops R) {n N NP : Nat} {d : Patterns} (hp : Problem n N d) {Q : Qdldl R} (hQ : QdldlOK N d Q) {M : Maps R}
    (hM : MapsOK n N NP d M) {s : St R} (hs : Sizes n N NP d s) (hv : s.init = false → Verif.Spec.Factor.Valid N (shape s.L))
    {c : Call R} (hc : OpOK n N d (.grad c))
    (hnnz : s.init = false → (c.outP || c.outA) = true → s.L.nnz = d.iL.length) :
    ∃ t, gradient F Q n N NP M c s = .ok t ∧ Sizes n N NP d t ∧ Verif.Spec.Factor.Valid N (shape t.L) := by
  obtain ⟨t, ht, h⟩ := gradient_any F hQ hp hM hc ⟨hs, fun hi => ⟨hs, hv hi⟩⟩ hnnz
  exact ⟨t, ht, h.sz, h.val⟩

/-! ### a problem -/

instance (p i : List Nat) (r c : Nat) : Decidable (Has p i r c) :=
  decidable_of_iff (∃ k < ix p (c + 1), ix p c ≤ k ∧ ix i k = r)
    ⟨fun ⟨k, h1, h2, h3⟩ => ⟨k, h2, h1, h3⟩, fun ⟨k, h1, h2, h3⟩ => ⟨k, h2, h1, h3⟩⟩

/-- Rational numbers and NaN. -/
abbrev Nanq := Option ℚ

/-- An operation that yields NaN if an operand is NaN. -/
def nanOp (f : ℚ → ℚ → ℚ) (a b : Nanq) : Nanq :=
  match a, b with
  | some x, some y => some (f x y)
  | _, _ => none

/-- A rational number near the square root. -/
def ratRoot (x : ℚ) : ℚ := (Nat.sqrt (x.num.natAbs * x.den) : ℚ) / x.den

/-- Arithmetic with NaN: comparisons with NaN are false, apart from `!=`. -/
def nanFlops : Flops Nanq where
  zero := some 0
  one := some 1
  eps := some (1 / 10 ^ 6)
  half := some (1 / 2)
  add := nanOp (· + ·)
  sub := nanOp (· - ·)
  mul := nanOp (· * ·)
  div := fun a b => if b = some 0 then none else nanOp (· / ·) a b
  neg := Option.map (- ·)
  sqrt := fun a => match a with
    | some x => if x < 0 then none else some (ratRoot x)
    | none => none
  isZero := fun a => decide (a = some 0)
  low := fun a => match a with
    | some x => decide (x < - (1 / 10 ^ 12))
    | none => false
  high := fun a => match a with
    | some x => decide (x > 1 / 10 ^ 12)
    | none => false

/-- Exact arithmetic, with division by zero yielding zero. -/
def ratFlops : Flops ℚ where
  zero := 0
  one := 1
  eps := 1 / 10 ^ 6
  half := 1 / 2
  add := (· + ·)
  sub := (· - ·)
  mul := (· * ·)
  div := (· / ·)
  neg := (- ·)
  sqrt := ratRoot
  isZero := fun a => decide (a = 0)
  low := fun a => decide (a < - (1 / 10 ^ 12))
  high := fun a => decide (a > 1 / 10 ^ 12)

/-- Exact arithmetic has the laws that `C91_partial` assumes. -/
theorem ratFlops_finite : Finite ratFlops := by
  refine ⟨rfl, fun a b h => ?_, fun a b h1 h2 => ?_, fun a b h1 h2 => ?_⟩ <;>
    simp only [ratFlops, decide_eq_true_eq] at * <;> simp [*]

/-- `P = diag(v, 1)` of the objective `1/2 (v x0² + x1²)` with a parameter `v`. -/
def gP (v one : R) : Csc R := ⟨[0, 1, 2], [0, 1], [v, one], 2⟩

/-- `A = I`: bounds on both variables. -/
def gA (one : R) : Csc R := ⟨[0, 1, 2], [0, 1], [one, one], 2⟩

/-- Pattern of the factor of the KKT matrix. -/
def gpL : List Nat := [0, 1, 2, 2, 2]
/-- Pattern of the factor of the KKT matrix. -/
def giL : List Nat := [2, 3]

/-- Factorization of the KKT matrix of this pattern. -/
def gFactor (F : Flops R) (K : Csc R) : Fac R :=
  let x := fun k => K.x.getD k F.zero
  let l0 := F.div (x 2) (x 0)
  let l1 := F.div (x 4) (x 1)
  let D := [x 0, x 1, F.sub (x 3) (F.mul (F.mul l0 l0) (x 0)), F.sub (x 5) (F.mul (F.mul l1 l1) (x 1))]
  { p := gpL, i := giL, x := [l0, l1], D := D, Dinv := D.map (F.div F.one) }

/-- Some solution with the factor (the values are irrelevant here). -/
def gSolve (F : Flops R) (D x : List R) : List R := (List.range x.length).map fun k => F.mul (D.getD k F.zero) (x.getD k F.zero)

/-- The library for this problem. -/
def gQ (F : Flops R) : Qdldl R := ⟨gFactor F, fun _ D x => gSolve F D x⟩

/-- `v` is the first entry of `P`; nothing else depends on parameters. -/
def gM (F : Flops R) : Maps R :=
  ⟨⟨false, 0, ⟨[], [], [], 0⟩⟩, ⟨false, 0, ⟨[], [], [], 0⟩⟩, ⟨false, 0, ⟨[], [], [], 0⟩⟩, ⟨true, 2, ⟨[0, 1, 1], [0], [F.one], 1⟩⟩,
    ⟨false, 0, ⟨[], [], [], 0⟩⟩⟩

/-- The patterns of this problem. -/
def gPat : Patterns := ⟨[0, 1, 2, 4, 6], [0, 1, 0, 2, 1, 3], [0, 2, 4, 5, 6], [0, 2, 1, 3, 0, 1], [0, 1, 2], [0, 1], [0, 1, 2], [0, 1], gpL, giL⟩

theorem gSymbolic : Symbolic 4 gPat.pK gPat.iK gpL giL := by
  have hb : ∀ c < 4, ix gpL (c + 1) ≤ 2 := by decide
  have hlt : ∀ r c, c < 4 → Has gpL giL r c → r < 4 := by
    rintro r c hc ⟨k, _, h2, h3⟩
    have h4 : ∀ k < 2, ix giL k < 4 := by decide
    have := hb c hc
    exact h3 ▸ h4 k (by omega)
  have h1 : ∀ c < 4, ∀ k < 2, ix gpL c ≤ k → k < ix gpL (c + 1) → c < ix giL k := by decide
  have h2 : ∀ c < 4, ∀ k < 2, ix gpL c ≤ k → k + 1 < ix gpL (c + 1) → ix giL k < ix giL (k + 1) := by decide
  have h3 : ∀ c < 4, ∀ r < c, Has gPat.pK gPat.iK r c → Has gpL giL c r := by decide
  have h4 : ∀ j < 4, ∀ s < 4, ∀ r < s, Has gpL giL r j → Has gpL giL s j → Has gpL giL s r := by decide
  refine ⟨⟨rfl, by decide, by decide, by decide⟩, rfl, rfl, fun c hc k a b => h1 c hc k (by have := hb c hc; omega) a b,
    fun c hc k a b => h2 c hc k (by have := hb c hc; omega) a b, fun r c a b => h3 c b r a,
    fun j r s a b e f => h4 j a s (hlt s j a f) r b e f⟩

theorem gLines2 : Lines 2 2 [0, 1, 2] [0, 1] := ⟨rfl, by decide, by decide, by decide⟩

theorem gLinesMap : Lines 2 1 [0, 1, 1] [0] := ⟨rfl, by decide, by decide, by decide⟩

theorem gQ_ok (F : Flops R) : QdldlOK 4 gPat (gQ F) :=
  ⟨fun _ _ => rfl, fun _ _ => rfl, fun _ _ => rfl, fun _ _ => rfl, fun _ _ => rfl, fun _ _ x => by
    show ((List.range x.length).map _).length = _
    rw [List.length_map, List.length_range]⟩

theorem gM_ok (F : Flops R) : MapsOK 2 4 1 gPat (gM F) :=
  ⟨fun h => (by cases h), fun h => (by cases h), fun h => (by cases h),
    fun _ => ⟨(by decide : 2 ≤ 2), gLinesMap, rfl⟩, fun h => (by cases h)⟩

/-- Two calls: with the matrices refreshed with value `v`, primal and dual solution `v`; then with the solution of another
problem. -/
def gCycle (F : Flops R) (v : R) : List (Op R) :=
  [.delta 0 F.one, .grad ⟨gP v F.one, gA F.one, true, false, [v, v], [v, v]⟩,
    .grad ⟨gP v F.one, gA F.one, false, false, [F.one, F.one], [F.one, F.one]⟩]

theorem gCycle_ok (F : Flops R) (v : R) : ∀ op ∈ gCycle F v, OpOK 2 4 gPat op := by
  intro op hop
  rcases List.mem_cons.1 hop with rfl | hop
  · exact (by decide : 0 < 2)
  rcases List.mem_cons.1 hop with rfl | hop
  · exact ⟨⟨rfl, rfl, rfl⟩, ⟨rfl, rfl, rfl⟩, rfl, rfl⟩
  rw [List.mem_singleton.1 hop]
  exact ⟨⟨rfl, rfl, rfl⟩, ⟨rfl, rfl, rfl⟩, rfl, rfl⟩

/-- The patterns are those that the generator assembles from `P` and `A`. -/
theorem gPat_rat : patternsOf ratFlops 2 4 (gP 1 1) (gA 1) gpL giL = gPat := by
  unfold patternsOf gPat
  congr 1 <;> decide +kernel

/-- The patterns are those that the generator assembles from `P` and `A`. -/
theorem gPat_nan : patternsOf nanFlops 2 4 (gP (some 1) (some 1)) (gA (some 1)) gpL giL = gPat := by
  unfold patternsOf gPat
  congr 1 <;> decide +kernel

/-- The workspace generated for this problem. -/
def gStart (F : Flops R) : St R :=
  generated F 2 4 1 (kInit F 2 4 (gP F.one F.one) (gA F.one)) (ktInit F 2 4 (gP F.one F.one) (gA F.one)) (gP F.one F.one) (gA F.one)

/-- The hypotheses of `C91_partial` are met: all sequences of these calls with exact arithmetic. -/
example (vs : List ℚ) : InBounds (run ratFlops (gQ ratFlops) 2 4 1 (gM ratFlops) (gStart ratFlops) (vs.flatMap (gCycle ratFlops))) := by
  obtain ⟨t, ht, -⟩ := C91_partial ratFlops ratFlops_finite 2 4 1 (gP 1 1) (gA 1) gpL giL (gQ ratFlops) (gM ratFlops) (by decide)
    gLines2 rfl gLines2 rfl (by
      have := gSymbolic
      rw [← gPat_rat] at this
      exact this)
    (by rw [gPat_rat]; exact gQ_ok _) (by rw [gPat_rat]; exact gM_ok _) (vs.flatMap (gCycle ratFlops)) (by
      intro op hop
      obtain ⟨v, _, hv⟩ := List.mem_flatMap.1 hop
      rw [gPat_rat]
      exact gCycle_ok _ v op hv)
  exact ⟨t, ht⟩

/-- In such a run the constraints do become inactive and active again. -/
example : (run ratFlops (gQ ratFlops) 2 4 1 (gM ratFlops) (gStart ratFlops)
    ((gCycle ratFlops 0).take 2)).toOption.map (·.a) = some [0, 0] ∧
    (run ratFlops (gQ ratFlops) 2 4 1 (gM ratFlops) (gStart ratFlops) (gCycle ratFlops 0)).toOption.map (·.a) = some [1, 1] := by
  constructor <;> decide +kernel

/-- The hypotheses of `C91_constant` are met: NaN as primal and dual solution without refresh, any number of times. -/
example (k : Nat) : InBounds (run nanFlops (gQ nanFlops) 2 4 1 (gM nanFlops) (gStart nanFlops) (List.replicate k
    (.grad ⟨gP none (some 1), gA (some 1), false, false, [none, none], [none, some 1]⟩))) := by
  refine C91_constant nanFlops 2 4 1 (gP (some 1) (some 1)) (gA (some 1)) gpL giL (gQ nanFlops) (gM nanFlops) (by decide)
    gLines2 rfl gLines2 rfl (by
      have := gSymbolic
      rw [← gPat_nan] at this
      exact this)
    (by rw [gPat_nan]; exact gQ_ok _) (by rw [gPat_nan]; exact gM_ok _) _ (fun op hop => ?_)
  rw [List.eq_of_mem_replicate hop, gPat_nan]
  exact ⟨⟨⟨rfl, rfl, rfl⟩, ⟨rfl, rfl, rfl⟩, rfl, rfl⟩, rfl, rfl⟩

/-! ### where the claim fails -/

/-- **The claim fails with NaN**: for a problem that meets every other hypothesis of `C91_partial`, five refreshes with a NaN
parameter, each followed by the gradient at another solution, end with a write to `L->i` one past its end. -/
theorem C91_fails :
    Problem 2 4 (patternsOf nanFlops 2 4 (gP (some 1) (some 1)) (gA (some 1)) gpL giL) ∧
    QdldlOK 4 (patternsOf nanFlops 2 4 (gP (some 1) (some 1)) (gA (some 1)) gpL giL) (gQ nanFlops) ∧
    MapsOK 2 4 1 (patternsOf nanFlops 2 4 (gP (some 1) (some 1)) (gA (some 1)) gpL giL) (gM nanFlops) ∧
    (∀ op ∈ (List.replicate 5 (gCycle nanFlops none)).flatten,
      OpOK 2 4 (patternsOf nanFlops 2 4 (gP (some 1) (some 1)) (gA (some 1)) gpL giL) op) ∧
    run nanFlops (gQ nanFlops) 2 4 1 (gM nanFlops) (gStart nanFlops) (List.replicate 5 (gCycle nanFlops none)).flatten =
      .error (.i .L, 6) ∧ (gStart nanFlops).L.i.length = 6 := by
  refine ⟨C91_generated nanFlops 2 4 _ _ gpL giL (by decide) gLines2 gLines2 (by
      have := gSymbolic
      rw [← gPat_nan] at this
      exact this), by rw [gPat_nan]; exact gQ_ok _, by rw [gPat_nan]; exact gM_ok _, fun op hop => ?_, ?_, by decide +kernel⟩
  · rw [gPat_nan]
    obtain ⟨l, hl, hop⟩ := List.mem_flatten.1 hop
    rw [List.eq_of_mem_replicate hl] at hop
    exact gCycle_ok _ _ op hop
  · have h : (match run nanFlops (gQ nanFlops) 2 4 1 (gM nanFlops) (gStart nanFlops)
        (List.replicate 5 (gCycle nanFlops none)).flatten with
      | .ok _ => none
      | .error e => some e) = some (.i .L, 6) := by decide +kernel
    split at h
    · cases h
    · rename_i e he
      rw [he]
      exact congrArg _ (Option.some.inj h)

/-- The cause: after one refresh with NaN and the next refresh (with any value, here 1) the counter `L->nnz` is larger than the number
of entries that QDLDL has just written. -/
theorem C91_fails_counter :
    (run nanFlops (gQ nanFlops) 2 4 1 (gM nanFlops) (gStart nanFlops)
      (gCycle nanFlops none ++ (gCycle nanFlops (some 1)).take 2)).toOption.map (fun s => (s.L.nnz, ix s.L.p 4)) = some (3, 2) := by
  decide +kernel

end Verif.Props
