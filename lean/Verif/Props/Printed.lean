import Verif.Lemmas.Printed
import Verif.Props.Canon
/-!
C87: the compiled program computes with the numbers of the problem.
-/
namespace Verif.Props
open Verif.Model Verif.Model.Text Verif.Model.Printed Verif.Spec Verif.Spec.Printed Verif.Lemmas Verif.Lemmas.Printed Finset

/-- C87 for one number: with any compiler that rounds to nearest, a number of the generator is compiled to
one that differs by at most `1e-20`; it is compiled exactly if it has at most 20 decimals or is at least
`2^-13` (about `1.2e-4`) in magnitude; it is lost if it is below `0.5e-20`. -/
theorem C87_number {cc : ℚ → ℚ} (hc : Nearest cc) (x : ℚ) (hx : Double x) :
    |compiled cc x - x| ≤ 1 / 10 ^ 20 ∧ (Safe x → compiled cc x = x) ∧
    (|x| < 1 / 2 / 10 ^ 20 → compiled cc x = 0) :=
  ⟨compiled_err hc hx, compiled_safe hc, compiled_small hc⟩

theorem printedGen_canonOf (cc : ℚ → ℚ) (ps : List UParam) (ids : List CId) (quad : Bool)
    (maps : CId → Option (RawMap ℚ)) (θ0 θ : { θ : List ℚ // θ.length = totalSize ps }) (p : CId) :
    (printedGen cc ps ids quad maps θ0).canonOf p θ =
      if (canonGen ps ids quad maps θ0).changes.getD p then canonValC cc (maps p) p.isUpper θ.1
      else canonInitC cc (maps p) p.isUpper θ0.1 := rfl

theorem printedGen_changes (cc : ℚ → ℚ) (ps : List UParam) (ids : List CId) (quad : Bool)
    (maps : CId → Option (RawMap ℚ)) (θ0 : { θ : List ℚ // θ.length = totalSize ps }) :
    (printedGen cc ps ids quad maps θ0).changes = (canonGen ps ids quad maps θ0).changes := rfl

/-- The compiled program knows its dependencies. -/
theorem printedGen_sound {cc : ℚ → ℚ} (hc : Nearest cc) (ps : List UParam) (ids : List CId) (quad : Bool)
    (maps : CId → Option (RawMap ℚ)) (hw : WFInput ps ids maps)
    (θ0 : { θ : List ℚ // θ.length = totalSize ps }) : Sound (printedGen cc ps ids quad maps θ0) := by
  constructor
  · intro a p θ hp
    rw [printedGen_canonOf, printedGen_canonOf,
      show (printedGen cc ps ids quad maps θ0).assign a θ = (canonGen ps ids quad maps θ0).assign a θ from rfl]
    by_cases hch : (canonGen ps ids quad maps θ0).changes.getD p = true
    · rw [if_pos hch, if_pos hch]
      obtain ⟨j, hj, hname, hidx⟩ := valid_index a.2
      have hlt := (updateC_eq hw.names hw.sizes j hj a.1.idx hidx a.1.val θ.1 θ.2).1
      rw [assign_eq quad hw θ0 a θ j hj hname hidx]
      cases hm : maps p with
      | none => rfl
      | some m =>
        have hcols := hw.cols p m hm
        rw [canonValC_eq hc m _ _ (by rw [List.length_set, θ.2]; exact hcols),
          canonValC_eq hc m _ _ (by rw [θ.2]; exact hcols)]
        congr 1
        refine List.map_congr_left fun r _ => ?_
        rw [List.length_set]
        refine sum_congr rfl fun i hi => ?_
        by_cases hik : i = colOf ps j + a.1.idx
        · have hid : p ∈ ids := by
            by_contra hid
            rw [hw.other p hid] at hm; cases hm
          have hout : p ∉ ids.filter fun c => adjacent ps (maps c) j := by
            have hp' : p ∉ ((outdatedOf ps ids maps).lookup a.1.name).getD [] := hp
            rw [← hname, outdated_lookup ps hw.names ids maps j hj] at hp'
            exact hp'
          have hadj : adjacent ps (maps p) j = false := by
            cases hc : adjacent ps (maps p) j with
            | false => rfl
            | true => exact absurd (List.mem_filter.mpr ⟨hid, hc⟩) hout
          simp only [adjacent, hm, decide_eq_false_iff_not] at hadj
          have h0 : m.mapping.at r i = 0 := by
            apply at_of_not_mem
            intro e he hek
            apply nnzCols_zero _ _ _ hadj e he
            rw [colOf_succ ps j hj]
            omega
          rw [h0, zero_mul, compiled_safe hc safe_zero, zero_mul, zero_mul]
        · congr 1
          unfold fn
          simp only [List.getD, List.getElem?_append, List.length_set]
          split
          · rw [List.getElem?_set_ne (Ne.symm hik)]
          · rfl
    · rw [if_neg hch, if_neg hch]
  · intro p θ θ' hp
    rw [printedGen_changes] at hp
    rw [printedGen_canonOf, printedGen_canonOf, hp, if_neg (by simp), if_neg (by simp)]
  · intro p θ hp
    rw [printedGen_changes] at hp
    rw [printedGen_canonOf, hp, if_neg (by simp)]
    rfl

/-- Rows of a canonical parameter without changes: only the constant column counts. -/
theorem const_row {ps : List UParam} {ids : List CId} {maps : CId → Option (RawMap ℚ)} (hw : WFInput ps ids maps)
    {p : CId} {m : RawMap ℚ} (hm : maps p = some m) (hch : mapChanges (maps p) p.isUpper = false)
    (r : Nat) (hr : r ∈ srcRows m p.isUpper) (j : Nat) (hj : j < totalSize ps) :
    m.mapping.at r j * m.sign r = 0 := by
  rw [(srcRows_spec m p.isUpper).2] at hr
  obtain ⟨i, hi, rfl⟩ := List.mem_map.1 hr
  have hi : i < (m.final p.isUpper).rows := List.mem_range.1 hi
  have hcols := hw.cols p m hm
  rw [← final_at m p.isUpper i j hi (by omega)]
  have hch : ¬ 0 < (m.final p.isUpper).nnzCols 0 ((m.final p.isUpper).cols - 1) := by
    simpa [mapChanges, hm] using hch
  apply at_of_not_mem
  intro e he hcc
  apply nnzCols_zero _ _ _ hch e he
  rw [final_cols, hcols]
  omega

/-- The sum over all columns, constant last. -/
theorem sum_last (n : Nat) (θ : List ℚ) (hθ : θ.length = n) (a : Nat → ℚ) :
    ∑ j ∈ range (n + 1), a j * fn (θ ++ [1]) j = (∑ j ∈ range n, a j * fn θ j) + a n := by
  rw [sum_range_succ]
  congr 1
  · refine sum_congr rfl fun j hj => ?_
    have : j < θ.length := by rw [hθ]; simpa using hj
    unfold fn
    simp [List.getD, List.getElem?_append, this]
  · simp [fn, ← hθ]

/-- C87 (data): for all problems, solvers and histories, the data of every solve are computed from the user
parameters of the compiled program with the compiled coefficients. -/
theorem C87_data {cc : ℚ → ℚ} (hc : Nearest cc) (k : Kind) (quad lp : Bool) (hk : k.possible quad lp = true)
    (ps : List UParam) (maps : CId → Option (RawMap ℚ)) (hw : WFInput ps (k.canonIds quad) maps)
    (θ0 : { θ : List ℚ // θ.length = totalSize ps })
    (order : List CId → List CId) (horder : ∀ l, (order l).Perm l) (junk : CId → Option (List ℚ))
    (history : List (Call { a : UpdCall ℚ // a.Valid ps })) :
    let g := printedGen cc ps (k.canonIds quad) quad maps θ0
    ∃ toks pus' m os,
      genBlock (k.solver quad lp).pus g.quad g.changes order = .ok (toks, pus') ∧
      g.runCalls (k.solver quad lp) toks (g.initMem (k.solver quad lp) junk) history = some (m, os) ∧
      List.Forall₂ (fun θ o => ∀ p ∈ (k.solver quad lp).uses, ∀ mp, maps p = some mp →
          o.data p = some ((if p.isUpper then nonzeroRows mp.signed else List.range mp.mapping.rows).map
            fun r => ∑ j ∈ range (totalSize ps + 1),
              compiled cc (mp.mapping.at r j * mp.sign r) * fn (θ.1 ++ [1]) j))
        (solveParams g.assign g.θ0 history) os := by
  intro g
  have hg : Generated k quad lp (fun p => mapChanges (maps p) p.isUpper) g :=
    ⟨hk, rfl, rfl, printedGen_sound hc ps _ quad maps hw θ0⟩
  obtain ⟨toks, pus', m, os, h1, h2, _, h4⟩ :=
    C01_every_solve_uses_current_parameters hg order horder junk history
  refine ⟨toks, pus', m, os, h1, h2, ?_⟩
  refine h4.imp ?_
  intro θ o hfr p hp mp hmp
  rw [hfr.1 p hp]
  have hcols := hw.cols p mp hmp
  show (if (canonGen ps (k.canonIds quad) quad maps θ0).changes.getD p then canonValC cc (maps p) p.isUpper θ.1
    else canonInitC cc (maps p) p.isUpper θ0.1) = some ((srcRows mp p.isUpper).map _)
  have hid : p ∈ k.canonIds quad := by
    by_contra hid
    rw [hw.other p hid] at hmp; cases hmp
  have hgetD : (canonGen ps (k.canonIds quad) quad maps θ0).changes.getD p = mapChanges (maps p) p.isUpper := by
    simp [canonGen, Changes.getD, changesOf, hid]
  rw [hgetD]
  cases hch : mapChanges (maps p) p.isUpper with
  | true =>
    rw [if_pos rfl, hmp, canonValC_eq hc mp _ _ (by rw [θ.2]; exact hcols), θ.2]
  | false =>
    rw [if_neg (by simp), hmp]
    unfold canonInitC
    obtain ⟨v, hv, hv'⟩ := C08_canonicalization_is_affine_map mp p.isUpper θ0.1 (by rw [θ0.2]; exact hcols)
    rw [hv, hv', Option.map_some, List.map_map]
    congr 1
    refine List.map_congr_left fun r hr => ?_
    have hz := const_row hw hmp hch r hr
    simp only [Function.comp]
    rw [θ0.2, sum_last _ _ θ0.2 (fun j => mp.mapping.at r j * mp.sign r),
      sum_last _ _ θ.2 (fun j => compiled cc (mp.mapping.at r j * mp.sign r)),
      sum_eq_zero (fun j hj => by rw [hz j (by simpa using hj), zero_mul]),
      sum_eq_zero (fun j hj => by rw [hz j (by simpa using hj), compiled_safe hc safe_zero, zero_mul]), zero_add, zero_add]

/-- The user parameters of two runs of the same calls stay close. -/
theorem solveParams_close {ps : List UParam} {ids : List CId} (quad : Bool) {maps : CId → Option (RawMap ℚ)}
    (hw : WFInput ps ids maps) (θi : { θ : List ℚ // θ.length = totalSize ps }) (ε : ℚ) (hε : 0 ≤ ε)
    (history : List (Call { a : UpdCall ℚ // a.Valid ps })) :
    ∀ θ θ' : { θ : List ℚ // θ.length = totalSize ps }, Close ε θ'.1 θ.1 →
      List.Forall₂ (fun θ θ' => Close ε θ'.1 θ.1)
        (solveParams (canonGen ps ids quad maps θi).assign θ history)
        (solveParams (canonGen ps ids quad maps θi).assign θ' history) := by
  induction history with
  | nil => intro θ θ' _; exact .nil
  | cons c cs ih =>
    intro θ θ' h
    cases c with
    | solve => exact .cons h (ih θ θ' h)
    | update a =>
      refine ih _ _ ?_
      obtain ⟨j, hj, hname, hidx⟩ := valid_index a.2
      rw [assign_eq quad hw θi a θ j hj hname hidx, assign_eq quad hw θi a θ' j hj hname hidx]
      refine ⟨by simp [h.1], fun i x y hx hy => ?_⟩
      rw [List.getElem?_set] at hx hy
      split at hx
      · split at hx
        · rename_i h1 h2
          rw [if_pos h1, if_pos (by rw [← h.1]; exact h2)] at hy
          cases hx; cases hy
          simpa using hε
        · cases hx
      · rename_i h1
        rw [if_neg h1] at hy
        exact h.2 i x y hx hy

/-- Combining two comparisons of lists. -/
theorem forall₂_chain {α β γ : Type} {P : α → β → Prop} {Q : β → γ → Prop} {as : List α} {bs : List β} {cs : List γ}
    (h1 : List.Forall₂ P as bs) (h2 : List.Forall₂ Q bs cs) : List.Forall₂ (fun a c => ∃ b, P a b ∧ Q b c) as cs := by
  induction h1 generalizing cs with
  | nil => cases h2; exact .nil
  | cons h _ ih =>
    cases h2 with
    | cons h' h2 => exact .cons ⟨_, h, h'⟩ (ih h2)

theorem forall₂_right {α β : Type} {P : α → β → Prop} {as : List α} {bs : List β} (h : List.Forall₂ P as bs) :
    ∀ b ∈ bs, ∃ a, P a b := by
  induction h with
  | nil => intro b hb; cases hb
  | cons h _ ih =>
    intro b hb
    rcases List.mem_cons.1 hb with rfl | hb
    · exact ⟨_, h⟩
    · exact ih b hb

/-- Error of one entry. -/
theorem entry_err {cc : ℚ → ℚ} (hc : Nearest cc) (n : Nat) (a : Nat → ℚ) (ha : ∀ j ≤ n, Double (a j))
    (θ θ' : List ℚ) (hθ : θ.length = n) (h : Close (1 / 10 ^ 20) θ' θ) :
    |(∑ j ∈ range (n + 1), compiled cc (a j) * fn (θ' ++ [1]) j) - ∑ j ∈ range (n + 1), a j * fn (θ ++ [1]) j|
      ≤ 1 / 10 ^ 20 * (1 + ∑ j ∈ range n, if a j = 0 then 0 else |fn θ j| + |a j| + 1 / 10 ^ 20) := by
  rw [sum_last n θ hθ a, sum_last n θ' (h.1.trans hθ) (fun j => compiled cc (a j))]
  have e : (∑ j ∈ range n, compiled cc (a j) * fn θ' j) + compiled cc (a n) - ((∑ j ∈ range n, a j * fn θ j) + a n)
      = (∑ j ∈ range n, (compiled cc (a j) * fn θ' j - a j * fn θ j)) + (compiled cc (a n) - a n) := by
    rw [sum_sub_distrib]; ring
  rw [e]
  refine le_trans (abs_add_le _ _) ?_
  rw [mul_add, mul_one, add_comm, mul_sum]
  refine add_le_add (compiled_err hc (ha n (Nat.le_refl _))) (le_trans (abs_sum_le_sum_abs _ _) ?_)
  refine sum_le_sum fun j hj => ?_
  have hj : j < n := by simpa using hj
  split
  · rename_i h0
    rw [h0, compiled_safe hc safe_zero]
    simp
  · have h1 := compiled_err hc (ha j hj.le)
    have h2 : |fn θ' j - fn θ j| ≤ 1 / 10 ^ 20 := by
      have hj' : j < θ'.length := by rw [h.1, hθ]; exact hj
      have hj'' : j < θ.length := by rw [hθ]; exact hj
      refine h.2 j _ _ ?_ ?_
      · simp [fn, hj']
      · simp [fn, hj'']
    have h3 : |fn θ' j| ≤ |fn θ j| + 1 / 10 ^ 20 := by
      have := abs_sub_abs_le_abs_sub (fn θ' j) (fn θ j)
      linarith
    have e : compiled cc (a j) * fn θ' j - a j * fn θ j
        = (compiled cc (a j) - a j) * fn θ' j + a j * (fn θ' j - fn θ j) := by ring
    rw [e]
    refine le_trans (abs_add_le _ _) ?_
    rw [abs_mul, abs_mul]
    have h4 : |compiled cc (a j) - a j| * |fn θ' j| ≤ 1 / 10 ^ 20 * (|fn θ j| + 1 / 10 ^ 20) :=
      mul_le_mul h1 h3 (abs_nonneg _) (by positivity)
    have h5 : |a j| * |fn θ' j - fn θ j| ≤ |a j| * (1 / 10 ^ 20) := mul_le_mul_of_nonneg_left h2 (abs_nonneg _)
    linarith

/-- The entries of the maps are numbers that the generator can have. -/
def Doubles (ps : List UParam) (maps : CId → Option (RawMap ℚ)) : Prop :=
  ∀ p mp, maps p = some mp → ∀ r j, j ≤ totalSize ps → Double (mp.mapping.at r j * mp.sign r)

/-- **C87** (partial: relative accuracy is false) For all problems, solvers, compilers that round to nearest
and histories of calls, the compiled program works at every solve on data that differ from the
canonicalization of the values the user set by at most `1e-20` times one plus the sum of the values, the
coefficients and `1e-20` over the parameters that the entry depends on. -/
theorem C87_partial {cc : ℚ → ℚ} (hc : Nearest cc) (k : Kind) (quad lp : Bool) (hk : k.possible quad lp = true)
    (ps : List UParam) (maps : CId → Option (RawMap ℚ)) (hw : WFInput ps (k.canonIds quad) maps)
    (hd : Doubles ps maps) (θ0 : { θ : List ℚ // θ.length = totalSize ps }) (hθ : ∀ x ∈ θ0.1, Double x)
    (order : List CId → List CId) (horder : ∀ l, (order l).Perm l) (junk : CId → Option (List ℚ))
    (history : List (Call { a : UpdCall ℚ // a.Valid ps })) :
    let g := printedGen cc ps (k.canonIds quad) quad maps θ0
    ∃ toks pus' m os,
      genBlock (k.solver quad lp).pus g.quad g.changes order = .ok (toks, pus') ∧
      g.runCalls (k.solver quad lp) toks (g.initMem (k.solver quad lp) junk) history = some (m, os) ∧
      List.Forall₂ (fun θ o => ∀ p ∈ (k.solver quad lp).uses, ∀ mp, maps p = some mp →
          ∃ v, o.data p = some v ∧
            v.length = (if p.isUpper then nonzeroRows mp.signed else List.range mp.mapping.rows).length ∧
            ∀ (i r : Nat) (x : ℚ), (if p.isUpper then nonzeroRows mp.signed else List.range mp.mapping.rows)[i]? = some r →
              v[i]? = some x →
              |x - ∑ j ∈ range (totalSize ps + 1), (mp.mapping.at r j * mp.sign r) * fn (θ.1 ++ [1]) j| ≤
                1 / 10 ^ 20 * (1 + ∑ j ∈ range (totalSize ps),
                  if mp.mapping.at r j * mp.sign r = 0 then 0
                  else |fn θ.1 j| + |mp.mapping.at r j * mp.sign r| + 1 / 10 ^ 20))
        (solveParams g.assign θ0 history) os := by
  intro g
  obtain ⟨toks, pus', m, os, h1, h2, h3⟩ := C87_data hc k quad lp hk ps maps hw θ0 order horder junk history
  refine ⟨toks, pus', m, os, h1, h2, ?_⟩
  have h0 : Close (1 / 10 ^ 20) (θ0.1.map (compiled cc)) θ0.1 := by
    refine ⟨by simp, fun i x y hx hy => ?_⟩
    rw [List.getElem?_map, hy] at hx
    cases hx
    exact compiled_err hc (hθ y (List.mem_of_getElem? hy))
  have h4 := solveParams_close quad hw θ0 (1 / 10 ^ 20) (by positivity) history θ0 g.θ0 h0
  refine (forall₂_chain h4 h3).imp ?_
  rintro θ o ⟨θ', hcl, ho⟩ p hp mp hmp
  refine ⟨_, ho p hp mp hmp, by simp, fun i r x hr hx => ?_⟩
  rw [List.getElem?_map, hr] at hx
  cases hx
  exact entry_err hc _ (fun j => mp.mapping.at r j * mp.sign r) (fun j hj => hd p mp hmp r j hj) θ.1 θ'.1 θ.2 hcl

/-- **C87** If all coefficients and all values at generation have at most 20 decimals or are at least
`2^-13` in magnitude, the compiled program works at every solve on exactly the canonicalization of the
values the user set. -/
theorem C87_exact {cc : ℚ → ℚ} (hc : Nearest cc) (k : Kind) (quad lp : Bool) (hk : k.possible quad lp = true)
    (ps : List UParam) (maps : CId → Option (RawMap ℚ)) (hw : WFInput ps (k.canonIds quad) maps)
    (hd : ∀ p mp, maps p = some mp → ∀ r j, j ≤ totalSize ps → Safe (mp.mapping.at r j * mp.sign r))
    (θ0 : { θ : List ℚ // θ.length = totalSize ps }) (hθ : ∀ x ∈ θ0.1, Safe x)
    (order : List CId → List CId) (horder : ∀ l, (order l).Perm l) (junk : CId → Option (List ℚ))
    (history : List (Call { a : UpdCall ℚ // a.Valid ps })) :
    let g := printedGen cc ps (k.canonIds quad) quad maps θ0
    ∃ toks pus' m os,
      genBlock (k.solver quad lp).pus g.quad g.changes order = .ok (toks, pus') ∧
      g.runCalls (k.solver quad lp) toks (g.initMem (k.solver quad lp) junk) history = some (m, os) ∧
      List.Forall₂ (fun θ o => ∀ p ∈ (k.solver quad lp).uses, ∀ mp, maps p = some mp →
          o.data p = some ((if p.isUpper then nonzeroRows mp.signed else List.range mp.mapping.rows).map
            fun r => ∑ j ∈ range (totalSize ps + 1), (mp.mapping.at r j * mp.sign r) * fn (θ.1 ++ [1]) j))
        (solveParams g.assign θ0 history) os := by
  intro g
  obtain ⟨toks, pus', m, os, h1, h2, h3⟩ := C87_data hc k quad lp hk ps maps hw θ0 order horder junk history
  have h0 : g.θ0 = θ0 := by
    apply Subtype.ext
    show θ0.1.map (compiled cc) = θ0.1
    conv_rhs => rw [← List.map_id θ0.1]
    exact List.map_congr_left fun x hx => compiled_safe hc (hθ x hx)
  refine ⟨toks, pus', m, os, h1, h2, ?_⟩
  have h3 := h3
  rw [show (printedGen cc ps (k.canonIds quad) quad maps θ0).θ0 = θ0 from h0] at h3
  refine h3.imp ?_
  intro θ o ho p hp mp hmp
  rw [ho p hp mp hmp]
  congr 1
  refine List.map_congr_left fun r _ => sum_congr rfl fun j hj => ?_
  rw [compiled_safe hc (hd p mp hmp r j (by have := mem_range.1 hj; omega))]

/-! ### a coefficient that is lost -/

/-- One parameter `a`; the linear objective is `2^-70 a`. -/
def lostPs : List UParam := [⟨"a", 1⟩]
def lostMaps : CId → Option (RawMap ℚ)
  | .q => some ⟨⟨1, 2, [(0, 0, 1 / 2 ^ 70)]⟩, fun _ => 1⟩
  | _ => none

theorem lostWF : WFInput lostPs (Kind.osqp.canonIds true) lostMaps := by
  refine ⟨by decide, by decide, ?_, ?_⟩
  · intro c m h
    cases c <;> simp [lostMaps] at h <;> subst h <;> rfl
  · intro c hc
    cases c <;> simp_all [Kind.canonIds, lostMaps]

theorem lost_at (j : Nat) : (Sp.mk 1 2 [(0, 0, (1 : ℚ) / 2 ^ 70)]).at 0 j = if j = 0 then 1 / 2 ^ 70 else 0 := by
  unfold Sp.at
  by_cases h : j = 0
  · simp [h]
  · simp [h, Ne.symm h]

/-- C87 does not hold relative to the data: with the objective `2^-70 a`, all solves of all histories, with any
compiler that rounds to nearest, have the objective 0, whatever the value of the parameter. -/
theorem C87_fails {cc : ℚ → ℚ} (hc : Nearest cc) (θ0 : { θ : List ℚ // θ.length = totalSize lostPs })
    (order : List CId → List CId) (horder : ∀ l, (order l).Perm l) (junk : CId → Option (List ℚ))
    (history : List (Call { a : UpdCall ℚ // a.Valid lostPs })) :
    let g := printedGen cc lostPs (Kind.osqp.canonIds true) true lostMaps θ0
    let h := canonGen lostPs (Kind.osqp.canonIds true) true lostMaps θ0
    ∃ toks pus' m os,
      genBlock (Kind.osqp.solver true false).pus g.quad g.changes order = .ok (toks, pus') ∧
      g.runCalls (Kind.osqp.solver true false) toks (g.initMem (Kind.osqp.solver true false) junk) history = some (m, os) ∧
      (∀ o ∈ os, o.data .q = some [0]) ∧
      ∀ θ, h.canonOf .q θ = some [1 / 2 ^ 70 * fn θ.1 0] := by
  intro g h
  obtain ⟨toks, pus', m, os, h1, h2, h3⟩ := C87_data hc .osqp true false rfl lostPs lostMaps lostWF θ0 order horder junk history
  refine ⟨toks, pus', m, os, h1, h2, ?_, ?_⟩
  · intro o ho
    obtain ⟨θ, hθ⟩ := forall₂_right h3 o ho
    rw [hθ .q (by decide) _ rfl]
    have : ∀ j, compiled cc ((Sp.mk 1 2 [(0, 0, (1 : ℚ) / 2 ^ 70)]).at 0 j * 1) = 0 := by
      intro j
      rw [mul_one, lost_at]
      split
      · exact compiled_small hc (by rw [abs_of_pos (by positivity)]; norm_num)
      · exact compiled_safe hc safe_zero
    simp only [CId.isUpper, Bool.false_eq_true, if_false]
    show some ([0].map _) = _
    simp only [List.map_cons, List.map_nil]
    congr 2
    exact sum_eq_zero fun j _ => by rw [this j, zero_mul]
  · intro θ
    obtain ⟨v, hv, hv'⟩ := C08_canonicalization_is_affine_map (⟨⟨1, 2, [(0, 0, 1 / 2 ^ 70)]⟩, fun _ => 1⟩ : RawMap ℚ) false θ.1
      (by rw [θ.2]; rfl)
    show canonVal (lostMaps .q) (CId.isUpper .q) θ.1 = _
    rw [show CId.isUpper .q = false from rfl]
    rw [show lostMaps .q = some ⟨⟨1, 2, [(0, 0, 1 / 2 ^ 70)]⟩, fun _ => 1⟩ from rfl, hv, hv']
    simp only [Bool.false_eq_true, if_false]
    show some ([0].map _) = _
    have hl : θ.1.length = 1 := θ.2
    rw [hl]
    simp only [List.map_cons, List.map_nil, sum_range_succ, sum_range_zero, lost_at]
    congr 2
    obtain ⟨x, hx⟩ := List.length_eq_one_iff.1 hl
    rw [hx]
    simp [fn]

theorem roundEven_add (n : Nat) (δ : ℚ) (h0 : 0 ≤ δ) (h1 : δ < 1 / 2) : roundEven (n + δ) = n := by
  have hf : ⌊(n : ℚ) + δ⌋ = n := Int.floor_eq_iff.2 ⟨by push_cast; linarith, by push_cast; linarith⟩
  unfold roundEven
  simp only [hf, Int.toNat_natCast]
  rw [if_pos (by linarith)]

/-- Digits of small numbers are lost: `(2^52+1) / 2^72`, a number of type `double` of about `1e-6`, is compiled
to another one by every compiler that rounds to nearest, so the bound on the magnitude in `Safe` is needed. -/
theorem C87_fails_digits {cc : ℚ → ℚ} (hc : Nearest cc) :
    Double ((2 ^ 52 + 1) / 2 ^ 72) ∧ compiled cc ((2 ^ 52 + 1) / 2 ^ 72) ≠ (2 ^ 52 + 1) / 2 ^ 72 := by
  refine ⟨⟨2 ^ 52 + 1, -72, by norm_num, by norm_num, by norm_num⟩, fun h => ?_⟩
  rw [compiled_eq] at h
  have hr : roundEven (|((2 : ℚ) ^ 52 + 1) / 2 ^ 72| * 10 ^ 20) = 95367431640625 := by
    rw [abs_of_pos (by positivity),
      show ((2 : ℚ) ^ 52 + 1) / 2 ^ 72 * 10 ^ 20 = (95367431640625 : Nat) + 10 ^ 20 / 2 ^ 72 by norm_num]
    exact roundEven_add _ _ (by positivity) (by norm_num)
  have hl : lit (((2 : ℚ) ^ 52 + 1) / 2 ^ 72) = 1 / 2 ^ 20 := by
    unfold lit
    rw [hr, if_neg (not_lt.2 (by positivity))]
    norm_num
  rw [hl, nearest_double hc ⟨1, -20, by norm_num, by norm_num, by norm_num⟩] at h
  norm_num at h

/-! ### instances -/

/-- Distances to numbers of type `double` are multiples of one number. -/
theorem double_dist (y : ℚ) : ∃ s : ℚ, 0 < s ∧ ∀ d, Double d → ∃ n : Nat, |d - y| * s = n := by
  obtain ⟨N, hN⟩ : ∃ N : Nat, (N : Int) = 1074 := ⟨1074, rfl⟩
  have hden : (0 : ℚ) < y.den := by exact_mod_cast y.den_pos
  have h2 : (0 : ℚ) < 2 ^ N := by positivity
  refine ⟨y.den * 2 ^ N, mul_pos hden h2, ?_⟩
  rintro d ⟨m, e, _, he, rfl⟩
  obtain ⟨k, hk⟩ := Int.eq_ofNat_of_zero_le (show 0 ≤ e + N by omega)
  refine ⟨(m * 2 ^ k * y.den - y.num * 2 ^ N).natAbs, ?_⟩
  have he2 : (2 : ℚ) ^ e * 2 ^ N = 2 ^ k := by
    rw [← zpow_natCast (2 : ℚ) N, ← zpow_add₀ (by norm_num), ← zpow_natCast (2 : ℚ) k, hk]
  have hy : y * y.den = y.num := by exact_mod_cast Rat.mul_den_eq_num y
  rw [Nat.cast_natAbs, Int.cast_abs, ← abs_of_pos (mul_pos hden h2), ← abs_mul]
  congr 1
  push_cast
  calc (m * (2 : ℚ) ^ e - y) * (y.den * 2 ^ N) = m * (2 ^ e * 2 ^ N) * y.den - (y * y.den) * 2 ^ N := by ring
    _ = _ := by rw [he2, hy]

/-- There is a way to round to nearest, so the theorems are not empty. -/
theorem nearest_exists : ∃ cc : ℚ → ℚ, Nearest cc := by
  classical
  have key : ∀ y : ℚ, ∃ c, Double c ∧ ∀ d, Double d → |c - y| ≤ |d - y| := by
    intro y
    obtain ⟨s, hs, hdist⟩ := double_dist y
    have hex : ∃ n : Nat, ∃ d, Double d ∧ |d - y| * s = n := by
      obtain ⟨n, hn⟩ := hdist 0 safe_zero.1
      exact ⟨n, 0, safe_zero.1, hn⟩
    obtain ⟨c, hc, hn⟩ := Nat.find_spec hex
    refine ⟨c, hc, fun d hd => ?_⟩
    obtain ⟨n, hn'⟩ := hdist d hd
    have hle : Nat.find hex ≤ n := Nat.find_min' hex ⟨d, hd, hn'⟩
    refine le_of_mul_le_mul_right ?_ hs
    rw [hn, hn']
    exact_mod_cast hle
  exact ⟨fun y => (key y).choose, fun y => (key y).choose_spec⟩

/-- 0.5, -3 and `2^-20` are compiled exactly by every compiler. -/
example {cc : ℚ → ℚ} (hc : Nearest cc) : compiled cc (1 / 2) = 1 / 2 ∧ compiled cc (-3) = -3 ∧ compiled cc (1 / 2 ^ 20) = 1 / 2 ^ 20 :=
  ⟨compiled_safe hc ⟨⟨1, -1, by norm_num, by norm_num, by norm_num⟩, Or.inr (by norm_num [abs_of_pos])⟩,
   compiled_safe hc ⟨⟨-3, 0, by norm_num, by norm_num, by norm_num⟩, Or.inr (by norm_num)⟩,
   compiled_safe hc ⟨⟨1, -20, by norm_num, by norm_num, by norm_num⟩, Or.inl ⟨95367431640625, by norm_num⟩⟩⟩

/-- Hypotheses of `C87_partial` and `C87_exact`: the problem of C87_fails has coefficients of type `double`,
the next one has safe ones. -/
example : Doubles lostPs lostMaps := by
  intro p mp h r j _
  cases p <;> simp [lostMaps] at h
  subst h
  show Double ((Sp.mk 1 2 [(0, 0, ((2 : ℚ) ^ 70)⁻¹)]).at r j * 1)
  unfold Sp.at
  by_cases hr : 0 = r ∧ 0 = j
  · refine ⟨1, -70, by norm_num, by norm_num, ?_⟩
    simp [hr.1.symm, hr.2.symm]
  · simpa [hr] using safe_zero.1

example : ∀ (p : CId) (mp : RawMap ℚ), (if p = .q then some (⟨⟨1, 2, [(0, 0, 3), (0, 1, 1 / 2)]⟩, fun _ => 1⟩ : RawMap ℚ) else none) = some mp →
    ∀ r j, j ≤ totalSize lostPs → Safe (mp.mapping.at r j * mp.sign r) := by
  intro p mp h r j _
  split at h
  case isFalse => cases h
  cases h
  have h3 : Safe 3 := ⟨⟨3, 0, by norm_num, by norm_num, by norm_num⟩, Or.inr (by norm_num)⟩
  have h2 : Safe (1 / 2) := ⟨⟨1, -1, by norm_num, by norm_num, by norm_num⟩, Or.inr (by norm_num [abs_of_pos])⟩
  show Safe ((Sp.mk 1 2 [(0, 0, (3 : ℚ)), (0, 1, 1 / 2)]).at r j * 1)
  rw [mul_one]
  unfold Sp.at
  by_cases hr : 0 = r ∧ 0 = j
  · simpa [hr.1.symm, hr.2.symm] using h3
  · by_cases hr' : 0 = r ∧ 1 = j
    · simpa [hr'.1.symm, hr'.2.symm] using h2
    · simpa [hr, hr'] using safe_zero

end Verif.Props
