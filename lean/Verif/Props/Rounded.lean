import Verif.Lemmas.Rounded
import Verif.Props.Printed
/-!
C90: canonicalization in floating point.
-/
namespace Verif.Props
open Verif.Model Verif.Model.Text Verif.Model.Printed Verif.Model.Rounded Verif.Spec Verif.Spec.Printed Verif.Spec.Rounded Verif.Lemmas
  Verif.Lemmas.Printed Verif.Lemmas.Rounded Finset

/-- The arithmetic is that of a floating-point type that has the number 1; literals are of type `double`. Ties may be
rounded either way, and differently by the compiler and by the machine. -/
structure Floating (p : Nat) (emin : Int) (A : Arith) : Prop where
  pos : 0 < p
  one : emin ≤ 0
  cc : Nearest A.cc
  conv : NearestIn p emin A.conv
  mac : ∃ fl, NearestIn p emin fl ∧ Mac fl A.mac

variable {p : Nat} {emin : Int} {A : Arith}

theorem rep_one (hp : 0 < p) (he : emin ≤ 0) : Rep p emin 1 :=
  ⟨1, 0, Nat.one_lt_two_pow (by omega), he, by simp⟩

theorem num_zero (h : Floating p emin A) : A.num 0 = 0 := by
  unfold Arith.num; rw [compiled_safe h.cc safe_zero, nearest_zero h.conv]

theorem num_one (h : Floating p emin A) : A.num 1 = 1 := by
  unfold Arith.num; rw [compiled_safe h.cc safe_one, nearest_rep h.conv (rep_one h.pos h.one)]

theorem num_safe (h : Floating p emin A) {x : ℚ} (hx : Safe x) : A.num x = A.conv x := by
  unfold Arith.num; rw [compiled_safe h.cc hx]

/-- The coefficient of parameter `j` (`j = totalSize ps`: the constant) in row `r` of a map. -/
def coef (m : RawMap ℚ) (r j : Nat) : ℚ := m.mapping.at r j * m.sign r

/-- Number of coefficients that are not zero. -/
def terms (m : RawMap ℚ) (n r : Nat) : Nat := ((range (n + 1)).filter fun j => coef m r j ≠ 0).card

/-- The exact sum, and the sum of absolute values. -/
def exactSum (c : Nat → ℚ) (n : Nat) (θ : List ℚ) : ℚ := ∑ j ∈ range (n + 1), c j * fn (θ ++ [1]) j
def absSum (c : Nat → ℚ) (n : Nat) (θ : List ℚ) : ℚ := ∑ j ∈ range (n + 1), |c j * fn (θ ++ [1]) j|

/-- One entry as computed, compared with the exact sum of the compiled coefficients and the stored parameters. -/
theorem row_err (h : Floating p emin A) (m : RawMap ℚ) (u : Bool) (θ : List ℚ) (n : Nat) (hcols : m.mapping.cols = n + 1)
    (i : Nat) (hi : i < (m.final u).rows) :
    |rowMac A.mac (rowF A m u i) (fn (θ ++ [1])) 0 - exactSum (fun j => A.num (coef m (srcRow m u i) j)) n θ| ≤
      ((1 + unit p) ^ (terms m n (srcRow m u i) + 1) - 1) * absSum (fun j => A.num (coef m (srcRow m u i) j)) n θ
        + small p emin (terms m n (srcRow m u i)) := by
  obtain ⟨fl, h1, h2⟩ := h.mac
  have := rowMac_err h.pos h1 h2 (fn (θ ++ [1])) (rowF A m u i)
  rw [rowF_dot A (num_zero h) m u i hi, rowF_abs A (num_zero h) m u i hi, rowF_length A m u i hi, hcols] at this
  exact this

theorem fn_last (θ : List ℚ) (n : Nat) (hn : θ.length = n) : fn (θ ++ [1]) n = 1 := by simp [fn, ← hn]

theorem fn_init (θ : List ℚ) (j : Nat) (hj : j < θ.length) : fn (θ ++ [1]) j = fn θ j := by
  unfold fn
  simp [List.getD, List.getElem?_append, hj]

/-- One entry as computed, compared with the sum of the coefficients and parameters before they were rounded. -/
theorem row_total (h : Floating p emin A) (m : RawMap ℚ) (u : Bool) (θ θ' : List ℚ) (n : Nat) (hcols : m.mapping.cols = n + 1)
    (hθ : θ.length = n) (hθ' : θ'.length = n) (i : Nat) (hi : i < (m.final u).rows)
    (hc : ∀ j ≤ n, |A.num (coef m (srcRow m u i) j) - coef m (srcRow m u i) j| ≤ unit p * |coef m (srcRow m u i) j|)
    (hv : ∀ j < n, |fn θ' j - fn θ j| ≤ unit p * |fn θ j|) :
    |rowMac A.mac (rowF A m u i) (fn (θ' ++ [1])) 0 - exactSum (coef m (srcRow m u i)) n θ| ≤
      ((1 + unit p) ^ (terms m n (srcRow m u i) + 3) - 1) * absSum (coef m (srcRow m u i)) n θ
        + small p emin (terms m n (srcRow m u i)) := by
  have h1 := row_err h m u θ' n hcols i hi
  have hu := (unit_pos p).le
  generalize srcRow m u i = r at *
  have hv' : ∀ j ≤ n, |fn (θ' ++ [1]) j - fn (θ ++ [1]) j| ≤ unit p * |fn (θ ++ [1]) j| := by
    intro j hj
    rcases Nat.lt_or_ge j n with hlt | hge
    · rw [fn_init θ j (by omega), fn_init θ' j (by omega)]; exact hv j hlt
    · obtain rfl : j = n := by omega
      rw [fn_last θ' j hθ', fn_last θ j hθ]; simp [hu]
  have hprod : ∀ j ≤ n, |A.num (coef m r j) * fn (θ' ++ [1]) j - coef m r j * fn (θ ++ [1]) j|
      ≤ ((1 + unit p) ^ 2 - 1) * |coef m r j * fn (θ ++ [1]) j| := by
    intro j hj
    have a := hc j hj
    have b := hv' j hj
    generalize A.num (coef m r j) = c' at *
    generalize coef m r j = c at *
    generalize fn (θ' ++ [1]) j = v' at *
    generalize fn (θ ++ [1]) j = v at *
    have e : c' * v' - c * v = (c' - c) * (v' - v) + (c' - c) * v + c * (v' - v) := by ring
    rw [e]
    have t1 := abs_add_le ((c' - c) * (v' - v) + (c' - c) * v) (c * (v' - v))
    have t2 := abs_add_le ((c' - c) * (v' - v)) ((c' - c) * v)
    rw [abs_mul, abs_mul] at t2
    rw [abs_mul c] at t1
    have s1 : |c' - c| * |v' - v| ≤ unit p * |c| * (unit p * |v|) := mul_le_mul a b (abs_nonneg _) (by positivity)
    have s2 := mul_le_mul_of_nonneg_right a (abs_nonneg v)
    have s3 := mul_le_mul_of_nonneg_left b (abs_nonneg c)
    rw [abs_mul]
    nlinarith
  have h2 : |exactSum (fun j => A.num (coef m r j)) n θ' - exactSum (coef m r) n θ| ≤ ((1 + unit p) ^ 2 - 1) * absSum (coef m r) n θ := by
    unfold exactSum absSum
    rw [← sum_sub_distrib, mul_sum]
    refine le_trans (abs_sum_le_sum_abs _ _) (sum_le_sum fun j hj => hprod j ?_)
    have := mem_range.1 hj; omega
  have h3 : absSum (fun j => A.num (coef m r j)) n θ' ≤ (1 + unit p) ^ 2 * absSum (coef m r) n θ := by
    unfold absSum
    rw [mul_sum]
    refine sum_le_sum fun j hj => ?_
    have := hprod j (by have := mem_range.1 hj; omega)
    have t := abs_sub_abs_le_abs_sub (A.num (coef m r j) * fn (θ' ++ [1]) j) (coef m r j * fn (θ ++ [1]) j)
    linarith
  have h4 : |rowMac A.mac (rowF A m u i) (fn (θ' ++ [1])) 0 - exactSum (coef m r) n θ| ≤
      |rowMac A.mac (rowF A m u i) (fn (θ' ++ [1])) 0 - exactSum (fun j => A.num (coef m r j)) n θ'|
        + |exactSum (fun j => A.num (coef m r j)) n θ' - exactSum (coef m r) n θ| := abs_sub_le _ _ _
  have h5 : 0 ≤ (1 + unit p) ^ (terms m n r + 1) - 1 := by
    have := one_le_pow₀ (n := terms m n r + 1) (show 1 ≤ 1 + unit p by linarith)
    linarith
  have h6 := mul_le_mul_of_nonneg_left h3 h5
  have h7 : (1 + unit p) ^ (terms m n r + 3) = (1 + unit p) ^ (terms m n r + 1) * (1 + unit p) ^ 2 := by rw [← pow_add]
  rw [h7]
  generalize (1 + unit p) ^ (terms m n r + 1) = g at *
  generalize (1 + unit p) ^ 2 = q at *
  nlinarith

/-- The bound in plain numbers. -/
theorem C90_growth (u : ℚ) (hu : 0 ≤ u) (n : Nat) (h : 2 * n * u ≤ 1) : (1 + u) ^ n - 1 ≤ 2 * n * u := by
  induction n with
  | zero => simp
  | succ n ih =>
    push_cast at *
    have h1 : 2 * (n : ℚ) * u ≤ 1 := by nlinarith
    have h2 := mul_le_mul_of_nonneg_right (ih h1) (show 0 ≤ 1 + u by linarith)
    have h3 := mul_le_mul_of_nonneg_right h1 hu
    rw [pow_succ]
    nlinarith

theorem C90_small (p : Nat) (emin : Int) (k : Nat) : small p emin k ≤ k * (1 + unit p) ^ k * ((2 + unit p) * tiny emin) := by
  have hu := (unit_pos p).le
  have ht := (tiny_pos emin).le
  have hc : 0 ≤ (2 + unit p) * tiny emin := by positivity
  induction k with
  | zero => simp [small]
  | succ k ih =>
    simp only [small]
    generalize (2 + unit p) * tiny emin = c at *
    have h1 := mul_le_mul_of_nonneg_left ih (show 0 ≤ 1 + unit p by linarith)
    have h2 := one_le_pow₀ (n := k + 1) (show 1 ≤ 1 + unit p by linarith)
    have h3 := mul_le_mul_of_nonneg_right h2 hc
    have h4 : (1 + unit p) * (k * (1 + unit p) ^ k * c) = k * (1 + unit p) ^ (k + 1) * c := by rw [pow_succ]; ring
    rw [h4] at h1
    push_cast
    linarith

/-- Every stored entry is a coefficient. -/
theorem final_entry (m : RawMap ℚ) (u : Bool) (i : Nat) (hi : i < (m.final u).rows) (e : Nat × Nat × ℚ) (he : e ∈ (m.final u).row i) :
    e.2.1 < m.mapping.cols ∧ e.2.2 = m.mapping.at (srcRow m u i) e.2.1 * m.sign (srcRow m u i) := by
  have hmem := List.mem_of_mem_filter he
  have hlt : e.2.1 < m.mapping.cols := by rw [← final_cols m u]; exact (final_wf m u e hmem).2
  refine ⟨hlt, ?_⟩
  have hne := final_ne_zero m u e hmem
  have hone := prSp_final_at (fun x : ℚ => if x = e.2.2 then (1 : ℚ) else 0) (by simp [Ne.symm hne]) m u i e.2.1 hi hlt
  have hpos : 0 < (prSp (fun x : ℚ => if x = e.2.2 then (1 : ℚ) else 0) (m.final u)).at i e.2.1 := by
    have hin : (e.1, e.2.1, (1 : ℚ)) ∈ (prSp (fun x : ℚ => if x = e.2.2 then (1 : ℚ) else 0) (m.final u)).ents.filter
        fun e' => decide (e'.1 = i ∧ e'.2.1 = e.2.1) := by
      refine List.mem_filter.2 ⟨List.mem_map.2 ⟨e, hmem, by simp⟩, ?_⟩
      have := (List.mem_filter.1 he).2
      simpa using this
    unfold Sp.at
    refine lt_of_lt_of_le zero_lt_one (List.single_le_sum ?_ 1 (List.mem_map.2 ⟨_, hin, rfl⟩))
    intro x hx
    obtain ⟨e3, he3, rfl⟩ := List.mem_map.1 hx
    obtain ⟨e4, _, rfl⟩ := List.mem_map.1 (List.mem_of_mem_filter he3)
    simp only
    split <;> norm_num
  rw [hone] at hpos
  by_contra hc
  rw [if_neg (Ne.symm hc)] at hpos
  exact lt_irrefl _ hpos

theorem roundedGen_canonOf (A : Arith) (ps : List UParam) (ids : List CId) (quad : Bool)
    (maps : CId → Option (RawMap ℚ)) (θ0 θ : { θ : List ℚ // θ.length = totalSize ps }) (q : CId) :
    (roundedGen A ps ids quad maps θ0).canonOf q θ =
      if (canonGen ps ids quad maps θ0).changes.getD q then canonValF A (maps q) q.isUpper θ.1
      else canonInitF A (maps q) q.isUpper θ0.1 := rfl

theorem roundedGen_changes (A : Arith) (ps : List UParam) (ids : List CId) (quad : Bool)
    (maps : CId → Option (RawMap ℚ)) (θ0 : { θ : List ℚ // θ.length = totalSize ps }) :
    (roundedGen A ps ids quad maps θ0).changes = (canonGen ps ids quad maps θ0).changes := rfl

/-- The compiled program knows its dependencies, in floating point too. -/
theorem roundedGen_sound (h : Floating p emin A) (ps : List UParam) (ids : List CId) (quad : Bool)
    (maps : CId → Option (RawMap ℚ)) (hw : WFInput ps ids maps)
    (θ0 : { θ : List ℚ // θ.length = totalSize ps }) : Sound (roundedGen A ps ids quad maps θ0) := by
  constructor
  · intro a q θ hq
    rw [roundedGen_canonOf, roundedGen_canonOf,
      show (roundedGen A ps ids quad maps θ0).assign a θ = (canonGen ps ids quad maps θ0).assign (pass A a) θ from rfl]
    by_cases hch : (canonGen ps ids quad maps θ0).changes.getD q = true
    · rw [if_pos hch, if_pos hch]
      obtain ⟨j, hj, hname, hidx⟩ := valid_index (pass A a).2
      have hlt := (updateC_eq hw.names hw.sizes j hj (pass A a).1.idx hidx (pass A a).1.val θ.1 θ.2).1
      rw [assign_eq quad hw θ0 (pass A a) θ j hj hname hidx]
      cases hm : maps q with
      | none => rfl
      | some m =>
        have hcols := hw.cols q m hm
        rw [canonValF_eq A (num_one h) m _ _ (by rw [List.length_set, θ.2]; exact hcols),
          canonValF_eq A (num_one h) m _ _ (by rw [θ.2]; exact hcols)]
        congr 1
        refine List.map_congr_left fun i hi => ?_
        have hid : q ∈ ids := by
          by_contra hid
          rw [hw.other q hid] at hm; cases hm
        have hout : q ∉ ids.filter fun c => adjacent ps (maps c) j := by
          have hp' : q ∉ ((outdatedOf ps ids maps).lookup a.1.name).getD [] := hq
          rw [show a.1.name = (ps[j]).name from hname.symm, outdated_lookup ps hw.names ids maps j hj] at hp'
          exact hp'
        have hadj : adjacent ps (maps q) j = false := by
          cases hc : adjacent ps (maps q) j with
          | false => rfl
          | true => exact absurd (List.mem_filter.mpr ⟨hid, hc⟩) hout
        simp only [adjacent, hm, decide_eq_false_iff_not] at hadj
        have hne : ∀ e ∈ rowF A m q.isUpper i, e.2.1 ≠ colOf ps j + (pass A a).1.idx := by
          intro e he hek
          unfold rowF at he
          rw [prSp_row] at he
          obtain ⟨e', he', rfl⟩ := List.mem_map.1 he
          have hi' : i < (m.final q.isUpper).rows := List.mem_range.1 hi
          have hz : (m.final q.isUpper).at i e'.2.1 = 0 := by
            have hlt' : e'.2.1 < m.mapping.cols := by
              rw [← final_cols m q.isUpper]
              exact (final_wf m q.isUpper e' (List.mem_of_mem_filter he')).2
            rw [final_at m q.isUpper i _ hi' hlt']
            rw [at_of_not_mem, zero_mul]
            intro e2 he2 hc2
            apply nnzCols_zero _ _ _ hadj e2 he2
            rw [colOf_succ ps j hj]
            have : e2.2.1 = colOf ps j + (pass A a).1.idx := hc2.2.trans hek
            omega
          apply final_ne_zero m q.isUpper e' (List.mem_of_mem_filter he')
          rw [(final_entry m q.isUpper i hi' e' he').2, ← final_at m q.isUpper i _ hi' (final_entry m q.isUpper i hi' e' he').1]
          exact hz
        unfold rowMac
        have hcongr : ∀ (l : List (Nat × Nat × ℚ)) (s : ℚ), (∀ e ∈ l, e.2.1 ≠ colOf ps j + (pass A a).1.idx) →
            l.foldl (fun s e => A.mac s e.2.2 (fn (θ.1.set (colOf ps j + (pass A a).1.idx) (pass A a).1.val ++ [1]) e.2.1)) s
              = l.foldl (fun s e => A.mac s e.2.2 (fn (θ.1 ++ [1]) e.2.1)) s := by
          intro l
          induction l with
          | nil => intro s _; rfl
          | cons e l ih =>
            intro s hl
            rw [List.foldl_cons, List.foldl_cons, ih _ fun e he => hl e (List.mem_cons_of_mem _ he)]
            congr 2
            unfold fn
            simp only [List.getD, List.getElem?_append, List.length_set]
            split
            · rw [List.getElem?_set_ne (Ne.symm (hl e (List.mem_cons_self ..)))]
            · rfl
        exact hcongr _ _ hne
    · rw [if_neg hch, if_neg hch]
  · intro q θ θ' hq
    rw [roundedGen_changes] at hq
    rw [roundedGen_canonOf, roundedGen_canonOf, hq, if_neg (by simp), if_neg (by simp)]
  · intro q θ hq
    rw [roundedGen_changes] at hq
    rw [roundedGen_canonOf, hq, if_neg (by simp)]
    rfl

/-- The data of a solve, row by row. -/
theorem rounded_rows (h : Floating p emin A) (k : Kind) (quad lp : Bool) (hk : k.possible quad lp = true)
    (ps : List UParam) (maps : CId → Option (RawMap ℚ)) (hw : WFInput ps (k.canonIds quad) maps)
    (θ0 : { θ : List ℚ // θ.length = totalSize ps })
    (order : List CId → List CId) (horder : ∀ l, (order l).Perm l) (junk : CId → Option (List ℚ))
    (history : List (Call { a : UpdCall ℚ // a.Valid ps })) :
    let g := roundedGen A ps (k.canonIds quad) quad maps θ0
    ∃ toks pus' m os,
      genBlock (k.solver quad lp).pus g.quad g.changes order = .ok (toks, pus') ∧
      g.runCalls (k.solver quad lp) toks (g.initMem (k.solver quad lp) junk) history = some (m, os) ∧
      List.Forall₂ (fun θ o => ∀ q ∈ (k.solver quad lp).uses, ∀ mp, maps q = some mp →
          ∃ v, o.data q = some v ∧ v.length = (srcRows mp q.isUpper).length ∧
            ∀ (i r : Nat) (x : ℚ), (srcRows mp q.isUpper)[i]? = some r → v[i]? = some x →
              i < (mp.final q.isUpper).rows ∧ r = srcRow mp q.isUpper i ∧
              (x = rowMac A.mac (rowF A mp q.isUpper i) (fn (θ.1 ++ [1])) 0 ∨
                (∀ j < totalSize ps, coef mp r j = 0) ∧ x = A.num (coef mp r (totalSize ps))))
        (solveParams g.assign g.θ0 history) os := by
  intro g
  have hg : Generated k quad lp (fun p => mapChanges (maps p) p.isUpper) g :=
    ⟨hk, rfl, rfl, roundedGen_sound h ps _ quad maps hw θ0⟩
  obtain ⟨toks, pus', m, os, h1, h2, _, h4⟩ :=
    C01_every_solve_uses_current_parameters hg order horder junk history
  refine ⟨toks, pus', m, os, h1, h2, ?_⟩
  refine h4.imp ?_
  intro θ o hfr q hq mp hmp
  have hcols := hw.cols q mp hmp
  have hsrc := (srcRows_spec mp q.isUpper).2
  have hdata : o.data q = if (canonGen ps (k.canonIds quad) quad maps θ0).changes.getD q then canonValF A (maps q) q.isUpper θ.1
    else canonInitF A (maps q) q.isUpper θ0.1 := hfr.1 q hq
  have hid : q ∈ k.canonIds quad := by
    by_contra hid
    rw [hw.other q hid] at hmp; cases hmp
  have hgetD : (canonGen ps (k.canonIds quad) quad maps θ0).changes.getD q = mapChanges (maps q) q.isUpper := by
    simp [canonGen, Changes.getD, changesOf, hid]
  rw [hgetD] at hdata
  have hrow : ∀ (i r : Nat), (srcRows mp q.isUpper)[i]? = some r → i < (mp.final q.isUpper).rows ∧ r = srcRow mp q.isUpper i := by
    intro i r hr
    rw [hsrc, List.getElem?_map] at hr
    by_cases hi : i < (mp.final q.isUpper).rows
    · rw [List.getElem?_range hi] at hr
      exact ⟨hi, (Option.some.inj hr).symm⟩
    · rw [List.getElem?_eq_none (by simpa using hi)] at hr
      cases hr
  cases hch : mapChanges (maps q) q.isUpper with
  | true =>
    rw [hch, if_pos rfl, hmp, canonValF_eq A (num_one h) mp _ _ (by rw [θ.2]; exact hcols)] at hdata
    refine ⟨_, hdata, by rw [hsrc]; simp, fun i r x hr hx => ?_⟩
    obtain ⟨hi, hr'⟩ := hrow i r hr
    refine ⟨hi, hr', Or.inl ?_⟩
    rw [List.getElem?_map, List.getElem?_range hi] at hx
    exact (Option.some.inj hx).symm
  | false =>
    have hz := const_row hw hmp hch
    rw [hch, if_neg (by simp), hmp] at hdata
    unfold canonInitF at hdata
    obtain ⟨v, hv, hv'⟩ := C08_canonicalization_is_affine_map mp q.isUpper θ0.1 (by rw [θ0.2]; exact hcols)
    have hv' : v = (srcRows mp q.isUpper).map _ := hv'
    rw [hv, hv', Option.map_some, List.map_map] at hdata
    refine ⟨_, hdata, by simp, fun i r x hr hx => ?_⟩
    obtain ⟨hi, hr'⟩ := hrow i r hr
    refine ⟨hi, hr', Or.inr ⟨fun j hj => hz r (List.mem_of_getElem? hr) j hj, ?_⟩⟩
    rw [List.getElem?_map, hr] at hx
    rw [← Option.some.inj hx]
    simp only [Function.comp]
    rw [θ0.2, sum_last _ _ θ0.2 (fun j => mp.mapping.at r j * mp.sign r),
      sum_eq_zero (fun j hj => by rw [hz r (List.mem_of_getElem? hr) j (by simpa using hj), zero_mul]), zero_add]
    rfl

/-- The stored values are the values of the user, converted. -/
theorem solveParams_conv {ps : List UParam} {ids : List CId} (quad : Bool) {maps : CId → Option (RawMap ℚ)}
    (hw : WFInput ps ids maps) (A : Arith) (θi : { θ : List ℚ // θ.length = totalSize ps })
    (history : List (Call { a : UpdCall ℚ // a.Valid ps })) :
    ∀ θ θ' : { θ : List ℚ // θ.length = totalSize ps }, θ'.1 = θ.1.map A.conv →
      List.Forall₂ (fun θ θ' => θ'.1 = θ.1.map A.conv)
        (solveParams (canonGen ps ids quad maps θi).assign θ history)
        (solveParams (roundedGen A ps ids quad maps θi).assign θ' history) := by
  induction history with
  | nil => intro θ θ' _; exact .nil
  | cons c cs ih =>
    intro θ θ' h
    cases c with
    | solve => exact .cons h (ih θ θ' h)
    | update a =>
      refine ih _ _ ?_
      obtain ⟨j, hj, hname, hidx⟩ := valid_index a.2
      rw [show (roundedGen A ps ids quad maps θi).assign a θ' = (canonGen ps ids quad maps θi).assign (pass A a) θ' from rfl,
        assign_eq quad hw θi a θ j hj hname hidx, assign_eq quad hw θi (pass A a) θ' j hj hname hidx]
      show θ'.1.set _ (A.conv a.1.val) = _
      rw [h, List.map_set]
      rfl

/-- Coefficients that survive compilation. -/
def SafeMaps (ps : List UParam) (maps : CId → Option (RawMap ℚ)) : Prop :=
  ∀ q mp, maps q = some mp → ∀ r j, j ≤ totalSize ps → Safe (coef mp r j)

theorem absSum_nonneg (c : Nat → ℚ) (n : Nat) (θ : List ℚ) : 0 ≤ absSum c n θ := sum_nonneg fun _ _ => abs_nonneg _

theorem fn_map (f : ℚ → ℚ) (θ : List ℚ) (j : Nat) (hj : j < θ.length) : fn (θ.map f) j = f (fn θ j) := by simp [fn, hj]

theorem fn_mem (θ : List ℚ) (j : Nat) (hj : j < θ.length) : fn θ j ∈ θ := by simp [fn, hj]

theorem exactSum_const (c : Nat → ℚ) (n : Nat) (θ : List ℚ) (hθ : θ.length = n) (hc : ∀ j < n, c j = 0) : exactSum c n θ = c n := by
  unfold exactSum
  rw [sum_last n θ hθ c, sum_eq_zero (fun j hj => by rw [hc j (by simpa using hj), zero_mul]), zero_add]

theorem absSum_const (c : Nat → ℚ) (n : Nat) (θ : List ℚ) (hθ : θ.length = n) (hc : ∀ j < n, c j = 0) : absSum c n θ = |c n| := by
  unfold absSum
  rw [sum_range_succ, sum_eq_zero (fun j hj => by rw [hc j (by simpa using hj), zero_mul, abs_zero]), zero_add, fn_last θ n hθ, mul_one]

/-- **C90** (partial: relative accuracy is false, see `C90_fails`) For all problems, solvers, floating-point types, ways to
round to nearest and histories of calls: every entry of the data of every solve differs from the canonicalization of the values
that the user set, computed exactly, by at most `(1 + u)^(k+3) - 1` times the sum of the absolute values of the products, plus
what is lost on numbers near zero; `u` is the relative error of one rounding, `k` is the number of products. -/
theorem C90_partial (h : Floating p emin A) (k : Kind) (quad lp : Bool) (hk : k.possible quad lp = true)
    (ps : List UParam) (maps : CId → Option (RawMap ℚ)) (hw : WFInput ps (k.canonIds quad) maps) (hs : SafeMaps ps maps)
    (hn : ∀ q mp, maps q = some mp → ∀ r j, j ≤ totalSize ps → Normal p emin (coef mp r j))
    (θ0 : { θ : List ℚ // θ.length = totalSize ps }) (hθ0 : ∀ x ∈ θ0.1, Safe x)
    (order : List CId → List CId) (horder : ∀ l, (order l).Perm l) (junk : CId → Option (List ℚ))
    (history : List (Call { a : UpdCall ℚ // a.Valid ps })) :
    let g := roundedGen A ps (k.canonIds quad) quad maps θ0
    let e := canonGen ps (k.canonIds quad) quad maps θ0
    ∃ toks pus' m os,
      genBlock (k.solver quad lp).pus g.quad g.changes order = .ok (toks, pus') ∧
      g.runCalls (k.solver quad lp) toks (g.initMem (k.solver quad lp) junk) history = some (m, os) ∧
      List.Forall₂ (fun θ o => (∀ x ∈ θ.1, Normal p emin x) → ∀ q ∈ (k.solver quad lp).uses, ∀ mp, maps q = some mp →
          ∃ v, o.data q = some v ∧
            v.length = (if q.isUpper then nonzeroRows mp.signed else List.range mp.mapping.rows).length ∧
            ∀ (i r : Nat) (x : ℚ), (if q.isUpper then nonzeroRows mp.signed else List.range mp.mapping.rows)[i]? = some r →
              v[i]? = some x →
              |x - exactSum (coef mp r) (totalSize ps) θ.1| ≤
                ((1 + unit p) ^ (terms mp (totalSize ps) r + 3) - 1) * absSum (coef mp r) (totalSize ps) θ.1
                  + small p emin (terms mp (totalSize ps) r))
        (solveParams e.assign θ0 history) os := by
  intro g e
  obtain ⟨toks, pus', m, os, h1, h2, h3⟩ := rounded_rows h k quad lp hk ps maps hw θ0 order horder junk history
  refine ⟨toks, pus', m, os, h1, h2, ?_⟩
  have h0 : g.θ0.1 = θ0.1.map A.conv := List.map_congr_left fun x hx => num_safe h (hθ0 x hx)
  refine (forall₂_chain (solveParams_conv quad hw A θ0 history θ0 g.θ0 h0) h3).imp ?_
  rintro θ o ⟨θ', hcv, ho⟩ hnorm q hq mp hmp
  obtain ⟨v, hv, hlen, hrows⟩ := ho q hq mp hmp
  refine ⟨v, hv, hlen, fun i r x hr hx => ?_⟩
  obtain ⟨hi, hr', hx'⟩ := hrows i r x hr hx
  have hu := (unit_pos p).le
  have hcoef : ∀ j ≤ totalSize ps, |A.num (coef mp r j) - coef mp r j| ≤ unit p * |coef mp r j| := fun j hj => by
    rw [num_safe h (hs q mp hmp r j hj)]
    exact nearest_normal h.pos h.conv (hn q mp hmp r j hj)
  rcases hx' with rfl | ⟨hz, rfl⟩
  · subst hr'
    refine row_total h mp q.isUpper θ.1 θ'.1 _ (hw.cols q mp hmp) θ.2 θ'.2 i hi hcoef fun j hj => ?_
    have hj' : j < θ.1.length := by rw [θ.2]; exact hj
    rw [hcv, fn_map _ _ j hj']
    exact nearest_normal h.pos h.conv (hnorm _ (fn_mem _ j hj'))
  · rw [exactSum_const _ _ _ θ.2 hz, absSum_const _ _ _ θ.2 hz]
    have a := hcoef _ (Nat.le_refl _)
    have b : 1 + unit p ≤ (1 + unit p) ^ (terms mp (totalSize ps) r + 3) := by
      conv_lhs => rw [← pow_one (1 + unit p)]
      exact pow_le_pow_right₀ (by linarith) (by omega)
    have c := mul_le_mul_of_nonneg_right (show unit p ≤ (1 + unit p) ^ (terms mp (totalSize ps) r + 3) - 1 by linarith)
      (abs_nonneg (coef mp r (totalSize ps)))
    have d := small_nonneg p emin (terms mp (totalSize ps) r)
    linarith

theorem map_conv_double (h : Floating 53 (-1074) A) (θ : List ℚ) (hd : ∀ x ∈ θ, Double x) : θ.map A.conv = θ := by
  conv_rhs => rw [← List.map_id θ]
  exact List.map_congr_left fun x hx => nearest_rep h.conv ((rep_double x).2 (hd x hx))

/-- **C90** for the type `double`: as `C90_partial`; values and coefficients are not rounded, so numbers near zero are allowed,
and data that do not depend on parameters are exact. -/
theorem C90_double (h : Floating 53 (-1074) A) (k : Kind) (quad lp : Bool) (hk : k.possible quad lp = true)
    (ps : List UParam) (maps : CId → Option (RawMap ℚ)) (hw : WFInput ps (k.canonIds quad) maps) (hs : SafeMaps ps maps)
    (θ0 : { θ : List ℚ // θ.length = totalSize ps }) (hθ0 : ∀ x ∈ θ0.1, Safe x)
    (order : List CId → List CId) (horder : ∀ l, (order l).Perm l) (junk : CId → Option (List ℚ))
    (history : List (Call { a : UpdCall ℚ // a.Valid ps })) :
    let g := roundedGen A ps (k.canonIds quad) quad maps θ0
    let e := canonGen ps (k.canonIds quad) quad maps θ0
    ∃ toks pus' m os,
      genBlock (k.solver quad lp).pus g.quad g.changes order = .ok (toks, pus') ∧
      g.runCalls (k.solver quad lp) toks (g.initMem (k.solver quad lp) junk) history = some (m, os) ∧
      List.Forall₂ (fun θ o => (∀ x ∈ θ.1, Double x) → ∀ q ∈ (k.solver quad lp).uses, ∀ mp, maps q = some mp →
          ∃ v, o.data q = some v ∧
            v.length = (if q.isUpper then nonzeroRows mp.signed else List.range mp.mapping.rows).length ∧
            ∀ (i r : Nat) (x : ℚ), (if q.isUpper then nonzeroRows mp.signed else List.range mp.mapping.rows)[i]? = some r →
              v[i]? = some x →
              |x - exactSum (coef mp r) (totalSize ps) θ.1| ≤
                ((1 + unit 53) ^ (terms mp (totalSize ps) r + 1) - 1) * absSum (coef mp r) (totalSize ps) θ.1
                  + small 53 (-1074) (terms mp (totalSize ps) r) ∧
              ((∀ j < totalSize ps, coef mp r j = 0) ∨ (∃ w : Int, -1074 ≤ w ∧
                  (∀ j ≤ totalSize ps, ∃ n : Int, coef mp r j * fn (θ.1 ++ [1]) j = n * (2 : ℚ) ^ w) ∧
                  absSum (coef mp r) (totalSize ps) θ.1 < 2 ^ 53 * (2 : ℚ) ^ w) →
                x = exactSum (coef mp r) (totalSize ps) θ.1))
        (solveParams e.assign θ0 history) os := by
  intro g e
  obtain ⟨toks, pus', m, os, h1, h2, h3⟩ := rounded_rows h k quad lp hk ps maps hw θ0 order horder junk history
  refine ⟨toks, pus', m, os, h1, h2, ?_⟩
  have h0 : g.θ0.1 = θ0.1.map A.conv := List.map_congr_left fun x hx => num_safe h (hθ0 x hx)
  refine (forall₂_chain (solveParams_conv quad hw A θ0 history θ0 g.θ0 h0) h3).imp ?_
  rintro θ o ⟨θ', hcv, ho⟩ hdbl q hq mp hmp
  obtain ⟨v, hv, hlen, hrows⟩ := ho q hq mp hmp
  refine ⟨v, hv, hlen, fun i r x hr hx => ?_⟩
  obtain ⟨hi, hr', hx'⟩ := hrows i r x hr hx
  have hcoef : ∀ j ≤ totalSize ps, A.num (coef mp r j) = coef mp r j := fun j hj => by
    have := hs q mp hmp r j hj
    rw [num_safe h this]
    exact nearest_rep h.conv ((rep_double _).2 this.1)
  have hE : exactSum (fun j => A.num (coef mp r j)) (totalSize ps) θ.1 = exactSum (coef mp r) (totalSize ps) θ.1 :=
    sum_congr rfl fun j hj => by simp only [hcoef j (by have := mem_range.1 hj; omega)]
  have hA : absSum (fun j => A.num (coef mp r j)) (totalSize ps) θ.1 = absSum (coef mp r) (totalSize ps) θ.1 :=
    sum_congr rfl fun j hj => by simp only [hcoef j (by have := mem_range.1 hj; omega)]
  rw [hcv, map_conv_double h _ hdbl] at hx'
  have hconst : (∀ j < totalSize ps, coef mp r j = 0) → exactSum (coef mp r) (totalSize ps) θ.1 = coef mp r (totalSize ps) :=
    fun hz => exactSum_const _ _ _ θ.2 hz
  have hpos : 0 ≤ ((1 + unit 53) ^ (terms mp (totalSize ps) r + 1) - 1) * absSum (coef mp r) (totalSize ps) θ.1 := by
    have := one_le_pow₀ (n := terms mp (totalSize ps) r + 1) (show 1 ≤ 1 + unit 53 by have := (unit_pos 53).le; linarith)
    exact mul_nonneg (by linarith) (absSum_nonneg _ _ _)
  have hsm := small_nonneg 53 (-1074) (terms mp (totalSize ps) r)
  rcases hx' with rfl | ⟨hz, rfl⟩
  · subst hr'
    have hb := row_err h mp q.isUpper θ.1 (totalSize ps) (hw.cols q mp hmp) i hi
    rw [hE, hA] at hb
    refine ⟨hb, ?_⟩
    obtain ⟨fl, hf1, hf2⟩ := h.mac
    have hd := rowF_dot A (num_zero h) mp q.isUpper i hi (fn (θ.1 ++ [1]))
    have ha := rowF_abs A (num_zero h) mp q.isUpper i hi (fn (θ.1 ++ [1]))
    rw [hw.cols q mp hmp] at hd ha
    have hd : rowDot (rowF A mp q.isUpper i) (fn (θ.1 ++ [1])) = exactSum (coef mp (srcRow mp q.isUpper i)) (totalSize ps) θ.1 := hd.trans hE
    have ha : rowAbs (rowF A mp q.isUpper i) (fn (θ.1 ++ [1])) = absSum (coef mp (srcRow mp q.isUpper i)) (totalSize ps) θ.1 := ha.trans hA
    have hcz : (∀ j < totalSize ps, coef mp (srcRow mp q.isUpper i) j = 0) →
        ∃ w : Int, -1074 ≤ w ∧ (∀ j ≤ totalSize ps, ∃ n : Int, coef mp (srcRow mp q.isUpper i) j * fn (θ.1 ++ [1]) j = n * (2 : ℚ) ^ w) ∧
          absSum (coef mp (srcRow mp q.isUpper i)) (totalSize ps) θ.1 < 2 ^ 53 * (2 : ℚ) ^ w := by
      intro hz
      obtain ⟨n, w, hn, hw', hc⟩ := (hs q mp hmp (srcRow mp q.isUpper i) (totalSize ps) (Nat.le_refl _)).1
      refine ⟨w, hw', fun j hj => ?_, ?_⟩
      · rcases Nat.lt_or_ge j (totalSize ps) with hlt | hge
        · exact ⟨0, by rw [hz j hlt]; simp⟩
        · obtain rfl : j = totalSize ps := by omega
          exact ⟨n, by rw [fn_last θ.1 _ θ.2, mul_one, hc]⟩
      · have h2 : (0 : ℚ) < (2 : ℚ) ^ w := zpow_pos (by norm_num) _
        rw [absSum_const _ _ _ θ.2 hz, hc, abs_mul, abs_of_pos h2]
        refine mul_lt_mul_of_pos_right ?_ h2
        have : |(n : ℚ)| = (n.natAbs : ℚ) := by rw [Nat.cast_natAbs, Int.cast_abs]
        rw [this]
        exact_mod_cast hn
    intro hex
    obtain ⟨w, hw', hgrid, hbound⟩ := hex.elim hcz id
    rw [← hd]
    rw [← ha] at hbound
    refine rowMac_exact hf1 hf2 _ w hw' _ (fun c hc => ?_) hbound
    unfold rowF at hc
    rw [prSp_row] at hc
    obtain ⟨e', he', rfl⟩ := List.mem_map.1 hc
    obtain ⟨hlt, hval⟩ := final_entry mp q.isUpper i hi e' he'
    have hval : e'.2.2 = coef mp (srcRow mp q.isUpper i) e'.2.1 := hval
    have hle : e'.2.1 ≤ totalSize ps := by have := hw.cols q mp hmp; omega
    simp only
    rw [hval, hcoef _ hle]
    exact hgrid _ hle
  · rw [hconst hz, hcoef _ (Nat.le_refl _), sub_self, abs_zero]
    exact ⟨by linarith, fun _ => rfl⟩

/-! ### explicit mode -/

/-- The update functions of explicit mode store the value moved into its limits, converted. -/
theorem C90_limited (h : Floating p emin A) (lo up v : ℚ) (hlo : Safe lo) (hup : Safe up) :
    limited A lo up v = A.conv (within lo up v) := by
  have hm : Monotone A.conv := fun x y hxy => nearest_mono h.conv hxy
  unfold within limited
  rw [hm.map_min, hm.map_max, num_safe h hlo, num_safe h hup]
  simp only
  generalize A.conv v = c
  generalize A.conv lo = a
  generalize A.conv up = b
  by_cases h1 : c < a
  · simp only [h1, if_true, max_eq_left h1.le]
    by_cases h2 : a > b
    · rw [if_pos h2, min_eq_left h2.le]
    · rw [if_neg h2, min_eq_right (not_lt.1 h2)]
  · simp only [h1, if_false, max_eq_right (not_lt.1 h1)]
    by_cases h2 : c > b
    · rw [if_pos h2, min_eq_left h2.le]
    · rw [if_neg h2, min_eq_right (not_lt.1 h2)]

theorem exUpdates_length (A : Arith) (lo up : Nat → ℚ) (calls : List (Nat × ℚ)) :
    ∀ θ, (exUpdates A lo up θ calls).length = θ.length := by
  induction calls with
  | nil => intro θ; rfl
  | cons c cs ih =>
    intro θ
    show (exUpdates A lo up _ cs).length = _
    rw [ih, List.length_set]

/-- After any sequence of updates in explicit mode. -/
theorem C90_updates (h : Floating p emin A) (lo up : Nat → ℚ) (hlo : ∀ k, Safe (lo k)) (hup : ∀ k, Safe (up k))
    (θ0 : List ℚ) (hθ0 : ∀ x ∈ θ0, Safe x) (calls : List (Nat × ℚ)) (k : Nat) (hk : k < θ0.length) :
    fn (exUpdates A lo up (θ0.map A.num) calls) k = A.conv (current lo up θ0 calls k) := by
  induction calls using List.reverseRecOn with
  | nil =>
    show fn (θ0.map A.num) k = A.conv (θ0.getD k 0)
    rw [fn_map _ _ k hk]
    exact num_safe h (hθ0 _ (fn_mem θ0 k hk))
  | append_singleton cs c ih =>
    have e : exUpdates A lo up (θ0.map A.num) (cs ++ [c])
        = (exUpdates A lo up (θ0.map A.num) cs).set c.1 (limited A (lo c.1) (up c.1) c.2) := by
      unfold exUpdates
      rw [List.foldl_append]
      rfl
    have hl : k < (exUpdates A lo up (θ0.map A.num) cs).length := by rw [exUpdates_length, List.length_map]; exact hk
    rw [e]
    unfold current
    rw [List.reverse_append, List.reverse_singleton, List.singleton_append, List.find?_cons]
    by_cases hc : c.1 = k
    · subst hc
      simp only [beq_self_eq_true]
      rw [← C90_limited h _ _ _ (hlo _) (hup _)]
      simp [fn, hl]
    · have : (c.1 == k) = false := by simpa using hc
      simp only [this]
      refine Eq.trans ?_ ih
      simp [fn, List.getElem?_set_ne hc]

/-- **C90** in explicit mode, in single precision with `p = 24`, `emin = -149`: after any sequence of updates, every entry of the
canonical parameters, from which the solution is computed, is as in `C90_partial`. -/
theorem C90_explicit (h : Floating p emin A) (lo up : Nat → ℚ) (hlo : ∀ k, Safe (lo k)) (hup : ∀ k, Safe (up k))
    (θ0 : List ℚ) (hθ0 : ∀ x ∈ θ0, Safe x) (calls : List (Nat × ℚ)) (m : RawMap ℚ) (u : Bool) (hcols : m.mapping.cols = θ0.length + 1)
    (hs : ∀ r j, j ≤ θ0.length → Safe (coef m r j) ∧ Normal p emin (coef m r j))
    (hn : ∀ j < θ0.length, Normal p emin (current lo up θ0 calls j)) :
    ∃ v, canonValF A (some m) u (exUpdates A lo up (θ0.map A.num) calls) = some v ∧
      v.length = (if u then nonzeroRows m.signed else List.range m.mapping.rows).length ∧
      ∀ (i r : Nat) (x : ℚ), (if u then nonzeroRows m.signed else List.range m.mapping.rows)[i]? = some r → v[i]? = some x →
        |x - exactSum (coef m r) θ0.length ((List.range θ0.length).map (current lo up θ0 calls))| ≤
          ((1 + unit p) ^ (terms m θ0.length r + 3) - 1) *
              absSum (coef m r) θ0.length ((List.range θ0.length).map (current lo up θ0 calls))
            + small p emin (terms m θ0.length r) := by
  have hl : (exUpdates A lo up (θ0.map A.num) calls).length = θ0.length := by rw [exUpdates_length, List.length_map]
  have hsrc := (srcRows_spec m u).2
  refine ⟨_, canonValF_eq A (num_one h) m u _ (by rw [hl]; exact hcols), ?_, fun i r x hr hx => ?_⟩
  · show _ = (srcRows m u).length
    rw [hsrc]; simp
  have hr : (srcRows m u)[i]? = some r := hr
  rw [hsrc, List.getElem?_map] at hr
  by_cases hi : i < (m.final u).rows
  · rw [List.getElem?_range hi] at hr
    rw [List.getElem?_map, List.getElem?_range hi] at hx
    rw [← Option.some.inj hx, ← Option.some.inj hr]
    refine row_total h m u _ _ _ hcols (by simp) hl i hi (fun j hj => ?_) fun j hj => ?_
    · obtain ⟨h1, h2⟩ := hs (srcRow m u i) j hj
      rw [num_safe h h1]
      exact nearest_normal h.pos h.conv h2
    · rw [C90_updates h lo up hlo hup θ0 hθ0 calls j hj]
      have e : fn ((List.range θ0.length).map (current lo up θ0 calls)) j = current lo up θ0 calls j := by simp [fn, hj]
      rw [e]
      exact nearest_normal h.pos h.conv (hn j hj)
  · rw [List.getElem?_eq_none (by simpa using hi)] at hr
    cases hr

/-! ### what is false -/

/-- Three parameters; the linear objective is `a + b + c`. -/
def sumPs : List UParam := [⟨"a", 1⟩, ⟨"b", 1⟩, ⟨"c", 1⟩]
def sumMaps : CId → Option (RawMap ℚ)
  | .q => some ⟨⟨1, 4, [(0, 0, 1), (0, 1, 1), (0, 2, 1)]⟩, fun _ => 1⟩
  | _ => none

theorem sumWF : WFInput sumPs (Kind.osqp.canonIds true) sumMaps := by
  refine ⟨by decide, by decide, ?_, ?_⟩
  · intro c m h
    cases c <;> simp [sumMaps] at h <;> subst h <;> rfl
  · intro c hc
    cases c <;> simp_all [Kind.canonIds, sumMaps]

/-- A number of the type that is at least `2^p` is an even integer. -/
theorem rep_even {d : ℚ} (hd : Rep p emin d) (hge : 2 ^ p ≤ d) : ∃ n : Int, d = 2 * n := by
  obtain ⟨m, e, hm, _, rfl⟩ := hd
  have hm' : (m : ℚ) < 2 ^ p := by
    have h1 : (m : ℚ) ≤ (m.natAbs : ℚ) := by
      rw [Nat.cast_natAbs, Int.cast_abs]; exact le_abs_self _
    have h2 : (m.natAbs : ℚ) < 2 ^ p := by exact_mod_cast hm
    linarith
  have he : 1 ≤ e := by
    by_contra hc
    have h2 : (2 : ℚ) ^ e ≤ 1 := by
      rw [← zpow_zero (2 : ℚ)]
      exact zpow_le_zpow_right₀ (by norm_num) (by omega)
    have h3 : (0 : ℚ) < (2 : ℚ) ^ e := zpow_pos (by norm_num) _
    have h4 : (0 : ℚ) < 2 ^ p := by positivity
    have : (m : ℚ) * (2 : ℚ) ^ e < 2 ^ p := by
      rcases le_or_gt (m : ℚ) 0 with h5 | h5
      · have := mul_nonneg (neg_nonneg.2 h5) h3.le
        linarith
      · have := mul_le_mul_of_nonneg_left h2 h5.le
        linarith
    linarith
  obtain ⟨k, hk⟩ := Int.eq_ofNat_of_zero_le (show 0 ≤ e - 1 by omega)
  refine ⟨m * 2 ^ k, ?_⟩
  have : (2 : ℚ) ^ e = 2 * 2 ^ k := by
    rw [show e = 1 + (k : Int) by omega, zpow_add₀ (by norm_num), zpow_one, zpow_natCast]
  rw [this]
  push_cast
  ring

theorem absorb {fl : ℚ → ℚ} (h : NearestIn p emin fl) (hp : 0 < p) (he : emin ≤ 0) : fl (2 ^ p + 1 / 2) = 2 ^ p := by
  have hrep : Rep p emin (2 ^ p) := ⟨1, p, Nat.one_lt_two_pow (by omega), by omega, by rw [zpow_natCast]; simp⟩
  obtain ⟨h1, h2⟩ := h (2 ^ p + 1 / 2)
  have h3 := h2 _ hrep
  generalize fl (2 ^ p + 1 / 2) = d at *
  rw [show (2 : ℚ) ^ p - (2 ^ p + 1 / 2) = -(1 / 2) by ring, abs_neg, abs_of_pos (by norm_num : (0 : ℚ) < 1 / 2)] at h3
  obtain ⟨h4, h5⟩ := abs_le.1 h3
  obtain ⟨n, rfl⟩ := rep_even h1 (by linarith)
  obtain ⟨P, rfl⟩ : ∃ P, p = P + 1 := ⟨p - 1, by omega⟩
  have a : (2 : ℚ) ^ P - 1 < n := by rw [pow_succ] at h4; linarith
  have b : (n : ℚ) < 2 ^ P + 1 := by rw [pow_succ] at h5; linarith
  have a' : (2 : Int) ^ P - 1 < n := by exact_mod_cast a
  have b' : n < (2 : Int) ^ P + 1 := by exact_mod_cast b
  have : n = 2 ^ P := by omega
  rw [this, pow_succ]
  push_cast
  ring

theorem safe_pow (p : Nat) : Safe (2 ^ p) := by
  refine ⟨⟨1, p, by norm_num, by omega, by rw [zpow_natCast]; simp⟩, Or.inr ?_⟩
  rw [abs_of_pos (by positivity)]
  have := one_le_pow₀ (n := p) (show (1 : ℚ) ≤ 2 by norm_num)
  refine le_trans ?_ this
  norm_num

theorem safe_neg {x : ℚ} (h : Safe x) : Safe (-x) := by
  obtain ⟨⟨m, e, h1, h2, rfl⟩, h3⟩ := h
  refine ⟨⟨-m, e, by simpa using h1, h2, by push_cast; ring⟩, ?_⟩
  rcases h3 with ⟨n, hn⟩ | h3
  · exact Or.inl ⟨-n, by rw [hn]; push_cast; ring⟩
  · exact Or.inr (by rwa [abs_neg])

theorem safe_half : Safe (1 / 2) := ⟨⟨1, -1, by norm_num, by norm_num, by norm_num⟩, Or.inr (by norm_num [abs_of_pos])⟩

/-- C90 does not hold relative to the data: with the objective `a + b + c` and the values `2^p`, `1/2`, `-2^p`, which all are
numbers of the type, the solver gets 0 instead of 1/2 with every way to round to nearest. -/
theorem C90_fails (h : Floating p emin A) (he : emin ≤ -1) (order : List CId → List CId) (horder : ∀ l, (order l).Perm l)
    (junk : CId → Option (List ℚ)) :
    let θ0 : { θ : List ℚ // θ.length = totalSize sumPs } := ⟨[2 ^ p, 1 / 2, -2 ^ p], rfl⟩
    let g := roundedGen A sumPs (Kind.osqp.canonIds true) true sumMaps θ0
    let e := canonGen sumPs (Kind.osqp.canonIds true) true sumMaps θ0
    ∃ toks pus' m o,
      genBlock (Kind.osqp.solver true false).pus g.quad g.changes order = .ok (toks, pus') ∧
      g.runCalls (Kind.osqp.solver true false) toks (g.initMem (Kind.osqp.solver true false) junk) [.solve] = some (m, [o]) ∧
      o.data .q = some [0] ∧ e.canonOf .q θ0 = some [1 / 2] := by
  intro θ0 g e
  obtain ⟨toks, pus', m, os, h1, h2, h3⟩ := rounded_rows h .osqp true false rfl sumPs sumMaps sumWF θ0 order horder junk [.solve]
  cases h3 with
  | cons ho hrest =>
  rename_i o os
  cases hrest
  refine ⟨toks, pus', m, o, h1, h2, ?_, ?_⟩
  · obtain ⟨v, hv, hlen, hrows⟩ := ho .q (by decide) _ rfl
    have hl1 : v.length = 1 := hlen
    obtain ⟨x, rfl⟩ := List.length_eq_one_iff.1 hl1
    obtain ⟨_, _, hx⟩ := hrows 0 0 x rfl rfl
    rw [hv]
    congr 2
    have hrep : ∀ n : Nat, Rep p emin (2 ^ n) := fun n => ⟨1, n, Nat.one_lt_two_pow (by have := h.pos; omega), by omega, by
      rw [zpow_natCast]; simp⟩
    have hhalf : Rep p emin (1 / 2) := ⟨1, -1, Nat.one_lt_two_pow (by have := h.pos; omega), he, by norm_num⟩
    have hneg : ∀ {y : ℚ}, Rep p emin y → Rep p emin (-y) := by
      rintro y ⟨m, e, a, b, rfl⟩
      exact ⟨-m, e, by simpa using a, b, by push_cast; ring⟩
    have hθ : g.θ0.1 = [2 ^ p, 1 / 2, -2 ^ p] := by
      show [A.num (2 ^ p), A.num (1 / 2), A.num (-2 ^ p)] = _
      rw [num_safe h (safe_pow p), num_safe h safe_half, num_safe h (safe_neg (safe_pow p)), nearest_rep h.conv (hrep p),
        nearest_rep h.conv hhalf, nearest_rep h.conv (hneg (hrep p))]
    have hcoef : coef (⟨⟨1, 4, [(0, 0, 1), (0, 1, 1), (0, 2, 1)]⟩, fun _ => 1⟩ : RawMap ℚ) 0 0 = 1 := by
      unfold coef Sp.at
      simp
    rcases hx with rfl | ⟨hz, _⟩
    · have hrow : rowF A (⟨⟨1, 4, [(0, 0, 1), (0, 1, 1), (0, 2, 1)]⟩, fun _ => 1⟩ : RawMap ℚ) (CId.isUpper .q) 0
          = [(0, 0, A.num 1), (0, 1, A.num 1), (0, 2, A.num 1)] := by
        unfold rowF
        rw [prSp_row, show (RawMap.final (⟨⟨1, 4, [(0, 0, 1), (0, 1, 1), (0, 2, 1)]⟩, fun _ => 1⟩ : RawMap ℚ) (CId.isUpper .q)).row 0
          = [(0, 0, 1), (0, 1, 1), (0, 2, 1)] by decide +kernel]
        rfl
      rw [hrow, hθ, num_one h]
      show A.mac (A.mac (A.mac 0 1 (2 ^ p)) 1 (1 / 2)) 1 (-2 ^ p) = 0
      obtain ⟨fl, hf, hmac⟩ := h.mac
      have m1 : A.mac 0 1 (2 ^ p) = 2 ^ p := by
        rcases hmac 0 1 (2 ^ p) with e | e <;> rw [e] <;> simp only [one_mul, zero_add, nearest_rep hf (hrep p)]
      have m2 : A.mac (2 ^ p) 1 (1 / 2) = 2 ^ p := by
        rcases hmac (2 ^ p) 1 (1 / 2) with e | e <;> rw [e]
        · rw [one_mul, nearest_rep hf hhalf, absorb hf h.pos h.one]
        · rw [one_mul, absorb hf h.pos h.one]
      have m3 : A.mac (2 ^ p) 1 (-2 ^ p) = 0 := by
        rcases hmac (2 ^ p) 1 (-2 ^ p) with e | e <;> rw [e]
        · rw [one_mul, nearest_rep hf (hneg (hrep p)), add_neg_cancel, nearest_zero hf]
        · rw [one_mul, add_neg_cancel, nearest_zero hf]
      rw [m1, m2, m3]
    · have := hz 0 (by decide)
      rw [hcoef] at this
      exact absurd this one_ne_zero
  · obtain ⟨v, hv, hv'⟩ := C08_canonicalization_is_affine_map (⟨⟨1, 4, [(0, 0, 1), (0, 1, 1), (0, 2, 1)]⟩, fun _ => 1⟩ : RawMap ℚ) false
      [2 ^ p, 1 / 2, -2 ^ p] rfl
    show canonVal (some (⟨⟨1, 4, [(0, 0, 1), (0, 1, 1), (0, 2, 1)]⟩, fun _ => 1⟩ : RawMap ℚ)) false [2 ^ p, 1 / 2, -2 ^ p] = _
    rw [hv, hv']
    show some ([0].map _) = _
    simp [sum_range_succ, Sp.at, fn]

/-- In single precision a parameter can exceed its limit: with the limit `1 + 3 * 2^-25`, which is a number of type `double` and
printed exactly, larger values are set to `1 + 2^-23`. -/
theorem C90_fails_limit (h : Floating 24 (-149) A) (lo v : ℚ) (hlo : Safe lo) (hv : 1 + 3 / 2 ^ 25 ≤ max lo v) :
    Safe (1 + 3 / 2 ^ 25) ∧ limited A lo (1 + 3 / 2 ^ 25) v = 1 + 1 / 2 ^ 23 ∧ (1 : ℚ) + 3 / 2 ^ 25 < 1 + 1 / 2 ^ 23 := by
  have hs : Safe (1 + 3 / 2 ^ 25) := ⟨⟨2 ^ 25 + 3, -25, by norm_num, by norm_num, by norm_num⟩, Or.inr (by norm_num [abs_of_pos])⟩
  refine ⟨hs, ?_, by norm_num⟩
  rw [C90_limited h lo _ v hlo hs]
  unfold within
  rw [min_eq_left hv]
  obtain ⟨⟨m, e, hm, _, hd⟩, h2⟩ := h.conv (1 + 3 / 2 ^ 25)
  have h3 := h2 (1 + 1 / 2 ^ 23) ⟨2 ^ 23 + 1, -23, by norm_num, by norm_num, by norm_num⟩
  rw [show ((1 : ℚ) + 1 / 2 ^ 23 - (1 + 3 / 2 ^ 25)) = 1 / 2 ^ 25 by norm_num, abs_of_pos (by norm_num : (0 : ℚ) < 1 / 2 ^ 25)] at h3
  obtain ⟨h4, h5⟩ := abs_le.1 h3
  have lo1 : 1 + 1 / 2 ^ 24 ≤ A.conv (1 + 3 / 2 ^ 25) := by norm_num at h4 ⊢; linarith
  have up1 : A.conv (1 + 3 / 2 ^ 25) ≤ 1 + 1 / 2 ^ 23 := by norm_num at h5 ⊢; linarith
  have key : ∃ n : Int, A.conv (1 + 3 / 2 ^ 25) * 2 ^ 24 = 2 * n := by
    refine rep_even (p := 24) (emin := -125) ⟨m, e + 24, hm, by omega, ?_⟩ ?_
    · rw [hd, zpow_add₀ (by norm_num)]
      norm_num
      ring
    · linarith
  obtain ⟨n, hn⟩ := key
  have a : (2 : ℚ) ^ 23 < n := by norm_num at lo1 hn ⊢; linarith
  have b : (n : ℚ) ≤ 2 ^ 23 + 1 := by norm_num at up1 hn ⊢; linarith
  have a' : (2 : Int) ^ 23 < n := by exact_mod_cast a
  have b' : n ≤ (2 : Int) ^ 23 + 1 := by exact_mod_cast b
  have : n = 2 ^ 23 + 1 := by omega
  rw [this] at hn
  norm_num at hn ⊢
  linarith

/-! ### instances -/

/-- There is a way to round to every such type. -/
theorem nearestIn_exists (p : Nat) (emin : Int) : ∃ fl : ℚ → ℚ, NearestIn p emin fl := by
  classical
  have key : ∀ y : ℚ, ∃ c, Rep p emin c ∧ ∀ d, Rep p emin d → |c - y| ≤ |d - y| := by
    intro y
    have h2 : (0 : ℚ) < (2 : ℚ) ^ (-emin) := zpow_pos (by norm_num) _
    have hden : (0 : ℚ) < y.den := by exact_mod_cast y.den_pos
    have hs : 0 < (y.den : ℚ) * ((2 : ℚ) ^ (-emin) * 2 ^ emin.natAbs) := mul_pos hden (mul_pos h2 (by positivity))
    obtain ⟨K, hK⟩ : ∃ K : Nat, (2 : ℚ) ^ (-emin) * 2 ^ emin.natAbs = 2 ^ K := by
      obtain ⟨K, hK⟩ := Int.eq_ofNat_of_zero_le (show 0 ≤ -emin + emin.natAbs by omega)
      exact ⟨K, by rw [← zpow_natCast (2 : ℚ) emin.natAbs, ← zpow_add₀ (by norm_num), ← zpow_natCast (2 : ℚ) K, hK]⟩
    have hdist : ∀ d, Rep p emin d → ∃ n : Nat, |d - y| * ((y.den : ℚ) * ((2 : ℚ) ^ (-emin) * 2 ^ emin.natAbs)) = n := by
      rintro d ⟨m, e, _, he, rfl⟩
      obtain ⟨k, hk⟩ := Int.eq_ofNat_of_zero_le (show 0 ≤ e - emin by omega)
      refine ⟨(m * 2 ^ k * 2 ^ emin.natAbs * y.den - y.num * 2 ^ K).natAbs, ?_⟩
      have he2 : (2 : ℚ) ^ e * (2 : ℚ) ^ (-emin) = 2 ^ k := by
        rw [← zpow_add₀ (by norm_num), ← zpow_natCast (2 : ℚ) k, ← hk, sub_eq_add_neg]
      have hy : y * y.den = y.num := by exact_mod_cast Rat.mul_den_eq_num y
      rw [Nat.cast_natAbs, Int.cast_abs, ← abs_of_pos hs, ← abs_mul]
      congr 1
      push_cast
      calc (m * (2 : ℚ) ^ e - y) * (y.den * ((2 : ℚ) ^ (-emin) * 2 ^ emin.natAbs))
          = m * ((2 : ℚ) ^ e * (2 : ℚ) ^ (-emin)) * 2 ^ emin.natAbs * y.den - (y * y.den) * ((2 : ℚ) ^ (-emin) * 2 ^ emin.natAbs) := by ring
        _ = _ := by rw [he2, hy, hK]
    have hex : ∃ n : Nat, ∃ d, Rep p emin d ∧ |d - y| * ((y.den : ℚ) * ((2 : ℚ) ^ (-emin) * 2 ^ emin.natAbs)) = n := by
      obtain ⟨n, hn⟩ := hdist 0 (rep_zero p emin)
      exact ⟨n, 0, rep_zero p emin, hn⟩
    obtain ⟨c, hc, hn⟩ := Nat.find_spec hex
    refine ⟨c, hc, fun d hd => ?_⟩
    obtain ⟨n, hn'⟩ := hdist d hd
    have hle : Nat.find hex ≤ n := Nat.find_min' hex ⟨d, hd, hn'⟩
    refine le_of_mul_le_mul_right ?_ hs
    rw [hn, hn']
    exact_mod_cast hle
  exact ⟨fun y => (key y).choose, fun y => (key y).choose_spec⟩

/-- There is such arithmetic of double and of single precision, with products rounded and not. -/
theorem floating_exists (p : Nat) (emin : Int) (hp : 0 < p) (he : emin ≤ 0) (fused : Bool) : ∃ A, Floating p emin A ∧
    ∀ s a b, A.mac s a b = if fused then A.conv (s + a * b) else A.conv (s + A.conv (a * b)) := by
  obtain ⟨cc, hcc⟩ := nearest_exists
  obtain ⟨fl, hfl⟩ := nearestIn_exists p emin
  refine ⟨⟨cc, fl, fun s a b => if fused then fl (s + a * b) else fl (s + fl (a * b))⟩, ⟨hp, he, hcc, hfl, fl, hfl, fun s a b => ?_⟩,
    fun _ _ _ => rfl⟩
  cases fused
  · exact Or.inl rfl
  · exact Or.inr rfl

example : (∃ A, Floating 53 (-1074) A) ∧ ∃ A, Floating 24 (-149) A :=
  ⟨(floating_exists 53 (-1074) (by norm_num) (by norm_num) true).imp fun _ h => h.1,
   (floating_exists 24 (-149) (by norm_num) (by norm_num) false).imp fun _ h => h.1⟩

/-- The coefficients of `sumMaps` are safe and normal. -/
theorem sum_coef (q : CId) (mp : RawMap ℚ) (h : sumMaps q = some mp) (r j : Nat) : coef mp r j = 0 ∨ coef mp r j = 1 := by
  cases q <;> simp [sumMaps] at h
  subst h
  unfold coef Sp.at
  by_cases h0 : 0 = r
  · subst h0
    rcases j with _ | _ | _ | j <;> simp
  · simp [h0]

example : SafeMaps sumPs sumMaps ∧
    (∀ q mp, sumMaps q = some mp → ∀ r j, j ≤ totalSize sumPs → Normal 24 (-149) (coef mp r j)) ∧
    ∀ x ∈ ([2 ^ 53, 1 / 2, -2 ^ 53] : List ℚ), Safe x ∧ Normal 24 (-149) x := by
  have n1 : ∀ x : ℚ, 1 / 2 ≤ |x| → Normal 24 (-149) x := fun x hx => Or.inr (le_trans (by norm_num) hx)
  refine ⟨fun q mp h r j _ => ?_, fun q mp h r j _ => ?_, ?_⟩
  · rcases sum_coef q mp h r j with e | e <;> rw [e]
    · exact safe_zero
    · exact safe_one
  · rcases sum_coef q mp h r j with e | e <;> rw [e]
    · exact Or.inl rfl
    · exact n1 _ (by norm_num)
  · intro x hx
    simp only [List.mem_cons, List.not_mem_nil, or_false] at hx
    rcases hx with rfl | rfl | rfl
    · exact ⟨safe_pow 53, n1 _ (by norm_num)⟩
    · exact ⟨safe_half, n1 _ (by norm_num [abs_of_pos])⟩
    · exact ⟨safe_neg (safe_pow 53), n1 _ (by norm_num)⟩

/-- The second part of `C90_double`: sums of integers below `2^53`. -/
example : (∀ j ≤ 3, ∃ n : Int, coef (⟨⟨1, 4, [(0, 0, 1), (0, 1, 1), (0, 2, 1)]⟩, fun _ => 1⟩ : RawMap ℚ) 0 j * fn ([3, 4, -5] ++ [1]) j
      = n * (2 : ℚ) ^ (0 : Int)) ∧
    absSum (coef (⟨⟨1, 4, [(0, 0, 1), (0, 1, 1), (0, 2, 1)]⟩, fun _ => 1⟩ : RawMap ℚ) 0) 3 [3, 4, -5] < 2 ^ 53 * (2 : ℚ) ^ (0 : Int) := by
  constructor
  · intro j hj
    match j, hj with
    | 0, _ => exact ⟨3, by simp [coef, Sp.at, fn]⟩
    | 1, _ => exact ⟨4, by simp [coef, Sp.at, fn]⟩
    | 2, _ => exact ⟨-5, by simp [coef, Sp.at, fn]⟩
    | 3, _ => exact ⟨0, by simp [coef, Sp.at, fn]⟩
  · simp [absSum, sum_range_succ, coef, Sp.at, fn]
    norm_num

/-- Limits 0 and 2: the values 5, then 1 for the first entry; the second is not set. -/
example : current (fun _ => 0) (fun _ => 2) [7, 8] [(0, 5), (0, 1)] 0 = 1 ∧ current (fun _ => 0) (fun _ => 2) [7, 8] [(0, 1), (0, 5)] 0 = 2 ∧
    current (fun _ => 0) (fun _ => 2) [7, 8] [(0, 5), (0, 1)] 1 = 8 := by decide +kernel

end Verif.Props
