import Verif.Model.GradArr
import Verif.Lemmas.GradRefI
/-!
Lemmas for C98: incoming gradients and user parameters on arrays.
-/
namespace Verif.Lemmas.GradArr
open Verif.Model Verif.Model.GradArr Verif.Spec.GradRef Finset

variable {R : Type}

/-! ### incoming gradients -/

/-- The calls that set incoming gradients, with their values. -/
def updOps (l : List (String × Nat)) (g : String → Nat → R) : List (Deltas.Op R) := l.map fun e => .upd ⟨e.1, e.2, g e.1 e.2⟩

theorem pyCalls_eq (vs : List UVar) (g : String → Nat → R) :
    Deltas.pyCalls vs g = updOps (vs.flatMap fun v => (List.range v.size).map fun k => (v.name, k)) g ++ [.gradient] := by
  unfold Deltas.pyCalls updOps
  congr 1
  rw [List.map_flatMap]
  congr 1
  funext v
  rw [List.map_map]
  rfl

theorem updStep_pos {pi : PrimInfo} {dx dx' : List R} {name : String} {k : Nat} {v : R}
    (h : Deltas.updStep pi dx ⟨name, k, v⟩ = some dx') :
    ∃ p, deltaPos pi name k = some p ∧ p < dx.length ∧ dx' = dx.set p v := by
  unfold Deltas.updStep at h
  unfold deltaPos
  dsimp only at h
  cases hs : pi.size.lookup name with
  | none => rw [hs] at h; cases h
  | some size =>
    cases ho : pi.offset.lookup name with
    | none => rw [hs, ho] at h; cases h
    | some off =>
      rw [hs, ho] at h
      have h : (if size = 1 then if k = 0 then store dx off v else none else store dx (off + k) v) = some dx' := h
      show ∃ p, (if size = 1 then if k = 0 then some off else none else some (off + k)) = some p ∧ _
      have key : ∀ q, store dx q v = some dx' → q < dx.length ∧ dx' = dx.set q v := by
        intro q hq
        unfold store at hq
        split at hq
        · rename_i hlt
          exact ⟨hlt, (Option.some.inj hq).symm⟩
        · cases hq
      by_cases h1 : size = 1
      · rw [if_pos h1] at h ⊢
        by_cases h2 : k = 0
        · rw [if_pos h2] at h ⊢
          exact ⟨off, rfl, key _ h⟩
        · rw [if_neg h2] at h
          cases h
      · rw [if_neg h1] at h ⊢
        exact ⟨off + k, rfl, key _ h⟩

theorem deltas_ok [Zero R] {pi : PrimInfo} {n : Nat} (g : String → Nat → R) (l : List (String × Nat)) (dx : List R) (log : List (List R))
    (d : Deltas.St R) (h : (updOps l g ++ [Deltas.Op.gradient]).foldlM (Deltas.step pi n) ⟨dx, log⟩ = some d) :
    ∃ ds, (l.mapM fun e => (deltaPos pi e.1 e.2).map fun p => GradMem.Op.delta p (g e.1 e.2)) = some ds ∧
      (∀ op ∈ ds, ∃ k v, op = .delta k v ∧ k < dx.length) ∧ d.log.getLast? = some (incoming n dx ds) := by
  induction l generalizing dx log with
  | nil =>
    refine ⟨[], rfl, fun _ h => (by cases h), ?_⟩
    have h : (List.foldlM (Deltas.step pi n) ⟨dx, log⟩ [Deltas.Op.gradient]) = some d := h
    rw [List.foldlM_cons] at h
    have h : ((do let dx ← (List.range n).foldlM (init := dx) fun dx i => store dx i 0
                  pure { dx := dx, log := log ++ [(⟨_, log⟩ : Deltas.St R).dx] }) >>= fun s => pure s) = some d := h
    cases hf : (List.range n).foldlM (init := dx) (fun dx i => store dx i 0) with
    | none => rw [hf] at h; cases h
    | some dx' =>
      rw [hf] at h
      have h : some (⟨dx', log ++ [dx]⟩ : Deltas.St R) = some d := h
      cases h
      exact List.getLast?_concat ..
  | cons e l ih =>
    have h : ((Deltas.updStep pi dx ⟨e.1, e.2, g e.1 e.2⟩).map fun dx => (⟨dx, log⟩ : Deltas.St R)) >>=
        (fun s => (updOps l g ++ [Deltas.Op.gradient]).foldlM (Deltas.step pi n) s) = some d := h
    cases hu : Deltas.updStep pi dx ⟨e.1, e.2, g e.1 e.2⟩ with
    | none => rw [hu] at h; cases h
    | some dx' =>
      rw [hu] at h
      obtain ⟨p, h1, h2, rfl⟩ := updStep_pos hu
      obtain ⟨ds, h3, h4, h5⟩ := ih (dx.set p (g e.1 e.2)) log h
      refine ⟨.delta p (g e.1 e.2) :: ds, ?_, ?_, h5⟩
      · rw [List.mapM_cons, h1, h3]
        rfl
      · intro op hop
        rcases List.mem_cons.1 hop with rfl | hop
        · exact ⟨p, _, rfl, h2⟩
        · obtain ⟨k, v, e1, e2⟩ := h4 op hop
          exact ⟨k, v, e1, by rw [List.length_set] at e2; exact e2⟩

/-! ### user parameters -/

variable [Field R]

theorem arr_set (l : List R) (c i : Nat) (v : R) (h : c < l.length) : arr (l.set c v) i = if c = i then v else arr l i := by
  unfold arr
  rw [List.getD_eq_getElem?_getD, List.getD_eq_getElem?_getD, List.getElem?_set]
  split
  · rename_i e
    simp only [h, if_true, Option.getD_some]
  · rfl

theorem arr_get {α : Type} [Zero α] {l : List α} {k : Nat} {a : α} (h : l[k]? = some a) : arr l k = a := by
  unfold arr
  rw [List.getD_eq_getElem?_getD, h]
  rfl

theorem bump_arr {dp dp' : List R} {c : Nat} {v : R} (h : bump dp c v = some dp') :
    dp'.length = dp.length ∧ ∀ i, arr dp' i = arr dp i + if c = i then v else 0 := by
  unfold bump at h
  cases ho : dp[c]? with
  | none => rw [ho] at h; cases h
  | some o =>
    rw [ho] at h
    have h : store dp c (o + v) = some dp' := h
    unfold store at h
    split at h
    · rename_i hlt
      cases h
      refine ⟨List.length_set, fun i => ?_⟩
      rw [arr_set _ _ _ _ hlt]
      split
      · rename_i e
        rw [← e, arr_get ho]
      · rw [add_zero]
    · cases h

theorem row_arr (m : Csr R) (d : R) : ∀ (len lo : Nat) (dp dp' : List R),
    (List.range' lo len).foldlM (init := dp) (fun dp k => do
      let c ← m.indices[k]?
      let x ← m.data[k]?
      bump dp c (x * d)) = some dp' →
    dp'.length = dp.length ∧ ∀ i, arr dp' i = arr dp i + ∑ k ∈ Ico lo (lo + len), if arr m.indices k = i then arr m.data k * d else 0 := by
  intro len
  induction len with
  | zero =>
    intro lo dp dp' h
    cases h
    exact ⟨rfl, fun i => by simp⟩
  | succ len ih =>
    intro lo dp dp' h
    rw [List.range'_succ, List.foldlM_cons] at h
    cases hc : m.indices[lo]? with
    | none => rw [hc] at h; cases h
    | some c =>
      cases hx : m.data[lo]? with
      | none => rw [hc, hx] at h; cases h
      | some x =>
        rw [hc, hx] at h
        cases hb : bump dp c (x * d) with
        | none =>
          simp only [Option.bind_eq_bind, Option.bind_some, hb, Option.bind_none] at h
          cases h
        | some dp1 =>
          simp only [Option.bind_eq_bind, Option.bind_some, hb] at h
          obtain ⟨l1, a1⟩ := ih (lo + 1) dp1 dp' h
          obtain ⟨l2, a2⟩ := bump_arr hb
          refine ⟨l1.trans l2, fun i => ?_⟩
          rw [a1 i, a2 i, add_assoc, sum_eq_sum_Ico_succ_bot (show lo < lo + (len + 1) by omega), arr_get hc, arr_get hx,
            show lo + 1 + len = lo + (len + 1) by omega]

theorem one_arr (m : Csr R) (d : Nat → R) : ∀ (rows : Nat) (dp dp' : List R), Verif.Model.uncanonOne rows m d dp = some dp' →
    dp'.length = dp.length ∧ ∀ i, arr dp' i = arr dp i + ∑ j ∈ range rows, ∑ k ∈ Ico (arr m.indptr j) (arr m.indptr (j + 1)),
      if arr m.indices k = i then arr m.data k * d j else 0 := by
  intro rows
  induction rows with
  | zero =>
    intro dp dp' h
    cases h
    exact ⟨rfl, fun i => by simp⟩
  | succ rows ih =>
    intro dp dp' h
    unfold Verif.Model.uncanonOne at h
    rw [List.range_succ, List.foldlM_append] at h
    cases h1 : Verif.Model.uncanonOne rows m d dp with
    | none =>
      unfold Verif.Model.uncanonOne at h1
      rw [h1] at h
      cases h
    | some dp1 =>
      obtain ⟨l1, a1⟩ := ih dp dp1 h1
      unfold Verif.Model.uncanonOne at h1
      rw [h1] at h
      simp only [Option.bind_eq_bind, Option.bind_some, List.foldlM_cons, List.foldlM_nil] at h
      cases hlo : m.indptr[rows]? with
      | none => rw [hlo] at h; cases h
      | some lo =>
        cases hhi : m.indptr[rows + 1]? with
        | none => rw [hlo, hhi] at h; cases h
        | some hi =>
          rw [hlo, hhi] at h
          simp only [Option.bind_some] at h
          have h' : (List.range' lo (hi - lo)).foldlM (init := dp1) (fun dp k => do
              let c ← m.indices[k]?
              let x ← m.data[k]?
              bump dp c (x * d rows)) = some dp' := by
            rw [← h]
            exact (bind_pure _).symm
          obtain ⟨l2, a2⟩ := row_arr m (d rows) _ _ _ _ h'
          refine ⟨l2.trans l1, fun i => ?_⟩
          rw [a2 i, a1 i, sum_range_succ, arr_get hlo, arr_get hhi, add_assoc]
          congr 2
          apply sum_congr _ fun _ _ => rfl
          ext k
          simp only [mem_Ico]
          omega

theorem zeros_arr : ∀ (k : Nat) (dp dp' : List R), (List.range k).foldlM (init := dp) (fun dp j => store dp j 0) = some dp' →
    dp'.length = dp.length ∧ ∀ i < k, arr dp' i = 0 := by
  intro k
  induction k with
  | zero =>
    intro dp dp' h
    cases h
    exact ⟨rfl, fun i hi => absurd hi (Nat.not_lt_zero i)⟩
  | succ k ih =>
    intro dp dp' h
    rw [List.range_succ, List.foldlM_append] at h
    cases h1 : (List.range k).foldlM (init := dp) (fun dp j => store dp j (0 : R)) with
    | none => rw [h1] at h; cases h
    | some dp1 =>
      obtain ⟨l1, a1⟩ := ih dp dp1 h1
      rw [h1] at h
      simp only [Option.bind_eq_bind, Option.bind_some, List.foldlM_cons, List.foldlM_nil] at h
      have h : (store dp1 k (0 : R) >>= pure) = some dp' := h
      rw [bind_pure] at h
      unfold store at h
      split at h
      · rename_i hlt
        cases h
        refine ⟨by rw [List.length_set, l1], fun i hi => ?_⟩
        rw [arr_set _ _ _ _ hlt]
        split
        · rfl
        · exact a1 i (by omega)
      · cases h

/-- The loops from canonical to user parameters compute the transposes of the maps. -/
theorem uncanon_user [DecidableEq R] (A : AProb R) (g : Grad.DCanon R) (dp dp' : List R) (hl : dp.length = A.toG.NP)
    (h : uncanonicalize A.toG.NP A.dims A.toG.qmaps g dp = some dp') :
    dp'.length = A.toG.NP ∧ ∀ i < A.toG.NP, arr dp' i = userGrad A.maps g i := by
  unfold uncanonicalize Verif.Model.uncanon at h
  cases h0 : (List.range A.toG.NP).foldlM (init := dp) (fun dp j => store dp j (0 : R)) with
  | none => rw [h0] at h; cases h
  | some d0 =>
    rw [h0] at h
    obtain ⟨l0, a0⟩ := zeros_arr _ _ _ h0
    have one : ∀ (b : Verif.Model.Block R) (dp dp' : List R),
        (if b.changes then Verif.Model.uncanonOne b.rows b.map b.d dp else some dp) = some dp' →
        dp'.length = dp.length ∧ ∀ i, arr dp' i = arr dp i + transposed ⟨b.changes, b.rows, rowsOf b.map⟩ b.d i := by
      intro b dp dp' hb
      unfold transposed
      dsimp only
      by_cases hc : b.changes = true
      · rw [if_pos hc] at hb
        simp only [if_pos hc]
        exact one_arr b.map b.d b.rows dp dp' hb
      · rw [if_neg hc] at hb
        cases hb
        exact ⟨rfl, fun i => by rw [if_neg hc, add_zero]⟩
    have all : ∀ (bs : List (Verif.Model.Block R)) (dp dp' : List R),
        bs.foldlM (init := dp) (fun dp b => if b.changes then Verif.Model.uncanonOne b.rows b.map b.d dp else some dp) = some dp' →
        dp'.length = dp.length ∧
          ∀ i, arr dp' i = arr dp i + (bs.map fun b => transposed ⟨b.changes, b.rows, rowsOf b.map⟩ b.d i).sum := by
      intro bs
      induction bs with
      | nil => intro dp dp' hb; cases hb; exact ⟨rfl, fun i => by simp⟩
      | cons b bs ih =>
        intro dp dp' hb
        rw [List.foldlM_cons] at hb
        cases h1 : (if b.changes then Verif.Model.uncanonOne b.rows b.map b.d dp else some dp) with
        | none => rw [h1] at hb; cases hb
        | some d1 =>
          rw [h1] at hb
          obtain ⟨l1, a1⟩ := one b dp d1 h1
          obtain ⟨l2, a2⟩ := ih d1 dp' hb
          refine ⟨l2.trans l1, fun i => ?_⟩
          rw [a2 i, a1 i, List.map_cons, List.sum_cons, add_assoc]
    obtain ⟨l1, a1⟩ := all _ _ _ h
    refine ⟨by rw [l1, l0, hl], fun i hi => ?_⟩
    rw [a1 i, a0 i hi, zero_add]
    unfold gradBlocks userGrad
    simp only [List.map_cons, List.map_nil, List.sum_cons, List.sum_nil, add_zero, ← add_assoc]
    rfl

theorem list_ext {l l' : List R} (h : l.length = l'.length) (ha : ∀ i < l.length, arr l i = arr l' i) : l = l' := by
  apply List.ext_getElem h
  intro i h1 h2
  have := ha i h1
  unfold arr at this
  rw [List.getD_eq_getElem?_getD, List.getD_eq_getElem?_getD, List.getElem?_eq_getElem h1, List.getElem?_eq_getElem h2] at this
  exact this

end Verif.Lemmas.GradArr
