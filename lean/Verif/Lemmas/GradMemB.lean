import Verif.Lemmas.GradMem
/-!
Checked runs: editing the factor.
-/
namespace Verif.Lemmas.GradMem
open Verif.Model.GradMem Verif.Spec.GradMem
open Verif.Model.Factor (reserved maskSize maskIndex)

variable {R : Type} {n N NP : Nat} {d : Patterns} {s : St R}

/-- Row indices increase within a column. -/
theorem sorted_lt (hp : Problem n N d) {c : Nat} (hc : c < N) {k k' : Nat} (h1 : ix d.pL c ≤ k) (h2 : k < k')
    (h3 : k' < ix d.pL (c + 1)) : ix d.iL k < ix d.iL k' := by
  obtain ⟨m, rfl⟩ : ∃ m, k' = k + 1 + m := ⟨k' - k - 1, by omega⟩
  induction m with
  | zero => exact hp.sym.sorted c hc k h1 h3
  | succ m ih => exact (ih (by omega) (by omega)).trans (hp.sym.sorted c hc (k + 1 + m) (by omega) (by omega))

/-- The search finds what is there. -/
theorem bsearch_ok (hp : Problem n N d) {i : List Nat} (hi : ∀ k < d.iL.length, ix i k = ix d.iL k)
    (hl : d.iL.length ≤ i.length) {c row : Nat} (hc : c < N) : ∀ (f start stop : Nat), stop - start ≤ f → ix d.pL c ≤ start →
    stop ≤ ix d.pL (c + 1) → (∃ k, start ≤ k ∧ k < stop ∧ ix d.iL k = row) →
    Ok (fun t => ∃ m, t = .inl m ∧ m < ix d.pL (c + 1)) (bsearch i row f start stop) := by
  intro f
  induction f with
  | zero => rintro start stop hf - - ⟨k, h1, h2, -⟩; omega
  | succ f ih =>
    rintro start stop hf hs he ⟨k, h1, h2, h3⟩
    unfold bsearch
    rw [if_pos (by omega)]
    have hle := hp.sym.lines.le (c := c + 1) hc
    have hm : start + (stop - start) / 2 < stop := by omega
    refine (rd_ix (.i .L) i _ (by omega)).bind fun v hv => ?_
    rw [hi _ (by omega)] at hv
    subst hv
    by_cases e1 : ix d.iL (start + (stop - start) / 2) = row
    · rw [if_pos e1]
      exact Ok.pure ⟨_, rfl, by omega⟩
    · rw [if_neg e1]
      by_cases e2 : ix d.iL (start + (stop - start) / 2) < row
      · rw [if_pos e2]
        refine ih _ _ (by omega) (by omega) he ⟨k, ?_, h2, h3⟩
        by_contra hk
        rcases Nat.lt_or_ge k (start + (stop - start) / 2) with h | h
        · have := sorted_lt hp hc (k := k) (k' := start + (stop - start) / 2) (by omega) h (by omega)
          omega
        · have : k = start + (stop - start) / 2 := by omega
          rw [this] at h3
          omega
      · rw [if_neg e2]
        refine ih _ _ (by omega) hs (by omega) ⟨k, h1, ?_, h3⟩
        by_contra hk
        rcases Nat.lt_or_ge (start + (stop - start) / 2) k with h | h
        · have := sorted_lt hp hc (k := start + (stop - start) / 2) (k' := k) (by omega) h (by omega)
          omega
        · have : k = start + (stop - start) / 2 := by omega
          rw [this] at h3
          omega

/-- Inserting at a stored position: nothing is moved. -/
theorem insertWith_ok (hp : Problem n N d) (h : Inv n N NP d s) {row col : Nat} (hr : Has d.pL d.iL row col) (hc : col < N) (v : R)
    (put : Nat → Mem (Csc R)) (Q : Csc R → Prop) (h0 : Q s.L) (hput : ∀ m < ix d.pL (col + 1), Ok Q (put m)) :
    Ok Q (insertWith N s.L row col v put) := by
  unfold insertWith
  split
  · exact Ok.pure h0
  · refine (rd_Lp hp h (by omega)).bind fun lo hlo => ?_
    refine (rd_Lp hp h (by omega)).bind fun hi hhi => ?_
    subst hlo hhi
    refine (bsearch_ok hp (fun k hk => h.ix_eq hk) (by rw [h.sz.Li]; exact h.iL_le) hc _ _ _ (le_refl _) (le_refl _) (le_refl _)
      hr).bind fun t ht => ?_
    obtain ⟨m, rfl, hm⟩ := ht
    exact hput m hm

theorem insertNonzero_ok (F : Flops R) (hp : Problem n N d) (h : Inv n N NP d s) {row col : Nat} (hr : Has d.pL d.iL row col)
    (hc : col < N) : Ok (fun L => L = s.L) (insertNonzero F N s.L row col) :=
  insertWith_ok hp h hr hc _ _ _ rfl fun _ _ => Ok.pure rfl

theorem insertValue_ok (hp : Problem n N d) (h : Inv n N NP d s) {row col : Nat} (hr : Has d.pL d.iL row col) (hc : col < N) (v : R) :
    Ok (fun L => ∃ x, x.length = s.L.x.length ∧ L = { s.L with x := x }) (insertValue N s.L row col v) :=
  insertWith_ok hp h hr hc _ _ _ ⟨s.L.x, rfl, rfl⟩ fun m hm =>
    (wr_len (.x .L) s.L.x m v (Lx_lt hp h hc hm)).bind fun x hx => Ok.pure ⟨x, hx, rfl⟩

/-- `wi` holds `size` indices, increasing, of stored positions. -/
structure WiOK (N : Nat) (d : Patterns) (index size : Nat) (wi : List Nat) : Prop where
  len : size ≤ wi.length
  lt : ∀ q < size, index + 1 + ix wi q < N
  col : ∀ q < size, Has d.pL d.iL (index + 1 + ix wi q) index
  mono : ∀ q q', q < q' → q' < size → ix wi q < ix wi q'

theorem symbolicUpdate_ok (F : Flops R) (hp : Problem n N d) (h : Inv n N NP d s) {index size : Nat} (hi : index < N)
    (hw : WiOK N d index size s.wi) : Ok (fun t => Inv n N NP d t) (symbolicUpdate F N size (index + 1) s) := by
  unfold symbolicUpdate
  have key : Ok (fun t => Inv n N NP d t ∧ t.wi = s.wi) (symbolicUpdate F N size (index + 1) s) := by
    refine each_ok (fun t => Inv n N NP d t ∧ t.wi = s.wi) _ _ _ ⟨h, rfl⟩ fun k _ hk t ht => ?_
    refine (rd_ix .wi t.wi k (by rw [ht.2]; have := hw.len; omega)).bind fun ck hck => ?_
    rw [ht.2] at hck
    refine each_ok (fun t => Inv n N NP d t ∧ t.wi = s.wi) _ _ _ ht fun j hkj hj t ht => ?_
    refine (rd_ix .wi t.wi j (by rw [ht.2]; have := hw.len; omega)).bind fun cj hcj => ?_
    rw [ht.2] at hcj
    subst hck hcj
    have h1 := hw.mono k j (by omega) hj
    have h2 := hw.lt j hj
    have hb := Verif.Props.C31_in_range (N := N) (row := ix s.wi j + (index + 1)) (col := ix s.wi k + (index + 1)) (by omega) (by omega)
    refine (rdI_ok .mask t.mask _ hb.1 (by rw [ht.1.sz.mask]; exact hb.2)).bind fun m _ => ?_
    split
    · exact Ok.pure ht
    · refine (wrI_ok .mask t.mask _ true hb.1 (by rw [ht.1.sz.mask]; exact hb.2)).bind fun m hm => ?_
      have hcl := hp.sym.closed index _ _ hi (show index + 1 + ix s.wi k < index + 1 + ix s.wi j by omega)
        (hw.col k (by omega)) (hw.col j hj)
      rw [Nat.add_comm (index + 1), Nat.add_comm (index + 1)] at hcl
      refine (insertNonzero_ok F hp ht.1 hcl (by omega)).bind fun L hL => ?_
      subst hL
      exact Ok.pure ⟨ht.1.setMask hm, ht.2⟩
  exact key.mono fun t ht => ht.1

theorem rank1_ok (F : Flops R) (hp : Problem n N d) (sigma : R) (offset : Nat) (h : Inv n N NP d s) :
    Ok (fun t => Inv n N NP d t) (rank1 F N sigma offset s) := by
  unfold rank1
  refine Ok.bind (P := fun t : R × St R => Inv n N NP d t.2) ?_ fun t ht => Ok.pure ht
  refine each_ok (fun t : R × St R => Inv n N NP d t.2) _ _ _ h fun j _ hj t ht => ?_
  unfold rank1Col
  refine (rd_any .w _ j (by rw [ht.sz.w]; exact hj)).bind fun wj _ => ?_
  refine (rd_any .D _ j (by rw [ht.sz.D]; exact hj)).bind fun dj _ => ?_
  refine (wr_len .D _ j _ (by rw [ht.sz.D]; exact hj)).bind fun D hD => ?_
  refine (rd_any .D _ j (by rw [hD, ht.sz.D]; exact hj)).bind fun d' _ => ?_
  refine (wr_len .Dinv _ j _ (by rw [ht.sz.Dinv]; exact hj)).bind fun Dinv hDinv => ?_
  refine (rd_Lp hp ht (by omega)).bind fun lo hlo => ?_
  refine (rd_Lp hp ht (by omega)).bind fun hi hhi => ?_
  subst hlo hhi
  refine Ok.bind (P := fun u => Inv n N NP d u) ?_ fun u hu => Ok.pure hu
  refine each_ok _ _ _ _ ((ht.setD hD).setDinv hDinv) fun k hk1 hk2 u hu => ?_
  unfold rank1Entry
  refine (rd_Li hp hu hj hk1 hk2).bind fun i hi => ?_
  split
  · refine (rd_any .w _ i (by rw [hu.sz.w]; exact hi.2.2.1)).bind fun wi _ => ?_
    refine (rd_any .w _ j (by rw [hu.sz.w]; exact hj)).bind fun wj _ => ?_
    refine (rd_any (.x .L) _ k (Lx_lt hp hu hj hk2)).bind fun x _ => ?_
    refine (wr_len .w _ i _ (by rw [hu.sz.w]; exact hi.2.2.1)).bind fun w hw => ?_
    refine (wr_len (.x .L) _ k _ (Lx_lt hp hu hj hk2)).bind fun x' hx' => ?_
    exact Ok.pure ((hu.setW hw).setLx hx')
  · exact Ok.pure hu

theorem ix_set (v : List Nat) (k q x : Nat) (hk : k < v.length) : ix (v.set k x) q = if q = k then x else ix v q := by
  unfold ix
  rw [List.getD_eq_getElem?_getD, List.getD_eq_getElem?_getD, List.getElem?_set]
  by_cases h : q = k
  · rw [if_pos h, if_pos h.symm, if_pos hk]; rfl
  · rw [if_neg h, if_neg (fun e => h e.symm)]

theorem size_le (hp : Problem n N d) {c : Nat} (hc : c < N) : ix d.pL (c + 1) - ix d.pL c ≤ N - c - 1 := by
  by_cases h : ix d.pL c < ix d.pL (c + 1)
  · have key : ∀ m, ix d.pL c + m < ix d.pL (c + 1) → c + 1 + m ≤ ix d.iL (ix d.pL c + m) := by
      intro m
      induction m with
      | zero => intro hm; exact hp.sym.lower c hc _ (le_refl _) hm
      | succ m ih =>
        intro hm
        have h1 := ih (by omega)
        have h2 := hp.sym.sorted c hc (ix d.pL c + m) (by omega) (by omega)
        rw [show ix d.pL c + (m + 1) = ix d.pL c + m + 1 by omega]
        omega
    have h1 := key (ix d.pL (c + 1) - ix d.pL c - 1) (by omega)
    have h2 := (hp.sym.lines.entry hc (k := ix d.pL (c + 1) - 1) (by omega)).2
    rw [show ix d.pL c + (ix d.pL (c + 1) - ix d.pL c - 1) = ix d.pL (c + 1) - 1 by omega] at h1
    omega
  · omega

/-- What `deleteEntry` has written after `q` iterations. -/
def WiDone (d : Patterns) (index q : Nat) (wi : List Nat) : Prop :=
  ∀ q' < q, ix wi q' = ix d.iL (ix d.pL index + q') - index - 1

theorem ldlDelete_ok (F : Flops R) (hp : Problem n N d) (h : Inv n N NP d s) {index : Nat} (hi : index < N) :
    Ok (fun t => Inv n N NP d t) (ldlDelete F N index s) := by
  unfold ldlDelete
  have hsz := size_le hp hi
  refine (fillWith_ok .w 0 N F.zero s.w (by rw [h.sz.w])).bind fun w hw => ?_
  have h1 := h.setW hw.1
  refine (rd_Lp hp h1 (by omega)).bind fun lo hlo => ?_
  refine (rd_Lp hp h1 (by omega)).bind fun hi' hhi => ?_
  subst hlo hhi
  refine Ok.bind (P := fun t => Inv n N NP d t ∧ WiDone d index (ix d.pL (index + 1) - ix d.pL index) t.wi) ?_ fun t ht => ?_
  · refine each_count (fun q t => Inv n N NP d t ∧ WiDone d index q t.wi) 0 _ (Nat.zero_le _) _ ⟨h1, fun q' hq' => by omega⟩
      fun q _ hq t ht => ?_
    unfold deleteEntry
    refine (rd_Li hp ht.1 hi (k := ix d.pL index + q) (by omega) (by omega)).bind fun i hii => ?_
    rw [if_neg (by omega)]
    refine (wr_ok .wi _ q _ (by rw [ht.1.sz.wi]; omega)).bind fun wi hwi => ?_
    refine (rd_any (.x .L) _ _ (Lx_lt hp ht.1 hi (by omega))).bind fun x _ => ?_
    refine (rd_any .D _ index (by rw [ht.1.sz.D]; exact hi)).bind fun dd _ => ?_
    have hlw : wi.length = t.wi.length := by rw [hwi, List.length_set]
    refine (rd_ix .wi wi q (by rw [hlw, ht.1.sz.wi]; omega)).bind fun b hb => ?_
    rw [hwi, ix_set _ _ _ _ (by rw [ht.1.sz.wi]; omega), if_pos rfl] at hb
    refine (wr_len .w _ _ _ (by rw [ht.1.sz.w]; omega)).bind fun w hw => ?_
    refine Ok.pure ⟨(ht.1.setWi hlw).setW hw, fun q' hq' => ?_⟩
    show ix wi q' = _
    rw [hwi, ix_set _ _ _ _ (by rw [ht.1.sz.wi]; omega)]
    by_cases e : q' = q
    · rw [if_pos e, e, hii.1]
    · rw [if_neg e]
      exact ht.2 q' (by omega)
  obtain ⟨ht, hwi⟩ := ht
  -- rows and columns are set to zero
  refine Ok.bind (P := fun u => Inv n N NP d u ∧ u.wi = t.wi) ?_ fun u hu => ?_
  · refine each_ok (fun u => Inv n N NP d u ∧ u.wi = t.wi) _ _ _ ⟨ht, rfl⟩ fun j _ hj u hu => ?_
    refine (rd_Lp hp hu.1 (by omega)).bind fun a ha => ?_
    refine (rd_Lp hp hu.1 (by omega)).bind fun b hb => ?_
    subst ha hb
    refine eachBreak_ok (fun u => Inv n N NP d u ∧ u.wi = t.wi) _ _ hu fun k hk u hu => ?_
    rw [List.mem_range'_1] at hk
    unfold zeroRow
    refine (rd_Li hp hu.1 (show j < N by omega) (k := k) (by omega) (by omega)).bind fun i hii => ?_
    split
    · split
      · refine (wr_len (.x .L) _ k _ (Lx_lt hp hu.1 (show j < N by omega) (by omega))).bind fun x hx => ?_
        exact Ok.pure ⟨hu.1.setLx hx, hu.2⟩
      · exact Ok.pure hu
    · exact Ok.pure hu
  obtain ⟨hu, huw⟩ := hu
  refine (fillWith_ok (.x .L) _ _ F.zero u.L.x ?_).bind fun x hx => ?_
  · have := hp.sym.lines.le (c := index + 1) hi
    have := hu.iL_le
    rw [hu.sz.Lx]
    omega
  refine (wr_len .D _ index _ (by rw [hu.sz.D]; exact hi)).bind fun D hD => ?_
  refine (wr_len .Dinv _ index _ (by rw [hu.sz.Dinv]; exact hi)).bind fun Dinv hDinv => ?_
  have h2 := ((hu.setLx hx.1).setD hD).setDinv hDinv
  refine (symbolicUpdate_ok F hp h2 hi ?_).bind fun v hv => rank1_ok F hp _ _ hv
  show WiOK N d index _ u.wi
  rw [huw]
  have pos : ∀ q < ix d.pL (index + 1) - ix d.pL index,
      index + 1 + ix t.wi q = ix d.iL (ix d.pL index + q) := by
    intro q hq
    rw [hwi q hq]
    have := hp.sym.lower index hi (ix d.pL index + q) (by omega) (by omega)
    omega
  refine ⟨by rw [ht.sz.wi]; omega, fun q hq => ?_, fun q hq => ?_, fun q q' hqq hq' => ?_⟩
  · rw [pos q hq]
    exact (hp.sym.lines.entry hi (k := ix d.pL index + q) (by omega)).2
  · rw [pos q hq]
    exact ⟨_, by omega, by omega, rfl⟩
  · have e1 := pos q (by omega)
    have e2 := pos q' hq'
    have := sorted_lt hp hi (k := ix d.pL index + q) (k' := ix d.pL index + q') (by omega) (by omega) (by omega)
    omega

end Verif.Lemmas.GradMem
