import Verif.Lemmas.GradMemB
/-!
Checked runs: adding a constraint to the factor.
-/
namespace Verif.Lemmas.GradMem
open Verif.Model.GradMem Verif.Spec.GradMem
open Verif.Model.Factor (reserved maskSize maskIndex)

variable {R : Type} {n N NP : Nat} {d : Patterns} {s : St R} {F : Flops R}

/-- Nonzero entries of a vector are at positions with property `P`. -/
def NZ (F : Flops R) (P : Nat → Prop) (v : List R) : Prop := ∀ q x, v[q]? = some x → F.isZero x = false → P q

theorem NZ.set {P : Nat → Prop} {v : List R} (h : NZ F P v) {k : Nat} {x : R} (hk : F.isZero x = false → P k) : NZ F P (v.set k x) := by
  intro q y hq hy
  rw [List.getElem?_set] at hq
  split at hq
  · rename_i e
    split at hq
    · cases hq; exact e ▸ hk hy
    · cases hq
  · exact h q y hq hy

/-- Positions of row `index` of the factor. -/
def InRow (d : Patterns) (index q : Nat) : Prop := q < index → Has d.pL d.iL index q

/-- Positions of column `index` of the factor, counted from below the diagonal. -/
def InCol (d : Patterns) (index q : Nat) : Prop := Has d.pL d.iL (q + index + 1) index

/-- The first `size` entries of `li` have property `P`. -/
def Listed (P : Nat → Prop) (size : Nat) (li : List Nat) : Prop := ∀ k < size, P (ix li k)

theorem sparsify_ok (pivot : Nat → Nat) (P : Nat → Prop) (m : Nat) (hm : m ≤ N) (hpiv : ∀ i < m, pivot i < N) (h : Inv n N NP d s)
    (hz : NZ F P s.l) :
    Ok (fun t => Inv n N NP d t.2 ∧ t.1 ≤ m ∧ Listed (fun q => q < m ∧ P q) t.1 t.2.li) (each 0 m (0, s) (sparsify F pivot)) := by
  refine (each_count (fun i t => (Inv n N NP d t.2 ∧ t.1 ≤ i ∧ Listed (fun q => q < m ∧ P q) t.1 t.2.li) ∧ t.2.l = s.l) 0 m
    (Nat.zero_le _) _ ⟨⟨h, le_refl _, fun k hk => absurd hk (Nat.not_lt_zero _)⟩, rfl⟩ fun i _ hi t ht => ?_).mono fun t ht => ht.1
  obtain ⟨⟨ht, hs, hL⟩, hl⟩ := ht
  unfold sparsify
  refine (rd_ok .l _ i (by rw [ht.sz.l]; omega)).bind fun v hv => ?_
  split
  · exact Ok.pure ⟨⟨ht, by omega, hL⟩, hl⟩
  · rename_i hnz
    rw [hl] at hv
    have hPi := hz i v hv (by simpa using hnz)
    refine (rd_any .D _ _ (by rw [ht.sz.D]; exact hpiv i hi)).bind fun dd _ => ?_
    refine (wr_len .lx _ _ _ (by rw [ht.sz.lx]; omega)).bind fun lx hlx => ?_
    refine (wr_ok .li _ _ _ (by rw [ht.sz.li]; omega)).bind fun li hli => ?_
    have hlen : li.length = t.2.li.length := by rw [hli, List.length_set]
    refine Ok.pure ⟨⟨(ht.setLxs hlx).setLi hlen, by simp only; omega, fun k hk => ?_⟩, hl⟩
    show ix li k < m ∧ P (ix li k)
    rw [hli, ix_set _ _ _ _ (by rw [ht.sz.li]; omega)]
    by_cases e : k = t.1
    · rw [if_pos e]; exact ⟨hi, hPi⟩
    · rw [if_neg e]; exact hL k (by simp only at hk; omega)

theorem addUpper_ok (hF : Finite F) (hp : Problem n N d) (h : Inv n N NP d s) {index : Nat} (hi : index < N) :
    Ok (fun t => Inv n N NP d t.2 ∧ t.1 ≤ index ∧ Listed (fun q => q < index ∧ Has d.pL d.iL index q) t.1 t.2.li)
      (addUpper F N index s) := by
  unfold addUpper
  refine (fillWith_ok .c 0 N F.zero s.c (by rw [h.sz.c])).bind fun c hc => ?_
  have hc0 : NZ F (InRow d index) c := by
    intro q x hq hx
    have hlt := (List.getElem?_eq_some_iff.1 hq).1
    rw [hc.1, h.sz.c] at hlt
    rw [hc.2 q x (Nat.zero_le _) hlt hq, hF.zero] at hx
    cases hx
  have h1 := h.setC hc.1
  refine (rd_Kp hp h.sz (by omega)).bind fun lo hlo => ?_
  refine (rd_Kp hp h.sz (by omega)).bind fun hi' hhi => ?_
  subst hlo hhi
  refine Ok.bind (P := fun t => Inv n N NP d t ∧ NZ F (InRow d index) t.c) ?_ fun t ht => ?_
  · refine each_ok (fun t => Inv n N NP d t ∧ NZ F (InRow d index) t.c) _ _ _ ⟨h1, hc0⟩ fun k hk1 hk2 t ht => ?_
    unfold addC
    refine (rd_Ki hp ht.1.sz hi hk1 (by omega)).bind fun i hii => ?_
    refine (rd_any (.x .K) _ k (Kx_lt hp ht.1.sz hi (by omega))).bind fun x _ => ?_
    refine (wr_ok .c _ i _ (by rw [ht.1.sz.c]; exact hii.2.1)).bind fun c hc => ?_
    refine Ok.pure ⟨ht.1.setC (by rw [hc, List.length_set]), ?_⟩
    show NZ F _ c
    rw [hc]
    exact ht.2.set fun _ hlt => hp.sym.covers i index hlt hi hii.2.2
  obtain ⟨ht, htc⟩ := ht
  refine (fillWith_ok .l 0 index F.zero t.l (by rw [ht.sz.l]; omega)).bind fun l hl => ?_
  have hl0 : NZ F (InRow d index) l := by
    intro q x hq hx hlt
    rw [hl.2 q x (Nat.zero_le _) hlt hq, hF.zero] at hx
    cases hx
  have h2 := ht.setL hl.1
  refine Ok.bind (P := fun u => (Inv n N NP d u ∧ NZ F (InRow d index) u.l) ∧ u.c = t.c) ?_ fun u hu => ?_
  · refine each_ok (fun u => (Inv n N NP d u ∧ NZ F (InRow d index) u.l) ∧ u.c = t.c) _ _ _ ⟨⟨h2, hl0⟩, rfl⟩ fun j _ hj u hu => ?_
    obtain ⟨⟨hu, hul⟩, huc⟩ := hu
    unfold fwdCol
    refine (rd_ok .l _ j (by rw [hu.sz.l]; omega)).bind fun lj hlj => ?_
    refine (rd_ok .c _ j (by rw [hu.sz.c]; omega)).bind fun cj hcj => ?_
    rw [huc] at hcj
    refine (wr_ok .l _ j _ (by rw [hu.sz.l]; omega)).bind fun l' hl' => ?_
    have hset : NZ F (InRow d index) l' := by
      rw [hl']
      refine hul.set fun hx hlt => ?_
      by_contra hno
      have e1 : F.isZero lj = true := by
        by_contra e; exact hno (hul j lj hlj (by simpa using e) hlt)
      have e2 : F.isZero cj = true := by
        by_contra e; exact hno (htc j cj hcj (by simpa using e) hlt)
      rw [hF.add _ _ e1 e2] at hx
      cases hx
    have h3 := hu.setL (v := l') (by rw [hl', List.length_set])
    refine (rd_Lp hp hu (by omega)).bind fun lo hlo => ?_
    refine (rd_Lp hp hu (by omega)).bind fun hi' hhi => ?_
    subst hlo hhi
    refine each_ok (fun u => (Inv n N NP d u ∧ NZ F (InRow d index) u.l) ∧ u.c = t.c) _ _ _ ⟨⟨h3, hset⟩, huc⟩ fun k hk1 hk2 u hu => ?_
    obtain ⟨⟨hu, hul⟩, huc⟩ := hu
    unfold fwdEntry
    refine (rd_Li hp hu (show j < N by omega) hk1 hk2).bind fun i hii => ?_
    refine (rd_any (.x .L) _ k (Lx_lt hp hu (show j < N by omega) hk2)).bind fun x _ => ?_
    refine (rd_ok .l _ j (by rw [hu.sz.l]; omega)).bind fun lj hlj => ?_
    refine (rd_ok .l _ i (by rw [hu.sz.l]; exact hii.2.2.1)).bind fun li hli => ?_
    refine (wr_ok .l _ i _ (by rw [hu.sz.l]; exact hii.2.2.1)).bind fun l' hl' => ?_
    refine Ok.pure ⟨⟨hu.setL (by rw [hl', List.length_set]), ?_⟩, huc⟩
    show NZ F _ l'
    rw [hl']
    refine hul.set fun hx hlt => ?_
    by_contra hno
    have e1 : F.isZero li = true := by
      by_contra e; exact hno (hul i li hli (by simpa using e) hlt)
    have e2 : F.isZero lj = true := by
      by_contra e
      have hj' := hul j lj hlj (by simpa using e) hj
      exact hno (hp.sym.closed j i index (by omega) hlt hii.2.2.2 hj')
    rw [hF.sub _ _ e1 (hF.mul _ _ e2)] at hx
    cases hx
  obtain ⟨⟨hu, hul⟩, -⟩ := hu
  refine (sparsify_ok id (InRow d index) index (by omega) (fun i hi => by show i < N; omega) hu hul).mono fun t ht => ?_
  exact ⟨ht.1, ht.2.1, fun k hk => ⟨(ht.2.2 k hk).1, (ht.2.2 k hk).2 (ht.2.2 k hk).1⟩⟩

theorem addRow_ok (hp : Problem n N d) (h : Inv n N NP d s) (pos : Nat → Nat × Nat) (size : Nat) (hs : size ≤ N)
    (hL : Listed (fun q => Has d.pL d.iL (pos q).1 (pos q).2 ∧ (pos q).2 < N) size s.li) :
    Ok (fun t => Inv n N NP d t ∧ t.li = s.li) (each 0 size s (addRow N pos)) := by
  refine each_ok (fun t => Inv n N NP d t ∧ t.li = s.li) _ _ _ ⟨h, rfl⟩ fun k _ hk t ht => ?_
  unfold addRow
  refine (rd_ix .li _ k (by rw [ht.1.sz.li]; omega)).bind fun i hii => ?_
  rw [ht.2] at hii
  subst hii
  refine (rd_any .lx _ k (by rw [ht.1.sz.lx]; omega)).bind fun v _ => ?_
  refine (insertValue_ok hp ht.1 (hL k hk).1 (hL k hk).2 v).bind fun L hLL => ?_
  obtain ⟨x, hx, rfl⟩ := hLL
  exact Ok.pure ⟨ht.1.setLx hx, ht.2⟩

theorem addMiddle_ok (F : Flops R) (hp : Problem n N d) (h : Inv n N NP d s) {index size : Nat} (hn : n ≤ index) (hi : index < N) (hs : size ≤ index)
    (hL : Listed (fun q => q < index ∧ Has d.pL d.iL index q) size s.li) :
    Ok (fun t => Inv n N NP d t ∧ t.li = s.li) (addMiddle F N index size s) := by
  unfold addMiddle
  refine (rd_Kp hp h.sz (by omega)).bind fun hi' hhi => ?_
  subst hhi
  have hd := hp.diag index hn hi
  refine (rdI_ok (.x .K) _ _ (by omega) (by have := Kx_lt hp h.sz hi (k := ix d.pK (index + 1) - 1) (by omega); omega)).bind fun dd _ => ?_
  refine (wr_len .D _ index _ (by rw [h.sz.D]; exact hi)).bind fun D hD => ?_
  refine Ok.bind (P := fun t => Inv n N NP d t ∧ t.li = s.li) ?_ fun t ht => ?_
  · refine each_ok (fun t => Inv n N NP d t ∧ t.li = s.li) _ _ _ ⟨h.setD hD, rfl⟩ fun k _ hk t ht => ?_
    unfold addPivot
    refine (rd_any .lx _ k (by rw [ht.1.sz.lx]; omega)).bind fun v _ => ?_
    refine (rd_ix .li _ k (by rw [ht.1.sz.li]; omega)).bind fun i hii => ?_
    rw [ht.2] at hii
    subst hii
    refine (rd_any .D _ _ (by rw [ht.1.sz.D]; have := (hL k hk).1; omega)).bind fun di _ => ?_
    refine (rd_any .D _ _ (by rw [ht.1.sz.D]; exact hi)).bind fun dd _ => ?_
    refine (wr_len .D _ index _ (by rw [ht.1.sz.D]; exact hi)).bind fun D hD => ?_
    exact Ok.pure ⟨ht.1.setD hD, ht.2⟩
  refine (rd_any .D _ _ (by rw [ht.1.sz.D]; exact hi)).bind fun dd _ => ?_
  refine (wr_len .Dinv _ index _ (by rw [ht.1.sz.Dinv]; exact hi)).bind fun Dinv hDinv => ?_
  refine (addRow_ok hp (ht.1.setDinv hDinv) (fun i => (index, i)) size (by omega) ?_).mono fun u hu => ⟨hu.1, hu.2.trans ht.2⟩
  show Listed _ size t.li
  rw [ht.2]
  exact fun k hk => ⟨(hL k hk).2, by have := (hL k hk).1; show ix s.li k < N; omega⟩

theorem addLower_ok (hF : Finite F) (hp : Problem n N d) (h : Inv n N NP d s) {index size : Nat} (hi : index < N) (hs : size ≤ index)
    (hL : Listed (fun q => q < index ∧ Has d.pL d.iL index q) size s.li) :
    Ok (fun t => Inv n N NP d t.2 ∧ t.1 ≤ N - index - 1 ∧ Listed (fun q => q < N - index - 1 ∧ InCol d index q) t.1 t.2.li)
      (addLower F N index size s) := by
  unfold addLower
  refine (fillWith_ok .l 0 N F.zero s.l (by rw [h.sz.l])).bind fun l hl => ?_
  have hl0 : NZ F (InCol d index) l := by
    intro q x hq hx
    have hlt := (List.getElem?_eq_some_iff.1 hq).1
    rw [hl.1, h.sz.l] at hlt
    rw [hl.2 q x (Nat.zero_le _) hlt hq, hF.zero] at hx
    cases hx
  have h1 := h.setL hl.1
  refine Ok.bind (P := fun t => (Inv n N NP d t ∧ NZ F (InCol d index) t.l) ∧ t.li = s.li) ?_ fun t ht => ?_
  · refine each_ok (fun t => (Inv n N NP d t ∧ NZ F (InCol d index) t.l) ∧ t.li = s.li) _ _ _ ⟨⟨h1, hl0⟩, rfl⟩ fun j hj1 hj2 t ht => ?_
    refine (rd_Kp hp ht.1.1.sz (by omega)).bind fun lo hlo => ?_
    refine (rd_Kp hp ht.1.1.sz (by omega)).bind fun hi' hhi => ?_
    subst hlo hhi
    refine eachBreak_ok (fun t => (Inv n N NP d t ∧ NZ F (InCol d index) t.l) ∧ t.li = s.li) _ _ ht fun k hk t ht => ?_
    obtain ⟨⟨ht, htl⟩, hli⟩ := ht
    rw [List.mem_range'_1] at hk
    unfold addL32init
    refine (rd_Ki hp ht.sz hj2 (k := k) (by omega) (by omega)).bind fun i hii => ?_
    split
    · split
      · rename_i e
        refine (rd_any (.x .K) _ k (Kx_lt hp ht.sz hj2 (by omega))).bind fun x _ => ?_
        refine (wr_ok .l _ _ _ (by rw [ht.sz.l]; omega)).bind fun l' hl' => ?_
        refine Ok.pure ⟨⟨ht.setL (by rw [hl', List.length_set]), ?_⟩, hli⟩
        show NZ F _ l'
        rw [hl']
        refine htl.set fun _ => ?_
        have := hp.sym.covers index j (by omega) hj2 (e ▸ hii.2.2)
        show Has d.pL d.iL (j - index - 1 + index + 1) index
        rwa [show j - index - 1 + index + 1 = j by omega]
      · exact Ok.pure ⟨⟨ht, htl⟩, hli⟩
    · exact Ok.pure ⟨⟨ht, htl⟩, hli⟩
  refine Ok.bind (P := fun t => (Inv n N NP d t ∧ NZ F (InCol d index) t.l) ∧ t.li = s.li) ?_ fun t ht => ?_
  · refine each_ok (fun t => (Inv n N NP d t ∧ NZ F (InCol d index) t.l) ∧ t.li = s.li) _ _ _ ht fun r _ hr t ht => ?_
    have hb := hL r hr
    unfold addL32
    refine (rd_ix .li _ r (by rw [ht.1.1.sz.li]; omega)).bind fun b hbb => ?_
    rw [ht.2] at hbb
    subst hbb
    refine (rd_Lp hp ht.1.1 (by omega)).bind fun lo hlo => ?_
    refine (rd_Lp hp ht.1.1 (by omega)).bind fun hi' hhi => ?_
    subst hlo hhi
    refine each_ok (fun t => (Inv n N NP d t ∧ NZ F (InCol d index) t.l) ∧ t.li = s.li) _ _ _ ht fun k hk1 hk2 t ht => ?_
    obtain ⟨⟨ht, htl⟩, hli⟩ := ht
    unfold addL32entry
    refine (rd_Li hp ht (show ix s.li r < N by omega) hk1 hk2).bind fun i hii => ?_
    split
    · rename_i hlt
      refine (rd_any (.x .L) _ k (Lx_lt hp ht (show ix s.li r < N by omega) hk2)).bind fun x _ => ?_
      refine (rd_any .lx _ r (by rw [ht.sz.lx]; omega)).bind fun v _ => ?_
      refine (rd_ix .li _ r (by rw [ht.sz.li]; omega)).bind fun b hbb => ?_
      rw [hli] at hbb
      subst hbb
      refine (rd_any .D _ _ (by rw [ht.sz.D]; omega)).bind fun dd _ => ?_
      refine (rd_any .l _ _ (by rw [ht.sz.l]; omega)).bind fun o _ => ?_
      refine (wr_ok .l _ _ _ (by rw [ht.sz.l]; omega)).bind fun l' hl' => ?_
      refine Ok.pure ⟨⟨ht.setL (by rw [hl', List.length_set]), ?_⟩, hli⟩
      show NZ F _ l'
      rw [hl']
      refine htl.set fun _ => ?_
      have := hp.sym.closed (ix s.li r) index i (by omega) hlt hb.2 hii.2.2.2
      show Has d.pL d.iL (i - index - 1 + index + 1) index
      rwa [show i - index - 1 + index + 1 = i by omega]
    · exact Ok.pure ⟨⟨ht, htl⟩, hli⟩
  exact sparsify_ok (fun _ => index) (InCol d index) (N - index - 1) (by omega) (fun _ _ => hi) ht.1.1 ht.1.2

theorem ldlAdd_ok (hF : Finite F) (hp : Problem n N d) (h : Inv n N NP d s) {index : Nat} (hn : n ≤ index) (hi : index < N) :
    Ok (fun t => Inv n N NP d t) (ldlAdd F N index s) := by
  unfold ldlAdd
  refine (addUpper_ok hF hp h hi).bind fun t ht => ?_
  refine (addMiddle_ok F hp ht.1 hn hi ht.2.1 ht.2.2).bind fun u hu => ?_
  refine (addLower_ok hF hp hu.1 hi ht.2.1 (by rw [hu.2]; exact ht.2.2)).bind fun v hv => ?_
  refine (addRow_ok hp hv.1 (fun i => (i + index + 1, index)) v.1 (by have := hv.2.1; omega)
    fun k hk => ⟨(hv.2.2 k hk).2, hi⟩).bind fun x hx => ?_
  refine (fillWith_ok .w 0 N F.zero x.w (by rw [hx.1.sz.w])).bind fun w hw => ?_
  refine Ok.bind (P := fun y => Inv n N NP d y ∧ y.li = v.2.li) ?_ fun y hy => rank1_ok F hp _ _ hy.1
  refine each_ok (fun y => Inv n N NP d y ∧ y.li = v.2.li) _ _ _ ⟨hx.1.setW hw.1, hx.2⟩ fun k _ hk y hy => ?_
  have hsz := hv.2.1
  unfold addW
  refine (rd_ix .li _ k (by rw [hy.1.sz.li]; omega)).bind fun b hb => ?_
  rw [hy.2] at hb
  subst hb
  refine (wr_ok .wi _ k _ (by rw [hy.1.sz.wi]; omega)).bind fun wi hwi => ?_
  have hlw : wi.length = y.wi.length := by rw [hwi, List.length_set]
  refine (rd_any .lx _ k (by rw [hy.1.sz.lx]; omega)).bind fun vv _ => ?_
  refine (rd_any .D _ _ (by rw [hy.1.sz.D]; exact hi)).bind fun dd _ => ?_
  refine (rd_ix .wi wi k (by rw [hlw, hy.1.sz.wi]; omega)).bind fun q hq => ?_
  rw [hwi, ix_set _ _ _ _ (by rw [hy.1.sz.wi]; omega), if_pos rfl] at hq
  have := (hv.2.2 k hk).1
  refine (wr_len .w _ _ _ (by rw [hy.1.sz.w]; omega)).bind fun w hw => ?_
  exact Ok.pure ⟨(hy.1.setWi hlw).setW hw, hy.2⟩

end Verif.Lemmas.GradMem
