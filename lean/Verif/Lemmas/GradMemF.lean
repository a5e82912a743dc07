import Verif.Lemmas.GradMemE
/-!
Checked runs with arbitrary arithmetic: updates of the factor.
-/
namespace Verif.Lemmas.GradMem
open Verif.Model.GradMem Verif.Spec.GradMem
open Verif.Model.Factor (reserved maskSize maskIndex)
open Verif.Spec.Factor (Valid)

variable {R : Type} {n N NP : Nat} {d : Patterns} {s : St R} {F : Flops R} {L0 : Csc R}

/-- A valid factor whose stored positions are those of `L0`. -/
structure Sm (n N NP : Nat) (d : Patterns) (L0 : Csc R) (s : St R) : Prop where
  inw : Inw n N NP d s
  p : s.L.p = L0.p
  i : s.L.i = L0.i
  nnz : s.L.nnz = L0.nnz

theorem Sm.sz (h : Sm n N NP d L0 s) : Sizes n N NP d s := h.inw.sz

theorem Sm.refl (h : Inw n N NP d s) : Sm n N NP d s.L s := ⟨h, rfl, rfl, rfl⟩

/-- Replacing arrays other than the stored positions. -/
theorem Sm.of (h : Sm n N NP d L0 s) {t : St R} (ht : Sizes n N NP d t) (hL : t.L.p = s.L.p ∧ t.L.i = s.L.i ∧ t.L.nnz = s.L.nnz) :
    Sm n N NP d L0 t :=
  ⟨h.inw.of ht hL.1 hL.2.1 hL.2.2, hL.1.trans h.p, hL.2.1.trans h.i, hL.2.2.trans h.nnz⟩

theorem Sm.setW (h : Sm n N NP d L0 s) {v : List R} (hv : v.length = s.w.length) : Sm n N NP d L0 { s with w := v } :=
  h.of { h.sz with w := hv.trans h.sz.w } ⟨rfl, rfl, rfl⟩

theorem Sm.setD (h : Sm n N NP d L0 s) {v : List R} (hv : v.length = s.D.length) : Sm n N NP d L0 { s with D := v } :=
  h.of { h.sz with D := hv.trans h.sz.D } ⟨rfl, rfl, rfl⟩

theorem Sm.setDinv (h : Sm n N NP d L0 s) {v : List R} (hv : v.length = s.Dinv.length) : Sm n N NP d L0 { s with Dinv := v } :=
  h.of { h.sz with Dinv := hv.trans h.sz.Dinv } ⟨rfl, rfl, rfl⟩

theorem Sm.setWi (h : Sm n N NP d L0 s) {v : List Nat} (hv : v.length = s.wi.length) : Sm n N NP d L0 { s with wi := v } :=
  h.of { h.sz with wi := hv.trans h.sz.wi } ⟨rfl, rfl, rfl⟩

theorem Sm.setL (h : Sm n N NP d L0 s) {v : List R} (hv : v.length = s.l.length) : Sm n N NP d L0 { s with l := v } :=
  h.of { h.sz with l := hv.trans h.sz.l } ⟨rfl, rfl, rfl⟩

theorem Sm.setC (h : Sm n N NP d L0 s) {v : List R} (hv : v.length = s.c.length) : Sm n N NP d L0 { s with c := v } :=
  h.of { h.sz with c := hv.trans h.sz.c } ⟨rfl, rfl, rfl⟩

theorem Sm.setLi (h : Sm n N NP d L0 s) {v : List Nat} (hv : v.length = s.li.length) : Sm n N NP d L0 { s with li := v } :=
  h.of { h.sz with li := hv.trans h.sz.li } ⟨rfl, rfl, rfl⟩

theorem Sm.setLxs (h : Sm n N NP d L0 s) {v : List R} (hv : v.length = s.lx.length) : Sm n N NP d L0 { s with lx := v } :=
  h.of { h.sz with lx := hv.trans h.sz.lx } ⟨rfl, rfl, rfl⟩

theorem Sm.setMask (h : Sm n N NP d L0 s) {v : List Bool} (hv : v.length = s.mask.length) : Sm n N NP d L0 { s with mask := v } :=
  h.of { h.sz with mask := hv.trans h.sz.mask } ⟨rfl, rfl, rfl⟩

theorem Sm.setA (h : Sm n N NP d L0 s) {v : List Int} (hv : v.length = s.a.length) : Sm n N NP d L0 { s with a := v } :=
  h.of { h.sz with a := hv.trans h.sz.a } ⟨rfl, rfl, rfl⟩

theorem Sm.setLx (h : Sm n N NP d L0 s) {v : List R} (hv : v.length = s.L.x.length) :
    Sm n N NP d L0 { s with L := { s.L with x := v } } :=
  h.of { h.sz with Lx := hv.trans h.sz.Lx } ⟨rfl, rfl, rfl⟩

theorem Inw.setMask (h : Inw n N NP d s) {v : List Bool} (hv : v.length = s.mask.length) : Inw n N NP d { s with mask := v } :=
  ((Sm.refl h).setMask hv).inw

theorem Inw.setA (h : Inw n N NP d s) {v : List Int} (hv : v.length = s.a.length) : Inw n N NP d { s with a := v } :=
  ((Sm.refl h).setA hv).inw

theorem rds_Lp (h : Sm n N NP d L0 s) {c : Nat} (hc : c ≤ N) : Ok (fun x => x = ix L0.p c) (rd (.p .L) s.L.p c) := by
  have := rdw_Lp h.inw hc
  rw [h.p] at this ⊢
  exact this

theorem rds_Li (h : Sm n N NP d L0 s) {c k : Nat} (hc : c < N) (h1 : ix L0.p c ≤ k) (hk : k < ix L0.p (c + 1)) :
    Ok (fun x => x = ix L0.i k ∧ c < x ∧ x < N) (rd (.i .L) s.L.i k) := by
  have := rdw_Li h.inw hc (k := k) (by rw [h.p]; exact h1) (by rw [h.p]; exact hk)
  rw [h.i] at this ⊢
  exact this

theorem Lxs_lt (h : Sm n N NP d L0 s) {c k : Nat} (hc : c < N) (hk : k < ix L0.p (c + 1)) : k < s.L.x.length :=
  Lxw_lt h.inw hc (by rw [h.p]; exact hk)

/-- `wi` holds `size` increasing indices. -/
structure WiIn (N index size : Nat) (wi : List Nat) : Prop where
  len : size ≤ wi.length
  lt : ∀ q < size, index + 1 + ix wi q < N
  mono : ∀ q q', q < q' → q' < size → ix wi q < ix wi q'

theorem symbolicUpdate_any (F : Flops R) (h : Inw n N NP d s) {index size : Nat}
    (hw : WiIn N index size s.wi) : Ok (fun t => Inw n N NP d t) (symbolicUpdate F N size (index + 1) s) := by
  unfold symbolicUpdate
  have key : Ok (fun t => Inw n N NP d t ∧ t.wi = s.wi) (symbolicUpdate F N size (index + 1) s) := by
    refine each_ok (fun t => Inw n N NP d t ∧ t.wi = s.wi) _ _ _ ⟨h, rfl⟩ fun k _ hk t ht => ?_
    refine (rd_ix .wi t.wi k (by rw [ht.2]; have := hw.len; omega)).bind fun ck hck => ?_
    rw [ht.2] at hck
    refine each_ok (fun t => Inw n N NP d t ∧ t.wi = s.wi) _ _ _ ht fun j hkj hj t ht => ?_
    refine (rd_ix .wi t.wi j (by rw [ht.2]; have := hw.len; omega)).bind fun cj hcj => ?_
    rw [ht.2] at hcj
    subst hck hcj
    have h1 := hw.mono k j (by omega) hj
    have h2 := hw.lt j hj
    have hb := Verif.Props.C31_in_range (N := N) (row := ix s.wi j + (index + 1)) (col := ix s.wi k + (index + 1)) (by omega) (by omega)
    refine (rdI_ok .mask t.mask _ hb.1 (by rw [ht.1.sz.mask]; exact hb.2)).bind fun m _ => ?_
    split
    · exact Ok.pure ht
    · refine (wrI_ok .mask t.mask _ true hb.1 (by rw [ht.1.sz.mask]; exact hb.2)).bind fun m hm => ?_
      refine (insertNonzero_any F ht.1 (row := ix s.wi j + (index + 1)) (col := ix s.wi k + (index + 1)) (by omega) (by omega)).bind
        fun L hL => ?_
      exact Ok.pure ⟨hL.setMask hm, ht.2⟩
  exact key.mono fun t ht => ht.1

theorem rank1_any (F : Flops R) (sigma : R) (offset : Nat) (h : Inw n N NP d s) :
    Ok (fun t => Inw n N NP d t) (rank1 F N sigma offset s) := by
  unfold rank1
  refine Ok.bind (P := fun t : R × St R => Sm n N NP d s.L t.2) ?_ fun t ht => Ok.pure ht.inw
  refine each_ok (fun t : R × St R => Sm n N NP d s.L t.2) _ _ _ (Sm.refl h) fun j _ hj t ht => ?_
  unfold rank1Col
  refine (rd_any .w _ j (by rw [ht.sz.w]; exact hj)).bind fun wj _ => ?_
  refine (rd_any .D _ j (by rw [ht.sz.D]; exact hj)).bind fun dj _ => ?_
  refine (wr_len .D _ j _ (by rw [ht.sz.D]; exact hj)).bind fun D hD => ?_
  refine (rd_any .D _ j (by rw [hD, ht.sz.D]; exact hj)).bind fun d' _ => ?_
  refine (wr_len .Dinv _ j _ (by rw [ht.sz.Dinv]; exact hj)).bind fun Dinv hDinv => ?_
  refine (rds_Lp ht (by omega)).bind fun lo hlo => ?_
  refine (rds_Lp ht (by omega)).bind fun hi hhi => ?_
  subst hlo hhi
  refine Ok.bind (P := fun u => Sm n N NP d s.L u) ?_ fun u hu => Ok.pure hu
  refine each_ok _ _ _ _ ((ht.setD hD).setDinv hDinv) fun k hk1 hk2 u hu => ?_
  unfold rank1Entry
  refine (rds_Li hu hj hk1 hk2).bind fun i hi => ?_
  split
  · refine (rd_any .w _ i (by rw [hu.sz.w]; exact hi.2.2)).bind fun wi _ => ?_
    refine (rd_any .w _ j (by rw [hu.sz.w]; exact hj)).bind fun wj _ => ?_
    refine (rd_any (.x .L) _ k (Lxs_lt hu hj hk2)).bind fun x _ => ?_
    refine (wr_len .w _ i _ (by rw [hu.sz.w]; exact hi.2.2)).bind fun w hw => ?_
    refine (wr_len (.x .L) _ k _ (Lxs_lt hu hj hk2)).bind fun x' hx' => ?_
    exact Ok.pure ((hu.setW hw).setLx hx')
  · exact Ok.pure hu

theorem Inw.sorted_lt (h : Inw n N NP d s) {c : Nat} (hc : c < N) {k k' : Nat} (h1 : ix s.L.p c ≤ k) (h2 : k < k')
    (h3 : k' < ix s.L.p (c + 1)) : ix s.L.i k < ix s.L.i k' :=
  Verif.Lemmas.Factor.Valid.sorted_lt h.val hc h1 h2 h3

theorem Inw.size_le (h : Inw n N NP d s) {c : Nat} (hc : c < N) : ix s.L.p (c + 1) - ix s.L.p c ≤ N - c - 1 := by
  by_cases hlt : ix s.L.p c < ix s.L.p (c + 1)
  · have key : ∀ m, ix s.L.p c + m < ix s.L.p (c + 1) → c + 1 + m ≤ ix s.L.i (ix s.L.p c + m) := by
      intro m
      induction m with
      | zero => intro hm; exact (h.val.lower c hc _ (le_refl _) hm).1
      | succ m ih =>
        intro hm
        have h1 := ih (by omega)
        have h2 : ix s.L.i (ix s.L.p c + m) < ix s.L.i (ix s.L.p c + m + 1) :=
          h.val.sorted c hc (ix s.L.p c + m) (Nat.le_add_right _ _) hm
        rw [show ix s.L.p c + (m + 1) = ix s.L.p c + m + 1 by omega]
        omega
    have h1 := key (ix s.L.p (c + 1) - ix s.L.p c - 1) (by omega)
    have h2 : ix s.L.i (ix s.L.p (c + 1) - 1) < N :=
      (h.val.lower c hc (ix s.L.p (c + 1) - 1) (show ix s.L.p c ≤ _ by omega) (show _ < ix s.L.p (c + 1) by omega)).2
    rw [show ix s.L.p c + (ix s.L.p (c + 1) - ix s.L.p c - 1) = ix s.L.p (c + 1) - 1 by omega] at h1
    omega
  · omega

/-- What `deleteEntry` has written after `q` iterations. -/
def WiOf (L0 : Csc R) (index q : Nat) (wi : List Nat) : Prop :=
  ∀ q' < q, ix wi q' = ix L0.i (ix L0.p index + q') - index - 1

theorem ldlDelete_any (F : Flops R) (h : Inw n N NP d s) {index : Nat} (hi : index < N) :
    Ok (fun t => Inw n N NP d t) (ldlDelete F N index s) := by
  unfold ldlDelete
  have hsz := h.size_le hi
  refine (fillWith_ok .w 0 N F.zero s.w (by rw [h.sz.w])).bind fun w hw => ?_
  have h1 := (Sm.refl h).setW hw.1
  refine (rds_Lp h1 (by omega)).bind fun lo hlo => ?_
  refine (rds_Lp h1 (by omega)).bind fun hi' hhi => ?_
  subst hlo hhi
  refine Ok.bind (P := fun t => Sm n N NP d s.L t ∧ WiOf s.L index (ix s.L.p (index + 1) - ix s.L.p index) t.wi) ?_ fun t ht => ?_
  · refine each_count (fun q t => Sm n N NP d s.L t ∧ WiOf s.L index q t.wi) 0 _ (Nat.zero_le _) _ ⟨h1, fun q' hq' => by omega⟩
      fun q _ hq t ht => ?_
    unfold deleteEntry
    refine (rds_Li ht.1 hi (k := ix s.L.p index + q) (by omega) (by omega)).bind fun i hii => ?_
    rw [if_neg (by omega)]
    refine (wr_ok .wi _ q _ (by rw [ht.1.sz.wi]; omega)).bind fun wi hwi => ?_
    refine (rd_any (.x .L) _ _ (Lxs_lt ht.1 hi (by omega))).bind fun x _ => ?_
    refine (rd_any .D _ index (by rw [ht.1.sz.D]; exact hi)).bind fun dd _ => ?_
    have hlw : wi.length = t.wi.length := by rw [hwi, List.length_set]
    refine (rd_ix .wi wi q (by rw [hlw, ht.1.sz.wi]; omega)).bind fun b hb => ?_
    rw [hwi, ix_set _ _ _ _ (by rw [ht.1.sz.wi]; omega), if_pos rfl] at hb
    refine (wr_len .w _ _ _ (by rw [ht.1.sz.w]; omega)).bind fun w hw => ?_
    refine Ok.pure ⟨(ht.1.setWi hlw).setW hw, fun q' hq' => ?_⟩
    show ix wi q' = _
    rw [hwi, ix_set _ _ _ _ (by rw [ht.1.sz.wi]; omega)]
    by_cases e : q' = q
    · rw [if_pos e, e, hii.1]
    · rw [if_neg e]
      exact ht.2 q' (by omega)
  obtain ⟨ht, hwi⟩ := ht
  -- rows and columns are set to zero
  refine Ok.bind (P := fun u => Sm n N NP d s.L u ∧ u.wi = t.wi) ?_ fun u hu => ?_
  · refine each_ok (fun u => Sm n N NP d s.L u ∧ u.wi = t.wi) _ _ _ ⟨ht, rfl⟩ fun j _ hj u hu => ?_
    refine (rds_Lp hu.1 (by omega)).bind fun a ha => ?_
    refine (rds_Lp hu.1 (by omega)).bind fun b hb => ?_
    subst ha hb
    refine eachBreak_ok (fun u => Sm n N NP d s.L u ∧ u.wi = t.wi) _ _ hu fun k hk u hu => ?_
    rw [List.mem_range'_1] at hk
    unfold zeroRow
    refine (rds_Li hu.1 (show j < N by omega) (k := k) (by omega) (by omega)).bind fun i hii => ?_
    split
    · split
      · refine (wr_len (.x .L) _ k _ (Lxs_lt hu.1 (show j < N by omega) (by omega))).bind fun x hx => ?_
        exact Ok.pure ⟨hu.1.setLx hx, hu.2⟩
      · exact Ok.pure hu
    · exact Ok.pure hu
  obtain ⟨hu, huw⟩ := hu
  refine (fillWith_ok (.x .L) _ _ F.zero u.L.x ?_).bind fun x hx => ?_
  · rw [hu.sz.Lx]
    exact h.le hi
  refine (wr_len .D _ index _ (by rw [hu.sz.D]; exact hi)).bind fun D hD => ?_
  refine (wr_len .Dinv _ index _ (by rw [hu.sz.Dinv]; exact hi)).bind fun Dinv hDinv => ?_
  have h2 := ((hu.setLx hx.1).setD hD).setDinv hDinv
  refine (symbolicUpdate_any F h2.inw ?_).bind fun v hv => rank1_any F _ _ hv
  show WiIn N index _ u.wi
  rw [huw]
  have pos : ∀ q < ix s.L.p (index + 1) - ix s.L.p index,
      index + 1 + ix t.wi q = ix s.L.i (ix s.L.p index + q) := by
    intro q hq
    rw [hwi q hq]
    have : index < ix s.L.i (ix s.L.p index + q) :=
      (h.val.lower index hi (ix s.L.p index + q) (Nat.le_add_right _ _) (show _ < ix s.L.p (index + 1) by omega)).1
    omega
  refine ⟨by rw [ht.sz.wi]; omega, fun q hq => ?_, fun q q' hqq hq' => ?_⟩
  · rw [pos q hq]
    exact (h.val.lower index hi (ix s.L.p index + q) (Nat.le_add_right _ _) (show _ < ix s.L.p (index + 1) by omega)).2
  · have e1 := pos q (by omega)
    have e2 := pos q' hq'
    have := h.sorted_lt hi (k := ix s.L.p index + q) (k' := ix s.L.p index + q') (by omega) (by omega) (by omega)
    omega

theorem sparsify_any (pivot : Nat → Nat) (m : Nat) (hm : m ≤ N) (hpiv : ∀ i < m, pivot i < N) (h : Inw n N NP d s) :
    Ok (fun t => Inw n N NP d t.2 ∧ t.1 ≤ m ∧ Listed (fun q => q < m) t.1 t.2.li) (each 0 m (0, s) (sparsify F pivot)) := by
  refine (each_count (fun i t => Sm n N NP d s.L t.2 ∧ t.1 ≤ i ∧ Listed (fun q => q < m) t.1 t.2.li) 0 m
    (Nat.zero_le _) _ ⟨Sm.refl h, le_refl _, fun k hk => absurd hk (Nat.not_lt_zero _)⟩ fun i _ hi t ht => ?_).mono
    fun t ht => ⟨ht.1.inw, ht.2⟩
  obtain ⟨ht, hs, hL⟩ := ht
  unfold sparsify
  refine (rd_any .l _ i (by rw [ht.sz.l]; omega)).bind fun v _ => ?_
  split
  · exact Ok.pure ⟨ht, by omega, hL⟩
  · refine (rd_any .D _ _ (by rw [ht.sz.D]; exact hpiv i hi)).bind fun dd _ => ?_
    refine (wr_len .lx _ _ _ (by rw [ht.sz.lx]; omega)).bind fun lx hlx => ?_
    refine (wr_ok .li _ _ _ (by rw [ht.sz.li]; omega)).bind fun li hli => ?_
    have hlen : li.length = t.2.li.length := by rw [hli, List.length_set]
    refine Ok.pure ⟨(ht.setLxs hlx).setLi hlen, by simp only; omega, fun k hk => ?_⟩
    show ix li k < m
    rw [hli, ix_set _ _ _ _ (by rw [ht.sz.li]; omega)]
    by_cases e : k = t.1
    · rw [if_pos e]; exact hi
    · rw [if_neg e]; exact hL k (by simp only at hk; omega)

theorem addUpper_any (hp : Problem n N d) (h : Inw n N NP d s) {index : Nat} (hi : index < N) :
    Ok (fun t => Inw n N NP d t.2 ∧ t.1 ≤ index ∧ Listed (fun q => q < index) t.1 t.2.li) (addUpper F N index s) := by
  unfold addUpper
  refine (fillWith_ok .c 0 N F.zero s.c (by rw [h.sz.c])).bind fun c hc => ?_
  have h1 := (Sm.refl h).setC hc.1
  refine (rd_Kp hp h.sz (by omega)).bind fun lo hlo => ?_
  refine (rd_Kp hp h.sz (by omega)).bind fun hi' hhi => ?_
  subst hlo hhi
  refine Ok.bind (P := fun t => Sm n N NP d s.L t) ?_ fun t ht => ?_
  · refine each_ok (fun t => Sm n N NP d s.L t) _ _ _ h1 fun k hk1 hk2 t ht => ?_
    unfold addC
    refine (rd_Ki hp ht.sz hi hk1 (by omega)).bind fun i hii => ?_
    refine (rd_any (.x .K) _ k (Kx_lt hp ht.sz hi (by omega))).bind fun x _ => ?_
    exact (wr_len .c _ i _ (by rw [ht.sz.c]; exact hii.2.1)).bind fun c hc => Ok.pure (ht.setC hc)
  refine (fillWith_ok .l 0 index F.zero t.l (by rw [ht.sz.l]; omega)).bind fun l hl => ?_
  refine Ok.bind (P := fun u => Sm n N NP d s.L u) ?_ fun u hu => ?_
  · refine each_ok (fun u => Sm n N NP d s.L u) _ _ _ (ht.setL hl.1) fun j _ hj u hu => ?_
    unfold fwdCol
    refine (rd_any .l _ j (by rw [hu.sz.l]; omega)).bind fun lj _ => ?_
    refine (rd_any .c _ j (by rw [hu.sz.c]; omega)).bind fun cj _ => ?_
    refine (wr_len .l _ j _ (by rw [hu.sz.l]; omega)).bind fun l' hl' => ?_
    refine (rds_Lp hu (by omega)).bind fun lo hlo => ?_
    refine (rds_Lp hu (by omega)).bind fun hi' hhi => ?_
    subst hlo hhi
    refine each_ok (fun u => Sm n N NP d s.L u) _ _ _ (hu.setL hl') fun k hk1 hk2 u hu => ?_
    unfold fwdEntry
    refine (rds_Li hu (show j < N by omega) hk1 hk2).bind fun i hii => ?_
    refine (rd_any (.x .L) _ k (Lxs_lt hu (show j < N by omega) hk2)).bind fun x _ => ?_
    refine (rd_any .l _ j (by rw [hu.sz.l]; omega)).bind fun lj _ => ?_
    refine (rd_any .l _ i (by rw [hu.sz.l]; exact hii.2.2)).bind fun li _ => ?_
    exact (wr_len .l _ i _ (by rw [hu.sz.l]; exact hii.2.2)).bind fun l' hl' => Ok.pure (hu.setL hl')
  exact sparsify_any id index (by omega) (fun i hi => by show i < N; omega) hu.inw

theorem addRow_any (h : Inw n N NP d s) (pos : Nat → Nat × Nat) (size : Nat) (hs : size ≤ N)
    (hL : Listed (fun q => (pos q).2 < (pos q).1 ∧ (pos q).1 < N) size s.li) :
    Ok (fun t => Inw n N NP d t ∧ t.li = s.li) (each 0 size s (addRow N pos)) := by
  refine each_ok (fun t => Inw n N NP d t ∧ t.li = s.li) _ _ _ ⟨h, rfl⟩ fun k _ hk t ht => ?_
  unfold addRow
  refine (rd_ix .li _ k (by rw [ht.1.sz.li]; omega)).bind fun i hii => ?_
  rw [ht.2] at hii
  subst hii
  refine (rd_any .lx _ k (by rw [ht.1.sz.lx]; omega)).bind fun v _ => ?_
  refine (insertValue_any ht.1 (hL k hk).1 (hL k hk).2 v).bind fun L hLL => ?_
  exact Ok.pure ⟨hLL, ht.2⟩

theorem addMiddle_any (F : Flops R) (hp : Problem n N d) (h : Inw n N NP d s) {index size : Nat} (hn : n ≤ index) (hi : index < N)
    (hs : size ≤ index) (hL : Listed (fun q => q < index) size s.li) :
    Ok (fun t => Inw n N NP d t ∧ t.li = s.li) (addMiddle F N index size s) := by
  unfold addMiddle
  refine (rd_Kp hp h.sz (by omega)).bind fun hi' hhi => ?_
  subst hhi
  have hd := hp.diag index hn hi
  refine (rdI_ok (.x .K) _ _ (by omega) (by have := Kx_lt hp h.sz hi (k := ix d.pK (index + 1) - 1) (by omega); omega)).bind fun dd _ => ?_
  refine (wr_len .D _ index _ (by rw [h.sz.D]; exact hi)).bind fun D hD => ?_
  refine Ok.bind (P := fun t => Sm n N NP d s.L t ∧ t.li = s.li) ?_ fun t ht => ?_
  · refine each_ok (fun t => Sm n N NP d s.L t ∧ t.li = s.li) _ _ _ ⟨(Sm.refl h).setD hD, rfl⟩ fun k _ hk t ht => ?_
    unfold addPivot
    refine (rd_any .lx _ k (by rw [ht.1.sz.lx]; omega)).bind fun v _ => ?_
    refine (rd_ix .li _ k (by rw [ht.1.sz.li]; omega)).bind fun i hii => ?_
    rw [ht.2] at hii
    subst hii
    refine (rd_any .D _ _ (by rw [ht.1.sz.D]; have := hL k hk; omega)).bind fun di _ => ?_
    refine (rd_any .D _ _ (by rw [ht.1.sz.D]; exact hi)).bind fun dd _ => ?_
    refine (wr_len .D _ index _ (by rw [ht.1.sz.D]; exact hi)).bind fun D hD => ?_
    exact Ok.pure ⟨ht.1.setD hD, ht.2⟩
  refine (rd_any .D _ _ (by rw [ht.1.sz.D]; exact hi)).bind fun dd _ => ?_
  refine (wr_len .Dinv _ index _ (by rw [ht.1.sz.Dinv]; exact hi)).bind fun Dinv hDinv => ?_
  refine (addRow_any (ht.1.setDinv hDinv).inw (fun i => (index, i)) size (by omega) ?_).mono fun u hu => ⟨hu.1, hu.2.trans ht.2⟩
  show Listed _ size t.li
  rw [ht.2]
  exact fun k hk => ⟨hL k hk, hi⟩

theorem addLower_any (hp : Problem n N d) (h : Inw n N NP d s) {index size : Nat} (hi : index < N) (hs : size ≤ index)
    (hL : Listed (fun q => q < index) size s.li) :
    Ok (fun t => Inw n N NP d t.2 ∧ t.1 ≤ N - index - 1 ∧ Listed (fun q => q < N - index - 1) t.1 t.2.li)
      (addLower F N index size s) := by
  unfold addLower
  refine (fillWith_ok .l 0 N F.zero s.l (by rw [h.sz.l])).bind fun l hl => ?_
  have h1 := (Sm.refl h).setL hl.1
  refine Ok.bind (P := fun t => Sm n N NP d s.L t ∧ t.li = s.li) ?_ fun t ht => ?_
  · refine each_ok (fun t => Sm n N NP d s.L t ∧ t.li = s.li) _ _ _ ⟨h1, rfl⟩ fun j hj1 hj2 t ht => ?_
    refine (rd_Kp hp ht.1.sz (by omega)).bind fun lo hlo => ?_
    refine (rd_Kp hp ht.1.sz (by omega)).bind fun hi' hhi => ?_
    subst hlo hhi
    refine eachBreak_ok (fun t => Sm n N NP d s.L t ∧ t.li = s.li) _ _ ht fun k hk t ht => ?_
    obtain ⟨ht, hli⟩ := ht
    rw [List.mem_range'_1] at hk
    unfold addL32init
    refine (rd_Ki hp ht.sz hj2 (k := k) (by omega) (by omega)).bind fun i hii => ?_
    split
    · split
      · refine (rd_any (.x .K) _ k (Kx_lt hp ht.sz hj2 (by omega))).bind fun x _ => ?_
        exact (wr_len .l _ _ _ (by rw [ht.sz.l]; omega)).bind fun l' hl' => Ok.pure ⟨ht.setL hl', hli⟩
      · exact Ok.pure ⟨ht, hli⟩
    · exact Ok.pure ⟨ht, hli⟩
  refine Ok.bind (P := fun t => Sm n N NP d s.L t ∧ t.li = s.li) ?_ fun t ht => ?_
  · refine each_ok (fun t => Sm n N NP d s.L t ∧ t.li = s.li) _ _ _ ht fun r _ hr t ht => ?_
    have hb := hL r hr
    unfold addL32
    refine (rd_ix .li _ r (by rw [ht.1.sz.li]; omega)).bind fun b hbb => ?_
    rw [ht.2] at hbb
    subst hbb
    refine (rds_Lp ht.1 (by omega)).bind fun lo hlo => ?_
    refine (rds_Lp ht.1 (by omega)).bind fun hi' hhi => ?_
    subst hlo hhi
    refine each_ok (fun t => Sm n N NP d s.L t ∧ t.li = s.li) _ _ _ ht fun k hk1 hk2 t ht => ?_
    obtain ⟨ht, hli⟩ := ht
    unfold addL32entry
    refine (rds_Li ht (show ix s.li r < N by omega) hk1 hk2).bind fun i hii => ?_
    split
    · refine (rd_any (.x .L) _ k (Lxs_lt ht (show ix s.li r < N by omega) hk2)).bind fun x _ => ?_
      refine (rd_any .lx _ r (by rw [ht.sz.lx]; omega)).bind fun v _ => ?_
      refine (rd_ix .li _ r (by rw [ht.sz.li]; omega)).bind fun b hbb => ?_
      rw [hli] at hbb
      subst hbb
      refine (rd_any .D _ _ (by rw [ht.sz.D]; omega)).bind fun dd _ => ?_
      refine (rd_any .l _ _ (by rw [ht.sz.l]; omega)).bind fun o _ => ?_
      exact (wr_len .l _ _ _ (by rw [ht.sz.l]; omega)).bind fun l' hl' => Ok.pure ⟨ht.setL hl', hli⟩
    · exact Ok.pure ⟨ht, hli⟩
  exact sparsify_any (fun _ => index) (N - index - 1) (by omega) (fun _ _ => hi) ht.1.inw

theorem ldlAdd_any (F : Flops R) (hp : Problem n N d) (h : Inw n N NP d s) {index : Nat} (hn : n ≤ index) (hi : index < N) :
    Ok (fun t => Inw n N NP d t) (ldlAdd F N index s) := by
  unfold ldlAdd
  refine (addUpper_any hp h hi).bind fun t ht => ?_
  refine (addMiddle_any F hp ht.1 hn hi ht.2.1 ht.2.2).bind fun u hu => ?_
  refine (addLower_any hp hu.1 hi ht.2.1 (by rw [hu.2]; exact ht.2.2)).bind fun v hv => ?_
  have hsz := hv.2.1
  refine (addRow_any hv.1 (fun i => (i + index + 1, index)) v.1 (by omega)
    fun k hk => by have := hv.2.2 k hk; show _ < _ ∧ _ < _; simp only; omega).bind fun x hx => ?_
  refine (fillWith_ok .w 0 N F.zero x.w (by rw [hx.1.sz.w])).bind fun w hw => ?_
  refine Ok.bind (P := fun y => Sm n N NP d x.L y ∧ y.li = v.2.li) ?_ fun y hy => rank1_any F _ _ hy.1.inw
  refine each_ok (fun y => Sm n N NP d x.L y ∧ y.li = v.2.li) _ _ _ ⟨(Sm.refl hx.1).setW hw.1, hx.2⟩ fun k _ hk y hy => ?_
  unfold addW
  refine (rd_ix .li _ k (by rw [hy.1.sz.li]; omega)).bind fun b hb => ?_
  rw [hy.2] at hb
  subst hb
  refine (wr_ok .wi _ k _ (by rw [hy.1.sz.wi]; omega)).bind fun wi hwi => ?_
  have hlw : wi.length = y.wi.length := by rw [hwi, List.length_set]
  refine (rd_any .lx _ k (by rw [hy.1.sz.lx]; omega)).bind fun vv _ => ?_
  refine (rd_any .D _ _ (by rw [hy.1.sz.D]; exact hi)).bind fun dd _ => ?_
  refine (rd_ix .wi wi k (by rw [hlw, hy.1.sz.wi]; omega)).bind fun q hq => ?_
  rw [hwi, ix_set _ _ _ _ (by rw [hy.1.sz.wi]; omega), if_pos rfl] at hq
  have := hv.2.2 k hk
  refine (wr_len .w _ _ _ (by rw [hy.1.sz.w]; omega)).bind fun w hw => ?_
  exact Ok.pure ⟨(hy.1.setWi hlw).setW hw, hy.2⟩

theorem activeStep_any (F : Flops R) (hp : Problem n N d) {y : List R} (hy : y.length = N - n) {i : Nat} (hi : i < N - n)
    (h : Inw n N NP d s) : Ok (fun t => Inw n N NP d t) (activeStep F n N y s i) := by
  unfold activeStep
  refine (rd_any .soly _ i (by rw [hy]; exact hi)).bind fun yi _ => ?_
  refine (rd_any .a _ i (by rw [h.sz.a]; exact hi)).bind fun ai _ => ?_
  have hadd := ldlAdd_any F hp h (index := n + i) (by omega) (by omega)
  have hdel := ldlDelete_any F h (index := n + i) (by omega)
  have hfin : ∀ (v : Int) (t : St R), Inw n N NP d t →
      Ok (fun t => Inw n N NP d t) (do let a ← wr .a t.a i v; (.ok { t with a := a } : Mem (St R))) := fun v t ht =>
    (wr_len .a _ i _ (by rw [ht.sz.a]; exact hi)).bind fun a ha => Ok.pure (ht.setA ha)
  split
  · split
    · exact hadd.bind fun t ht => hfin _ t ht
    · exact Ok.pure h
  · split
    · split
      · exact hadd.bind fun t ht => hfin _ t ht
      · exact Ok.pure h
    · split
      · exact hdel.bind fun t ht => hfin _ t ht
      · exact Ok.pure h

end Verif.Lemmas.GradMem
