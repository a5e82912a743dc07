import Verif.Lemmas.GradRef
/-!
Lemmas for C94: deletion of a row and column of the factor.
-/
namespace Verif.Lemmas.GradRef
open Verif.Model.GradMem Verif.Spec.GradMem Verif.Lemmas.GradMem Verif.Spec.GradRef
open Verif.Model.Factor (upd loop)

variable {R : Type} [Field R] [DecidableEq R] [LT R] [DecidableRel (fun x y : R => x < y)] {sqrt : R → R} {eps tol : R}
  {n N NP : Nat} {d : Patterns} {s : St R}

theorem loop_shift (lo hi : Nat) : loop lo hi = (loop 0 (hi - lo)).map (lo + ·) := by
  unfold loop
  rw [List.map_add_range']
  rfl

theorem loop_succ {a b : Nat} (h : a ≤ b) : loop a (b + 1) = loop a b ++ [b] := by
  unfold loop
  rw [show b + 1 - a = (b - a) + 1 by omega, List.range'_concat]
  congr 2
  omega

theorem fillT_wp (a : Arr) (lo hi m : Nat) (x : R) (v : List R) (hm : hi ≤ m) :
    Wp (fun v' => arr (v'.take m) = (loop lo hi).foldl (fun f k => upd f k x) (arr (v.take m)) ∧ v'.length = v.length)
      (fillWith a lo hi x v) := by
  unfold fillWith
  refine (each_wp (fun (v' : List R) (f : Nat → R) => arr (v'.take m) = f ∧ v'.length = v.length) (g := fun f k => upd f k x) lo hi
    (t := arr (v.take m)) ⟨rfl, rfl⟩ fun k _ hk s t h => ?_).mono fun v' h => h
  exact (wrT a s m k x (by omega)).mono fun v' hv => ⟨by rw [hv.1, h.1], hv.2.trans h.2⟩

/-- Replacing what the first loops of `cpg_ldl_delete` write. -/
def del (s : St R) (w : List R) (wi : List Nat) (x : List R) : St R := { s with w := w, wi := wi, L := { s.L with x := x } }

theorem zeroRow_wp (index : Nat) : ∀ (ks : List Nat) (s : St R), (∀ k ∈ ks, k < s.L.nnz) →
    Wp (fun t => ∃ x', t = { s with L := { s.L with x := x' } } ∧ x'.length = s.L.x.length ∧
      arr (x'.take s.L.nnz) = Verif.Model.Factor.zeroRowCol (factor s.L).i index ks (arr (s.L.x.take s.L.nnz)))
      (eachBreak (zeroRow (exact sqrt eps tol) index) ks s) := by
  intro ks
  induction ks with
  | nil => intro s _; exact Wp.pure ⟨s.L.x, rfl, rfl, rfl⟩
  | cons k ks ih =>
    intro s hk
    have hkn := hk k List.mem_cons_self
    unfold eachBreak Verif.Model.Factor.zeroRowCol
    have key : Wp (fun t : St R × Bool => (index ≤ (factor s.L).i k ∧ t.2 = true ∧ ∃ x', t.1 = { s with L := { s.L with x := x' } } ∧
        x'.length = s.L.x.length ∧ arr (x'.take s.L.nnz) = if (factor s.L).i k = index then upd (arr (s.L.x.take s.L.nnz)) k 0
          else arr (s.L.x.take s.L.nnz)) ∨ (¬ index ≤ (factor s.L).i k ∧ t.2 = false ∧ t.1 = s))
        (zeroRow (exact sqrt eps tol) index s k) := by
      unfold zeroRow
      refine (rdT _ s.L.i s.L.nnz k hkn).bind fun i hi => ?_
      have hi' : (factor s.L).i k = i := hi.symm
      rw [hi']
      by_cases h1 : index ≤ i
      · rw [if_pos h1]
        by_cases h2 : i = index
        · rw [if_pos h2, if_pos h2]
          refine (wrT _ s.L.x s.L.nnz k _ hkn).bind fun x hx => ?_
          exact Wp.pure (Or.inl ⟨h1, rfl, x, rfl, hx.2, hx.1⟩)
        · rw [if_neg h2, if_neg h2]
          exact Wp.pure (Or.inl ⟨h1, rfl, s.L.x, rfl, rfl, rfl⟩)
      · rw [if_neg h1]
        exact Wp.pure (Or.inr ⟨h1, rfl, rfl⟩)
    refine key.bind fun t ht => ?_
    rcases ht with ⟨h1, h2, h3⟩ | ⟨h1, h2, h3⟩
    · rw [h2, if_pos h1]
      exact Wp.pure h3
    · rw [h2, if_neg h1, h3]
      exact ih s fun q hq => hk q (List.mem_cons_of_mem _ hq)

theorem mem_loop {a b k : Nat} (h : k ∈ loop a b) : a ≤ k ∧ k < b := by
  have := List.mem_range'_1.1 h
  omega

theorem ldlDelete_ref (hp : Problem n N d) (h : Inv n N NP d s) {index : Nat} (hi : index < N) :
    Ok (fun t => Inv n N NP d t ∧ (∃ w wi x mk D Dinv, t = { del s w wi x with mask := mk, D := D, Dinv := Dinv }) ∧
      ws t = Verif.Model.Factor.ldlDelete sqrt N index (ws s)) (ldlDelete (exact sqrt eps tol) N index s) := by
  refine (ldlDelete_ok _ hp h hi).and ?_
  have hsz := size_le hp hi
  have hle := Inv.col_le hp h (c := index + 1) (by omega)
  have ep : ∀ c, arr s.L.p c = ix d.pL c := fun c => by rw [h.Lp]; rfl
  have ei : ∀ k, k < s.L.nnz → (factor s.L).i k = ix d.iL k := fun k hk => by
    show arr (s.L.i.take s.L.nnz) k = _
    rw [arr_take _ hk]
    exact h.ix_eq (by rw [← h.nnz]; exact hk)
  unfold ldlDelete
  refine (fillAll_wp _ s.w N h.sz.w).bind fun w0 hw0 => ?_
  refine (rdA _ s.L.p index).bind fun lo hlo => ?_
  refine (rdA _ s.L.p (index + 1)).bind fun hi' hhi => ?_
  subst hlo hhi
  -- `w` and `wi`
  refine Wp.bind (P := fun t => ∃ w wi, t = del s w wi s.L.x ∧ w.length = N ∧ wi.length = N ∧
    arr w = Verif.Model.Factor.deleteW sqrt (ws s) index ∧
    part (arr s.L.p (index + 1) - arr s.L.p index) wi = Verif.Model.Factor.deleteWi (ws s) index) ?_ ?_
  · refine (count_wp (fun q t => ∃ w wi, t = del s w wi s.L.x ∧ w.length = N ∧ wi.length = N ∧
      arr w = (loop 0 q).foldl (fun f k => upd f (index + 1 + ((factor s.L).i (arr s.L.p index + k) - index - 1))
        ((factor s.L).x (arr s.L.p index + k) * sqrt (- arr s.D index))) (fun _ => 0) ∧
      ∀ k < q, arr wi k = (factor s.L).i (arr s.L.p index + k) - index - 1) 0 _ (Nat.zero_le _)
      ⟨w0, s.wi, rfl, hw0.2, h.sz.wi, hw0.1, fun k hk => absurd hk (Nat.not_lt_zero _)⟩ ?_).mono ?_
    · rintro q - hq _ ⟨w, wi, rfl, hwl, hwil, hw, hl⟩
      unfold deleteEntry
      refine (rdT _ s.L.i s.L.nnz _ (by omega)).bind fun i hii => ?_
      by_cases hid : i ≤ index
      · rw [if_pos hid]; exact Wp.error _
      rw [if_neg hid]
      refine (wrA _ wi q _).bind fun wi' hwi' => ?_
      refine (rdT _ s.L.x s.L.nnz _ (by omega)).bind fun x hx => ?_
      refine (rdA _ s.D index).bind fun dd hdd => ?_
      refine (rdA _ wi' q).bind fun b hb => ?_
      refine (wrA _ w _ _).bind fun w' hw' => ?_
      refine Wp.pure ⟨w', wi', rfl, hw'.2.trans hwl, hwi'.2.trans hwil, ?_, fun k hk => ?_⟩
      · rw [loop_succ (Nat.zero_le q), List.foldl_append, List.foldl_cons, List.foldl_nil, ← hw, hw'.1, hb, hwi'.1, hx, hdd, hii]
        simp [exact, upd, factor]
      · rw [hwi'.1]
        unfold upd
        by_cases ek : k = q
        · rw [if_pos ek, ek, hii]; rfl
        · rw [if_neg ek]
          exact hl k (by omega)
    · rintro _ ⟨w, wi, rfl, hwl, hwil, hw, hl⟩
      refine ⟨w, wi, rfl, hwl, hwil, ?_, ?_⟩
      · rw [hw]
        unfold Verif.Model.Factor.deleteW
        have : loop ((ws s).S.L.p index) ((ws s).S.L.p (index + 1)) = _ := loop_shift _ _
        rw [this, List.foldl_map]
        rfl
      · unfold part Verif.Model.Factor.deleteWi
        have : loop ((ws s).S.L.p index) ((ws s).S.L.p (index + 1)) = _ := loop_shift _ _
        rw [this, List.map_map]
        exact List.map_congr_left fun k hk => hl k (mem_loop hk).2
  rintro _ ⟨w, wi, rfl, hwl, hwil, hw, hwi⟩
  -- row `index` is set to zero
  refine Wp.bind (P := fun t => ∃ x, t = del s w wi x ∧ x.length = s.L.x.length ∧ arr (x.take s.L.nnz) = (loop 0 index).foldl
    (fun x j => Verif.Model.Factor.zeroRowCol (factor s.L).i index (loop (arr s.L.p j) (arr s.L.p (j + 1))) x) (factor s.L).x) ?_ ?_
  · refine each_wp (fun (t : St R) (f : Nat → R) => ∃ x, t = del s w wi x ∧ x.length = s.L.x.length ∧ arr (x.take s.L.nnz) = f) 0 index
      ⟨s.L.x, rfl, rfl, rfl⟩ ?_
    rintro j - hj _ _ ⟨x, rfl, hxl, rfl⟩
    refine (rdA _ s.L.p j).bind fun a ha => ?_
    refine (rdA _ s.L.p (j + 1)).bind fun b hb => ?_
    subst ha hb
    have hle' := Inv.col_le hp h (c := j + 1) (by omega)
    refine (zeroRow_wp index _ (del s w wi x) ?_).mono ?_
    · intro k hk
      have := mem_loop (a := arr s.L.p j) (b := arr s.L.p (j + 1)) hk
      show k < s.L.nnz
      omega
    · rintro _ ⟨x', rfl, hl', he⟩
      exact ⟨x', rfl, hl'.trans hxl, he⟩
  rintro _ ⟨x, rfl, hxl, hx⟩
  refine (fillT_wp _ _ _ s.L.nnz _ x hle).bind fun x' hx' => ?_
  refine (wrA _ s.D index _).bind fun D hD => ?_
  refine (wrA _ s.Dinv index _).bind fun Dinv hDinv => ?_
  have hDx : arr (x'.take s.L.nnz) = Verif.Model.Factor.deleteX (factor s.L) index := by
    rw [hx'.1, hx]
    rfl
  have hinv : Inv n N NP d { del s w wi x' with D := D, Dinv := Dinv } :=
    ((((h.setW (hwl.trans h.sz.w.symm)).setWi (hwil.trans h.sz.wi.symm)).setLx (hx'.2.trans hxl)).setD hD.2).setDinv hDinv.2
  have pos : ∀ q < arr s.L.p (index + 1) - arr s.L.p index, arr wi q = ix d.iL (ix d.pL index + q) - index - 1 := by
    intro q hq
    have hpart : arr wi q = (part (arr s.L.p (index + 1) - arr s.L.p index) wi).getD q 0 := by
      unfold part loop
      rw [List.getD_eq_getElem?_getD, List.getElem?_map, List.getElem?_range' (by omega)]
      simp
    rw [hpart, hwi]
    unfold Verif.Model.Factor.deleteWi
    rw [List.getD_eq_getElem?_getD, List.getElem?_map]
    have : loop ((ws s).S.L.p index) ((ws s).S.L.p (index + 1)) = List.range' (arr s.L.p index) (arr s.L.p (index + 1) - arr s.L.p index) := rfl
    rw [this, List.getElem?_range' hq]
    have e := ei (arr s.L.p index + q) (by omega)
    show (factor s.L).i (arr s.L.p index + 1 * q) - index - 1 = _
    rw [Nat.one_mul, e, ep]
  have hwok : WiOK N d index (arr s.L.p (index + 1) - arr s.L.p index) wi := by
    have pos' : ∀ q < arr s.L.p (index + 1) - arr s.L.p index, index + 1 + ix wi q = ix d.iL (ix d.pL index + q) := by
      intro q hq
      have e := pos q hq
      rw [ep, ep] at hq
      have := hp.sym.lower index hi (ix d.pL index + q) (by omega) (by omega)
      have e' : ix wi q = _ := e
      omega
    rw [ep, ep] at pos' ⊢
    refine ⟨by omega, fun q hq => ?_, fun q hq => ?_, fun q q' hqq hq' => ?_⟩
    · rw [pos' q hq]
      exact (hp.sym.lines.entry hi (k := ix d.pL index + q) (by omega)).2
    · rw [pos' q hq]
      exact ⟨_, by omega, by omega, rfl⟩
    · have e1 := pos' q (by omega)
      have e2 := pos' q' hq'
      have := sorted_lt hp hi (k := ix d.pL index + q) (k' := ix d.pL index + q') (by omega) (by omega) (by omega)
      omega
  refine (symbolic_ref _ hp hinv hi hwok).wp.bind ?_
  rintro _ ⟨hinv2, ⟨mk, rfl⟩, hsym⟩
  refine (rank1_ref hp _ _ hinv2).wp.mono ?_
  rintro _ ⟨-, ⟨w2, x2, D2, Dinv2, rfl⟩, he⟩
  refine ⟨⟨w2, wi, x2, mk, D2, Dinv2, rfl⟩, ?_⟩
  rw [he]
  unfold Verif.Model.Factor.ldlDelete
  dsimp only
  rw [← hwi, ← hw]
  have e1 : Verif.Model.Factor.deleteX (ws s).S.L index = arr (x'.take s.L.nnz) := hDx.symm
  rw [e1]
  have e2 : ({ (ws s).S with L := { (ws s).S.L with x := arr (x'.take s.L.nnz) } } : Verif.Model.Factor.MaskedL R) =
    (ws { del s w wi x' with D := D, Dinv := Dinv }).S := rfl
  rw [e2]
  have e3 : Verif.Model.Factor.symbolicUpdate N (index + 1) (part (arr s.L.p (index + 1) - arr s.L.p index) wi)
    (ws { del s w wi x' with D := D, Dinv := Dinv }).S = _ := hsym
  rw [e3]
  have e4 : upd (ws s).D index (-1) = arr D := hD.1.symm
  have e5 : upd (ws s).Dinv index (-1) = arr Dinv := hDinv.1.symm
  rw [e4, e5]
  rfl

end Verif.Lemmas.GradRef
