import Verif.Lemmas.GradRefB
/-!
Lemmas for C94: addition of a row and column to the factor.
-/
namespace Verif.Lemmas.GradRef
open Verif.Model.GradMem Verif.Spec.GradMem Verif.Lemmas.GradMem Verif.Spec.GradRef
open Verif.Model.Factor (upd loop)

variable {R : Type} [Field R] [DecidableEq R] [LT R] [DecidableRel (fun x y : R => x < y)] {sqrt : R → R} {eps tol : R}
  {n N NP : Nat} {d : Patterns} {s : St R}

/-- The first `size` pairs of indices and values. -/
def pairs (size : Nat) (li : List Nat) (lx : List R) : List (Nat × R) := (loop 0 size).map fun k => (arr li k, arr lx k)

theorem pairs_add {size : Nat} {li li' : List Nat} {lx lx' : List R} {i : Nat} {v : R} (h1 : arr li' = upd (arr li) size i)
    (h2 : arr lx' = upd (arr lx) size v) : pairs (size + 1) li' lx' = pairs size li lx ++ [(i, v)] := by
  unfold pairs
  rw [loop_succ (Nat.zero_le _), List.map_append, h1, h2]
  congr 1
  · refine List.map_congr_left fun k hk => ?_
    have := (mem_loop hk).2
    unfold upd
    rw [if_neg (by omega), if_neg (by omega)]
  · simp [upd]

theorem sparsify_succ (m : Nat) (l D : Nat → R) : Verif.Model.Factor.sparsify (m + 1) l D =
    Verif.Model.Factor.sparsify m l D ++ (if l m = 0 then [] else [(m, l m / D m)]) := by
  unfold Verif.Model.Factor.sparsify
  rw [loop_succ (Nat.zero_le _), List.filter_append, List.map_append]
  congr 1
  by_cases h : l m = 0
  · rw [if_pos h]; simp [h]
  · rw [if_neg h]; simp [h]

theorem sparsify_wp (pivot : Nat → Nat) (m : Nat) (s : St R) :
    Wp (fun t => ∃ li lx, t.2 = { s with li := li, lx := lx } ∧
      pairs t.1 li lx = Verif.Model.Factor.sparsify m (arr s.l) (fun i => arr s.D (pivot i)))
      (each 0 m (0, s) (sparsify (exact sqrt eps tol) pivot)) := by
  refine count_wp (fun i (t : Nat × St R) => ∃ li lx, t.2 = { s with li := li, lx := lx } ∧
      pairs t.1 li lx = Verif.Model.Factor.sparsify i (arr s.l) (fun i => arr s.D (pivot i))) 0 m (Nat.zero_le _)
      ⟨s.li, s.lx, rfl, rfl⟩ ?_
  rintro i - hi ⟨sz, _⟩ ⟨li, lx, rfl, he⟩
  unfold sparsify
  refine (rdA _ s.l i).bind fun v hv => ?_
  rw [sparsify_succ, ← he, ← hv]
  by_cases h0 : v = 0
  · have e1 : (exact sqrt eps tol).isZero v = true := decide_eq_true h0
    rw [if_pos h0, List.append_nil, if_pos e1]
    exact Wp.pure ⟨li, lx, rfl, rfl⟩
  · have e1 : ¬ (exact sqrt eps tol).isZero v = true := fun h => h0 (of_decide_eq_true h)
    rw [if_neg h0, if_neg e1]
    refine (rdA _ s.D (pivot i)).bind fun dd hdd => ?_
    refine (wrA _ lx sz _).bind fun lx' hlx => ?_
    refine (wrA _ li sz _).bind fun li' hli => ?_
    refine Wp.pure ⟨li', lx', rfl, ?_⟩
    rw [hdd] at hlx
    exact pairs_add hli.1 hlx.1

/-- Lines 225-257. -/
theorem addUpper_wp (hp : Problem n N d) (h : Inv n N NP d s) {index : Nat} (hi : index < N) :
    Wp (fun t => ∃ c l li lx, t.2 = { s with c := c, l := l, li := li, lx := lx } ∧
      arr l = Verif.Model.Factor.addFwd (factor s.L) (Verif.Model.Factor.addC (csc s.K) index) index (arr s.l) ∧
      pairs t.1 li lx = Verif.Model.Factor.sparsify index (arr l) (arr s.D)) (addUpper (exact sqrt eps tol) N index s) := by
  unfold addUpper
  refine (fillAll_wp _ s.c N h.sz.c).bind fun c0 hc0 => ?_
  refine (rdA _ s.K.p index).bind fun lo hlo => ?_
  refine (rdA _ s.K.p (index + 1)).bind fun hi' hhi => ?_
  subst hlo hhi
  refine Wp.bind (P := fun t => ∃ c, t = { s with c := c } ∧ arr c = Verif.Model.Factor.addC (csc s.K) index) ?_ ?_
  · refine each_wp (fun (t : St R) (f : Nat → R) => ∃ c, t = { s with c := c } ∧ arr c = f)
      (g := fun c k => upd c ((csc s.K).i k) ((csc s.K).x k)) _ _ ⟨c0, rfl, hc0.1⟩ ?_
    rintro k - - _ _ ⟨c, rfl, rfl⟩
    unfold addC
    refine (rdA _ s.K.i k).bind fun i hi => ?_
    refine (rdA _ s.K.x k).bind fun x hx => ?_
    refine (wrA _ c i x).bind fun c' hc' => Wp.pure ⟨c', rfl, ?_⟩
    rw [hc'.1, hi, hx]
    rfl
  rintro _ ⟨c, rfl, hc⟩
  refine (fill_wp _ 0 index _ s.l).bind fun l0 hl0 => ?_
  refine Wp.bind (P := fun t => ∃ l, t = { s with c := c, l := l } ∧
    arr l = Verif.Model.Factor.addFwd (factor s.L) (Verif.Model.Factor.addC (csc s.K) index) index (arr s.l)) ?_ ?_
  · refine each_wp (fun (t : St R) (f : Nat → R) => ∃ l, t = { s with c := c, l := l } ∧ arr l = f)
      (g := Verif.Model.Factor.fwdStep (factor s.L) (Verif.Model.Factor.addC (csc s.K) index)) 0 index ⟨l0, rfl, ?_⟩ ?_
    · rw [hl0.1]
      unfold loop
      rw [fillFold]
      funext k
      by_cases hk : k < index
      · rw [if_pos (by omega), if_pos hk]; rfl
      · rw [if_neg (by omega), if_neg hk]
    rintro j - hj _ _ ⟨l, rfl, rfl⟩
    unfold fwdCol
    refine (rdA _ l j).bind fun lj hlj => ?_
    refine (rdA _ c j).bind fun cj hcj => ?_
    refine (wrA _ l j _).bind fun l1 hl1 => ?_
    refine (rdA _ s.L.p j).bind fun lo hlo => ?_
    refine (rdA _ s.L.p (j + 1)).bind fun hi' hhi => ?_
    subst hlo hhi
    have hle : (factor s.L).p (j + 1) ≤ s.L.nnz := Inv.col_le hp h (c := j + 1) (by omega)
    refine each_wp (fun (t : St R) (f : Nat → R) => ∃ l, t = { s with c := c, l := l } ∧ arr l = f)
      (g := fun l k => upd l ((factor s.L).i k) (l ((factor s.L).i k) - (factor s.L).x k * l j)) _ _ ⟨l1, rfl, ?_⟩ ?_
    · rw [hl1.1, hlj, hcj, hc]
      rfl
    rintro k - hk _ _ ⟨l, rfl, rfl⟩
    unfold fwdEntry
    refine (rdT _ s.L.i s.L.nnz k (by omega)).bind fun i hi => ?_
    refine (rdT _ s.L.x s.L.nnz k (by omega)).bind fun x hx => ?_
    refine (rdA _ l j).bind fun lj hlj => ?_
    refine (rdA _ l i).bind fun li hli => ?_
    refine (wrA _ l i _).bind fun l2 hl2 => Wp.pure ⟨l2, rfl, ?_⟩
    rw [hl2.1, hli, hlj, hx, hi]
    rfl
  rintro _ ⟨l, rfl, hl⟩
  refine (sparsify_wp id index _).mono ?_
  rintro t ⟨li, lx, h1, h2⟩
  exact ⟨c, l, li, lx, h1, hl, h2⟩

theorem rdI_last (a : Arr) (v : List R) (k : Nat) : Wp (fun x => x = arr v (k - 1)) (rdI a v ((k : Int) - 1)) := by
  unfold rdI
  by_cases h : (0 : Int) ≤ (k : Int) - 1
  · rw [if_pos h]
    have : ((k : Int) - 1).toNat = k - 1 := by omega
    rw [this]
    exact rdA a v _
  · rw [if_neg h]
    exact Wp.error _

theorem addRow_ref (hp : Problem n N d) (h : Inv n N NP d s) (pos : Nat → Nat × Nat) (size : Nat)
    (hL : Listed (fun q => Has d.pL d.iL (pos q).1 (pos q).2 ∧ (pos q).2 < N) size s.li) :
    Wp (fun t => ∃ x, t = { s with L := { s.L with x := x } } ∧ x.length = s.L.x.length ∧
      factor t.L = (pairs size s.li s.lx).foldl (fun L e => Verif.Model.Factor.insertNonzeroAndValue N L (pos e.1).1 (pos e.1).2 e.2)
        (factor s.L)) (each 0 size s (addRow N pos)) := by
  unfold pairs
  rw [List.foldl_map]
  refine (each_wp (fun (t : St R) (L : Verif.Model.Factor.CscL R) => ∃ x, t = { s with L := { s.L with x := x } } ∧
    x.length = s.L.x.length ∧ factor t.L = L)
    (g := fun L k => Verif.Model.Factor.insertNonzeroAndValue N L (pos (arr s.li k)).1 (pos (arr s.li k)).2 (arr s.lx k))
    0 size ⟨s.L.x, rfl, rfl, rfl⟩ ?_)
  rintro k - hk _ _ ⟨x, rfl, hx, rfl⟩
  unfold addRow
  refine (rdA _ s.li k).bind fun i hi => ?_
  refine (rdA _ s.lx k).bind fun v hv => ?_
  subst hi hv
  refine (insertValue_ref hp (h.setLx hx) (hL k hk).1 (hL k hk).2 (arr s.lx k)).wp.bind ?_
  rintro _ ⟨⟨x', hx', rfl⟩, he⟩
  exact Wp.pure ⟨x', rfl, hx'.trans hx, he⟩

/-- Lines 259-269. -/
theorem addMiddle_wp (hp : Problem n N d) (h : Inv n N NP d s) {index size : Nat}
    (hi : index < N) (hL : Listed (fun q => q < index ∧ Has d.pL d.iL index q) size s.li) :
    Wp (fun t => ∃ D Dinv x, t = { s with D := D, Dinv := Dinv, L := { s.L with x := x } } ∧ x.length = s.L.x.length ∧
      arr D = upd (arr s.D) index ((pairs size s.li s.lx).foldl (fun q e => q - e.2 * e.2 * arr s.D e.1)
        ((csc s.K).x ((csc s.K).p (index + 1) - 1))) ∧
      arr Dinv = upd (arr s.Dinv) index (1 / (pairs size s.li s.lx).foldl (fun q e => q - e.2 * e.2 * arr s.D e.1)
        ((csc s.K).x ((csc s.K).p (index + 1) - 1))) ∧
      factor t.L = (pairs size s.li s.lx).foldl (fun L e => Verif.Model.Factor.insertNonzeroAndValue N L index e.1 e.2) (factor s.L))
      (addMiddle (exact sqrt eps tol) N index size s) := by
  unfold addMiddle
  refine (rdA _ s.K.p (index + 1)).bind fun hi' hhi => ?_
  refine (rdI_last _ s.K.x hi').bind fun d0 hd0 => ?_
  refine (wrA _ s.D index d0).bind fun D0 hD0 => ?_
  refine Wp.bind (P := fun t => ∃ D, t = { s with D := D } ∧ D.length = s.D.length ∧ arr D = upd (arr s.D) index
    ((pairs size s.li s.lx).foldl (fun q e => q - e.2 * e.2 * arr s.D e.1) ((csc s.K).x ((csc s.K).p (index + 1) - 1)))) ?_ ?_
  · unfold pairs
    rw [List.foldl_map]
    refine each_wp (fun (t : St R) (q : R) => ∃ D, t = { s with D := D } ∧ D.length = s.D.length ∧ arr D = upd (arr s.D) index q)
      (g := fun q k => q - arr s.lx k * arr s.lx k * arr s.D (arr s.li k)) 0 size ⟨D0, rfl, hD0.2, ?_⟩ ?_
    · rw [hD0.1, hd0, hhi]; rfl
    rintro k - hk _ q ⟨D, rfl, hDl, hD⟩
    unfold addPivot
    refine (rdA _ s.lx k).bind fun v hv => ?_
    refine (rdA _ s.li k).bind fun i hii => ?_
    refine (rdA _ D i).bind fun di hdi => ?_
    refine (rdA _ D index).bind fun dd hdd => ?_
    refine (wrA _ D index _).bind fun D' hD' => Wp.pure ⟨D', rfl, hD'.2.trans hDl, ?_⟩
    have hlt : arr s.li k < index := (hL k hk).1
    rw [hD'.1, hdd, hdi, hii, hv, hD]
    funext z
    unfold upd
    by_cases hz : z = index
    · rw [if_pos hz, if_pos hz, if_pos rfl, if_neg (by omega)]; rfl
    · rw [if_neg hz, if_neg hz, if_neg hz]
  rintro _ ⟨D, rfl, hDl, hD⟩
  refine (rdA _ D index).bind fun dd hdd => ?_
  refine (wrA _ s.Dinv index _).bind fun Dinv hDinv => ?_
  refine (addRow_ref hp ((h.setD hDl).setDinv hDinv.2) (fun i => (index, i)) size
    (fun k hk => ⟨(hL k hk).2, by have := (hL k hk).1; show ix s.li k < N; omega⟩)).mono ?_
  rintro _ ⟨x, rfl, hx, he⟩
  refine ⟨D, Dinv, x, rfl, hx, hD, ?_, he⟩
  rw [hDinv.1, hdd, hD]
  simp [exact, upd]

theorem scan_wp (index j : Nat) : ∀ (ks : List Nat) (s : St R),
    Wp (fun t => ∃ l, t = { s with l := l } ∧ l.length = s.l.length ∧
      arr l = match Verif.Model.Factor.scanRow (csc s.K).i (csc s.K).x index ks with
        | some v => upd (arr s.l) (j - index - 1) v
        | none => arr s.l) (eachBreak (addL32init index j) ks s) := by
  intro ks
  induction ks with
  | nil => intro s; exact Wp.pure ⟨s.l, rfl, rfl, rfl⟩
  | cons k ks ih =>
    intro s
    unfold eachBreak Verif.Model.Factor.scanRow
    have key : Wp (fun t : St R × Bool => (index ≤ (csc s.K).i k ∧ t.2 = true ∧ ∃ l, t.1 = { s with l := l } ∧
        l.length = s.l.length ∧ arr l = if (csc s.K).i k = index then upd (arr s.l) (j - index - 1) ((csc s.K).x k)
          else arr s.l) ∨ (¬ index ≤ (csc s.K).i k ∧ t.2 = false ∧ t.1 = s))
        (addL32init index j s k) := by
      unfold addL32init
      refine (rdA _ s.K.i k).bind fun i hi => ?_
      have hi' : (csc s.K).i k = i := hi.symm
      rw [hi']
      by_cases h1 : index ≤ i
      · rw [if_pos h1]
        by_cases h2 : i = index
        · rw [if_pos h2, if_pos h2]
          refine (rdA _ s.K.x k).bind fun x hx => ?_
          refine (wrA _ s.l _ x).bind fun l hl => ?_
          refine Wp.pure (Or.inl ⟨h1, rfl, l, rfl, hl.2, ?_⟩)
          rw [hl.1, hx]
          rfl
        · rw [if_neg h2, if_neg h2]
          exact Wp.pure (Or.inl ⟨h1, rfl, s.l, rfl, rfl, rfl⟩)
      · rw [if_neg h1]
        exact Wp.pure (Or.inr ⟨h1, rfl, rfl⟩)
    refine key.bind fun t ht => ?_
    rcases ht with ⟨h1, h2, l, h3, h4, h5⟩ | ⟨h1, h2, h3⟩
    · rw [h2, if_pos h1]
      refine Wp.pure ⟨l, h3, h4, ?_⟩
      rw [h5]
      by_cases h6 : (csc s.K).i k = index
      · rw [if_pos h6, if_pos h6]
      · rw [if_neg h6, if_neg h6]
    · rw [h2, if_neg h1, h3]
      exact ih s

/-- Lines 271-301. -/
theorem addLower_wp (hp : Problem n N d) (h : Inv n N NP d s) {index size : Nat} (hi : index < N)
    (hL : Listed (fun q => q < index ∧ Has d.pL d.iL index q) size s.li) :
    Wp (fun t => ∃ l li lx, t.2 = { s with l := l, li := li, lx := lx } ∧
      arr l = Verif.Model.Factor.addL32 (factor s.L) (arr s.D) index (pairs size s.li s.lx)
        (Verif.Model.Factor.addL32init (csc s.K) N index) ∧
      pairs t.1 li lx = Verif.Model.Factor.sparsify (N - index - 1) (arr l) (fun _ => arr s.D index))
      (addLower (exact sqrt eps tol) N index size s) := by
  unfold addLower
  refine (fillAll_wp _ s.l N h.sz.l).bind fun l0 hl0 => ?_
  refine Wp.bind (P := fun t => ∃ l, t = { s with l := l } ∧ arr l = Verif.Model.Factor.addL32init (csc s.K) N index) ?_ ?_
  · refine each_wp (fun (t : St R) (f : Nat → R) => ∃ l, t = { s with l := l } ∧ arr l = f)
      (g := fun l j => match Verif.Model.Factor.scanRow (csc s.K).i (csc s.K).x index (loop ((csc s.K).p j) ((csc s.K).p (j + 1))) with
        | some v => upd l (j - index - 1) v
        | none => l) (index + 1) N ⟨l0, rfl, hl0.1⟩ ?_
    rintro j - - _ _ ⟨l, rfl, rfl⟩
    refine (rdA _ s.K.p j).bind fun lo hlo => ?_
    refine (rdA _ s.K.p (j + 1)).bind fun hi' hhi => ?_
    subst hlo hhi
    refine (scan_wp index j _ _).mono ?_
    rintro _ ⟨l', rfl, -, he⟩
    exact ⟨l', rfl, he⟩
  rintro _ ⟨l, rfl, hl⟩
  refine Wp.bind (P := fun t => ∃ l, t = { s with l := l } ∧ arr l = Verif.Model.Factor.addL32 (factor s.L) (arr s.D) index
    (pairs size s.li s.lx) (Verif.Model.Factor.addL32init (csc s.K) N index)) ?_ ?_
  · unfold pairs Verif.Model.Factor.addL32
    rw [List.foldl_map]
    refine each_wp (fun (t : St R) (f : Nat → R) => ∃ l, t = { s with l := l } ∧ arr l = f)
      (g := fun l r => (loop ((factor s.L).p (arr s.li r)) ((factor s.L).p (arr s.li r + 1))).foldl (fun l k =>
        if index < (factor s.L).i k then upd l ((factor s.L).i k - index - 1) (l ((factor s.L).i k - index - 1) -
          (factor s.L).x k * arr s.lx r * arr s.D (arr s.li r)) else l) l) 0 size ⟨l, rfl, hl⟩ ?_
    rintro r - hr _ _ ⟨l, rfl, rfl⟩
    unfold addL32
    refine (rdA _ s.li r).bind fun b hb => ?_
    refine (rdA _ s.L.p b).bind fun lo hlo => ?_
    refine (rdA _ s.L.p (b + 1)).bind fun hi' hhi => ?_
    subst hlo hhi hb
    have hlt : arr s.li r < index := (hL r hr).1
    have hle : (factor s.L).p (arr s.li r + 1) ≤ s.L.nnz := Inv.col_le hp h (c := arr s.li r + 1) (by omega)
    refine each_wp (fun (t : St R) (f : Nat → R) => ∃ l, t = { s with l := l } ∧ arr l = f) _ _ ⟨l, rfl, rfl⟩ ?_
    rintro k - hk _ _ ⟨l, rfl, rfl⟩
    unfold addL32entry
    refine (rdT _ s.L.i s.L.nnz k (by omega)).bind fun i hi => ?_
    have hi' : (factor s.L).i k = i := hi.symm
    rw [hi']
    by_cases h1 : index < i
    · rw [if_pos h1, if_pos h1]
      refine (rdT _ s.L.x s.L.nnz k (by omega)).bind fun x hx => ?_
      refine (rdA _ s.lx r).bind fun v hv => ?_
      refine (rdA _ s.li r).bind fun b hb => ?_
      refine (rdA _ s.D b).bind fun dd hdd => ?_
      refine (rdA _ l _).bind fun o ho => ?_
      refine (wrA _ l _ _).bind fun l' hl' => Wp.pure ⟨l', rfl, ?_⟩
      rw [hl'.1, ho, hdd, hb, hv, hx]
      rfl
    · rw [if_neg h1, if_neg h1]
      exact Wp.pure ⟨l, rfl, rfl⟩
  rintro _ ⟨l, rfl, hl⟩
  refine (sparsify_wp (fun _ => index) (N - index - 1) _).mono ?_
  rintro t ⟨li, lx, h1, h2⟩
  exact ⟨l, li, lx, h1, hl, h2⟩

theorem finite_exact : Finite (exact sqrt eps tol : Flops R) := by
  refine ⟨decide_eq_true rfl, fun a b hb => ?_, fun a b ha hb => ?_, fun a b ha hb => ?_⟩
  · have hb : b = 0 := of_decide_eq_true hb
    exact decide_eq_true (show a * b = 0 by rw [hb, mul_zero])
  · have ha : a = 0 := of_decide_eq_true ha
    have hb : b = 0 := of_decide_eq_true hb
    exact decide_eq_true (show a + b = 0 by rw [ha, hb, add_zero])
  · have ha : a = 0 := of_decide_eq_true ha
    have hb : b = 0 := of_decide_eq_true hb
    exact decide_eq_true (show a - b = 0 by rw [ha, hb, sub_zero])

/-- Replacing what `cpg_ldl_add` writes. -/
def adds (s : St R) (c l : List R) (li : List Nat) (lx w : List R) (wi : List Nat) (x D Dinv : List R) : St R :=
  { s with c := c, l := l, li := li, lx := lx, w := w, wi := wi, L := { s.L with x := x }, D := D, Dinv := Dinv }

theorem ldlAdd_ref (hp : Problem n N d) (h : Inv n N NP d s) {index : Nat} (hn : n ≤ index) (hi : index < N) :
    Ok (fun t => Inv n N NP d t ∧ (∃ c l li lx w wi x D Dinv, t = adds s c l li lx w wi x D Dinv) ∧
      ws t = Verif.Model.Factor.ldlAdd sqrt N (csc s.K) index (ws s)) (ldlAdd (exact sqrt eps tol) N index s) := by
  refine (ldlAdd_ok finite_exact hp h hn hi).and ?_
  unfold ldlAdd
  refine ((addUpper_ok finite_exact hp h hi).and (addUpper_wp hp h hi)).wp.bind ?_
  rintro ⟨size, t⟩ ⟨⟨hI1, hsz1, hL1⟩, c, l, li, lx, ht, hl, hls⟩
  simp only at hI1 hsz1 hL1 ht hls
  refine ((addMiddle_ok (exact sqrt eps tol) hp hI1 hn hi hsz1 hL1).and (addMiddle_wp hp hI1 hi hL1)).wp.bind ?_
  rintro u ⟨⟨hI2, hli2⟩, D, Dinv, x, hu, hxl, hD, hDinv, hL⟩
  have hL2 : Listed (fun q => q < index ∧ Has d.pL d.iL index q) size u.li := by rw [hli2]; exact hL1
  refine ((addLower_ok finite_exact hp hI2 hi hsz1 hL2).and (addLower_wp hp hI2 hi hL2)).wp.bind ?_
  rintro ⟨size2, v⟩ ⟨⟨hI3, hsz3, hL3⟩, l2, li2, lx2, hv, hl2, hls2⟩
  simp only at hI3 hsz3 hL3 hv hls2
  have hL3' : Listed (fun q => Has d.pL d.iL (q + index + 1) index ∧ index < N) size2 v.li := fun k hk => ⟨(hL3 k hk).2, hi⟩
  refine ((addRow_ok hp hI3 (fun i => (i + index + 1, index)) size2 (by omega) hL3').and
    (addRow_ref hp hI3 (fun i => (i + index + 1, index)) size2 hL3')).wp.bind ?_
  rintro y ⟨⟨hI4, hli4⟩, x2, hy, hx2, hL4⟩
  refine (fillAll_wp _ y.w N hI4.sz.w).bind fun w0 hw0 => ?_
  refine Wp.bind (P := fun z => ∃ w wi, z = { y with w := w, wi := wi } ∧ w.length = N ∧ wi.length = N ∧ arr w =
    (pairs size2 v.li v.lx).foldl (fun w e => upd w (index + 1 + e.1) (e.2 * sqrt (- arr y.D index))) (fun _ => 0)) ?_ ?_
  · unfold pairs
    rw [List.foldl_map]
    refine each_wp (fun (z : St R) (f : Nat → R) => ∃ w wi, z = { y with w := w, wi := wi } ∧ w.length = N ∧ wi.length = N ∧ arr w = f)
      (g := fun w k => upd w (index + 1 + arr v.li k) (arr v.lx k * sqrt (- arr y.D index))) 0 size2
      ⟨w0, y.wi, rfl, hw0.2, hI4.sz.wi, hw0.1⟩ ?_
    rintro k - hk _ _ ⟨w, wi, rfl, hwl, hwil, rfl⟩
    unfold addW
    refine (rdA _ y.li k).bind fun b hb => ?_
    refine (wrA _ wi k b).bind fun wi' hwi' => ?_
    refine (rdA _ y.lx k).bind fun vv hvv => ?_
    refine (rdA _ y.D index).bind fun dd hdd => ?_
    refine (rdA _ wi' k).bind fun q hq => ?_
    refine (wrA _ w _ _).bind fun w' hw' => Wp.pure ⟨w', wi', rfl, hw'.2.trans hwl, hwi'.2.trans hwil, ?_⟩
    have hq' : q = arr v.li k := by
      rw [hq, hwi'.1, hb, hli4]
      exact if_pos rfl
    rw [hw'.1, hq', hvv, hdd, hy]
    rfl
  rintro _ ⟨w, wi, rfl, hwl, hwil, hw⟩
  refine (rank1_ref hp _ _ ((hI4.setW (hwl.trans hI4.sz.w.symm)).setWi (hwil.trans hI4.sz.wi.symm))).wp.mono ?_
  rintro z ⟨-, ⟨w5, x5, D5, Dinv5, hz⟩, hws⟩
  constructor
  · rw [hz, hy, hv, hu, ht]
    exact ⟨_, _, _, _, _, _, _, _, _, rfl⟩
  · rw [hws]
    subst hy hv hu ht
    unfold Verif.Model.Factor.ldlAdd
    have e1 : Verif.Model.Factor.addFwd (ws s).S.L (Verif.Model.Factor.addC (csc s.K) index) index (ws s).l = arr l := hl.symm
    have e2 : Verif.Model.Factor.sparsify index (arr l) (ws s).D = pairs size li lx := hls.symm
    have e3 : upd (ws s).D index (List.foldl (fun d e => d - e.2 * e.2 * (ws s).D e.1) ((csc s.K).x ((csc s.K).p (index + 1) - 1))
      (pairs size li lx)) = arr D := hD.symm
    have e4 : upd (ws s).Dinv index (1 / List.foldl (fun d e => d - e.2 * e.2 * (ws s).D e.1)
      ((csc s.K).x ((csc s.K).p (index + 1) - 1)) (pairs size li lx)) = arr Dinv := hDinv.symm
    have e5 : List.foldl (fun L e => Verif.Model.Factor.insertNonzeroAndValue N L index e.1 e.2) (ws s).S.L (pairs size li lx) =
      factor { s.L with x := x } := hL.symm
    have e6 : Verif.Model.Factor.addL32 (factor { s.L with x := x }) (arr D) index (pairs size li lx)
      (Verif.Model.Factor.addL32init (csc s.K) N index) = arr l2 := hl2.symm
    have e7 : Verif.Model.Factor.sparsify (N - index - 1) (arr l2) (fun _ => arr D index) = pairs size2 li2 lx2 := hls2.symm
    have e8 : List.foldl (fun L e => Verif.Model.Factor.insertNonzeroAndValue N L (e.1 + index + 1) index e.2)
      (factor { s.L with x := x }) (pairs size2 li2 lx2) = factor { s.L with x := x2 } := hL4.symm
    have e9 : (pairs size2 li2 lx2).foldl (fun w e => upd w (index + 1 + e.1) (e.2 * sqrt (- arr D index))) (fun _ => 0) = arr w :=
      hw.symm
    simp only [e1, e2, e3, e4, e5, e6, e7, e8, e9]
    rfl

end Verif.Lemmas.GradRef
