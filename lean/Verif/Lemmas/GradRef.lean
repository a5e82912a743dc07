import Verif.Spec.GradRef
import Verif.Lemmas.GradMemG
/-!
Lemmas for C94: a loop over arrays computes what the same loop over index functions computes.
-/
namespace Verif.Lemmas.GradRef
open Verif.Model.GradMem Verif.Spec.GradMem Verif.Lemmas.GradMem Verif.Spec.GradRef
open Verif.Model.Factor (upd loop)

variable {α σ τ : Type}

/-- If the computation succeeds, its result has the property. -/
def Wp (Q : σ → Prop) (m : Mem σ) : Prop := ∀ s, m = .ok s → Q s

theorem Wp.pure {Q : σ → Prop} {s : σ} (h : Q s) : Wp Q (.ok s : Mem σ) := by
  intro t ht; cases ht; exact h

theorem Wp.error {Q : σ → Prop} (e : Arr × Int) : Wp Q (.error e : Mem σ) := by
  intro t ht; cases ht

theorem Wp.bind {P : σ → Prop} {Q : τ → Prop} {m : Mem σ} {f : σ → Mem τ} (h : Wp P m) (hf : ∀ s, P s → Wp Q (f s)) :
    Wp Q (m >>= f) := by
  intro t ht
  cases hm : m with
  | error e => rw [hm] at ht; cases ht
  | ok s => rw [hm] at ht; exact hf s (h s hm) t ht

theorem Wp.mono {P Q : σ → Prop} {m : Mem σ} (h : Wp P m) (hf : ∀ s, P s → Q s) : Wp Q m := fun s hs => hf s (h s hs)

/-- A run that succeeds has the properties of runs that succeed. -/
theorem _root_.Verif.Lemmas.GradMem.Ok.and {P Q : σ → Prop} {m : Mem σ} (h : Ok P m) (hw : Wp Q m) : Ok (fun s => P s ∧ Q s) m := by
  obtain ⟨s, hs, h⟩ := h
  exact ⟨s, hs, h, hw s hs⟩

theorem _root_.Verif.Lemmas.GradMem.Ok.wp {P : σ → Prop} {m : Mem σ} (h : Ok P m) : Wp P m := by
  obtain ⟨s, hs, h⟩ := h
  intro t ht
  rw [hs] at ht; cases ht; exact h

theorem rd_wp (n : Arr) (v : List α) (k : Nat) : Wp (fun x => k < v.length ∧ ∀ d, x = v.getD k d) (rd n v k) := by
  intro x hx
  unfold rd at hx
  cases hv : v[k]? with
  | none => rw [hv] at hx; cases hx
  | some y =>
    rw [hv] at hx
    cases hx
    refine ⟨(List.getElem?_eq_some_iff.1 hv).1, fun d => ?_⟩
    rw [List.getD_eq_getElem?_getD, hv]; rfl

theorem rdA [Zero α] (n : Arr) (v : List α) (k : Nat) : Wp (fun x => x = arr v k) (rd n v k) :=
  (rd_wp n v k).mono fun _ h => h.2 0

theorem wr_wp (n : Arr) (v : List α) (k : Nat) (x : α) : Wp (fun v' => k < v.length ∧ v' = v.set k x) (wr n v k x) := by
  intro v' hv
  unfold wr at hv
  by_cases h : k < v.length
  · rw [if_pos h] at hv; cases hv; exact ⟨h, rfl⟩
  · rw [if_neg h] at hv; cases hv

/-! ### loops -/

theorem foldlM_wp {f : σ → Nat → Mem σ} {g : τ → Nat → τ} (Rel : σ → τ → Prop) : ∀ (ks : List Nat) (s : σ) (t : τ), Rel s t →
    (∀ k ∈ ks, ∀ s t, Rel s t → Wp (fun s' => Rel s' (g t k)) (f s k)) → Wp (fun s' => Rel s' (ks.foldl g t)) (ks.foldlM f s) := by
  intro ks
  induction ks with
  | nil => intro s t h _; exact Wp.pure h
  | cons k ks ih =>
    intro s t h hf
    exact (hf k List.mem_cons_self s t h).bind fun s' hs' => ih s' _ hs' fun k' hk' => hf k' (List.mem_cons_of_mem _ hk')

theorem each_wp {f : σ → Nat → Mem σ} {g : τ → Nat → τ} (Rel : σ → τ → Prop) (a b : Nat) {s : σ} {t : τ} (h : Rel s t)
    (hf : ∀ k, a ≤ k → k < b → ∀ s t, Rel s t → Wp (fun s' => Rel s' (g t k)) (f s k)) :
    Wp (fun s' => Rel s' ((loop a b).foldl g t)) (each a b s f) := by
  refine foldlM_wp Rel _ s t h fun k hk => ?_
  have hk := List.mem_range'_1.1 hk
  exact hf k hk.1 (by omega)

theorem count_wp {f : σ → Nat → Mem σ} (I : Nat → σ → Prop) (a b : Nat) (hab : a ≤ b) {s : σ} (hs : I a s)
    (hf : ∀ k, a ≤ k → k < b → ∀ s, I k s → Wp (I (k + 1)) (f s k)) : Wp (I b) (each a b s f) := by
  unfold each
  obtain ⟨m, rfl⟩ : ∃ m, b = a + m := ⟨b - a, by omega⟩
  rw [show a + m - a = m by omega]
  induction m generalizing a s with
  | zero => exact Wp.pure hs
  | succ m ih =>
    rw [List.range'_succ, List.foldlM_cons]
    refine (hf a (le_refl _) (by omega) s hs).bind fun s' hs' => ?_
    have := ih (a + 1) hs' (by omega) fun k h1 h2 => hf k (by omega) (by omega)
    rwa [show a + 1 + m = a + (m + 1) by omega] at this

/-! ### arrays -/

variable [Zero α]

theorem arr_set (v : List α) (k : Nat) (x : α) (hk : k < v.length) : arr (v.set k x) = upd (arr v) k x := by
  funext q
  show (v.set k x).getD q 0 = if q = k then x else v.getD q 0
  rw [List.getD_eq_getElem?_getD, List.getD_eq_getElem?_getD, List.getElem?_set]
  by_cases h : q = k
  · rw [if_pos h, if_pos h.symm, if_pos hk]; rfl
  · rw [if_neg h, if_neg (fun e => h e.symm)]

theorem arr_take (v : List α) {m k : Nat} (h : k < m) : arr (v.take m) k = arr v k := by
  unfold arr
  rw [List.getD_eq_getElem?_getD, List.getD_eq_getElem?_getD, List.getElem?_take, if_pos h]

theorem arr_take_set (v : List α) (k m : Nat) (x : α) (hk : k < v.length) (hm : k < m) :
    arr ((v.set k x).take m) = upd (arr (v.take m)) k x := by
  rw [List.take_set, arr_set]
  rw [List.length_take]; omega

theorem arr_out (v : List α) {k : Nat} (h : v.length ≤ k) : arr v k = 0 := by
  unfold arr
  rw [List.getD_eq_getElem?_getD, List.getElem?_eq_none h]; rfl

theorem wrA (n : Arr) (v : List α) (k : Nat) (x : α) :
    Wp (fun v' => arr v' = upd (arr v) k x ∧ v'.length = v.length) (wr n v k x) :=
  (wr_wp n v k x).mono fun _ h => ⟨by rw [h.2]; exact arr_set v k x h.1, by rw [h.2, List.length_set]⟩

/-- Writing among the entries in use. -/
theorem wrT (n : Arr) (v : List α) (m k : Nat) (x : α) (hm : k < m) :
    Wp (fun v' => arr (v'.take m) = upd (arr (v.take m)) k x ∧ v'.length = v.length) (wr n v k x) :=
  (wr_wp n v k x).mono fun _ h => ⟨by rw [h.2]; exact arr_take_set v k m x h.1 hm, by rw [h.2, List.length_set]⟩

/-- Reading among the entries in use. -/
theorem rdT (n : Arr) (v : List α) (m k : Nat) (hm : k < m) : Wp (fun x => x = arr (v.take m) k) (rd n v k) :=
  (rdA n v k).mono fun _ h => by rw [h, arr_take v hm]

theorem fill_wp (n : Arr) (a b : Nat) (x : α) (v : List α) :
    Wp (fun v' => arr v' = (loop a b).foldl (fun f k => upd f k x) (arr v) ∧ v'.length = v.length) (fillWith n a b x v) := by
  unfold fillWith
  refine (each_wp (fun (v' : List α) (f : Nat → α) => arr v' = f ∧ v'.length = v.length) (g := fun f k => upd f k x) a b
    (t := arr v) ⟨rfl, rfl⟩ fun k _ _ s t h => ?_).mono fun v' h => h
  exact (wrA n s k x).mono fun v' hv => ⟨by rw [hv.1, h.1], hv.2.trans h.2⟩

theorem fillFold (a m : Nat) (x : α) (f : Nat → α) :
    (List.range' a m).foldl (fun f k => upd f k x) f = fun k => if a ≤ k ∧ k < a + m then x else f k := by
  induction m generalizing a f with
  | zero => funext k; rw [if_neg (by omega)]; rfl
  | succ m ih =>
    rw [List.range'_succ, List.foldl_cons, ih]
    funext k
    unfold upd
    by_cases h : k = a
    · rw [if_neg (by omega), if_pos h, if_pos (by omega)]
    · rw [if_neg h]
      by_cases h2 : a + 1 ≤ k ∧ k < a + 1 + m
      · rw [if_pos h2, if_pos (by omega)]
      · rw [if_neg h2, if_neg (by omega)]

/-- Filling a whole array. -/
theorem fillAll_wp (n : Arr) (v : List α) (N : Nat) (h : v.length = N) :
    Wp (fun v' => arr v' = (fun _ => 0) ∧ v'.length = N) (fillWith n 0 N 0 v) := by
  refine (fill_wp n 0 N 0 v).mono fun v' hv => ⟨?_, hv.2.trans h⟩
  rw [hv.1]
  unfold loop
  rw [fillFold]
  funext k
  by_cases hk : k < N
  · exact if_pos (by omega)
  · rw [if_neg (by omega)]
    exact arr_out v (by omega)

/-! ### the factor -/

variable {R : Type} [Field R] [DecidableEq R] [LT R] [DecidableRel (fun x y : R => x < y)] {sqrt : R → R} {eps tol : R}
  {n N NP : Nat} {d : Patterns} {s : St R}

theorem bsearch_wp (i : List Nat) (m row : Nat) : ∀ (f start stop : Nat), stop - start ≤ f → stop ≤ m →
    Wp (fun r => r = Verif.Model.Factor.bsearch (arr (i.take m)) row start stop) (bsearch i row f start stop) := by
  intro f
  induction f with
  | zero =>
    intro start stop hf _
    refine Wp.pure ?_
    unfold Verif.Model.Factor.bsearch
    rw [if_neg (by omega)]
  | succ f ih =>
    intro start stop hf hm
    unfold bsearch Verif.Model.Factor.bsearch
    by_cases h : start < stop
    · rw [if_pos h, if_pos h]
      refine (rdT _ i m _ (by omega)).bind fun v hv => ?_
      dsimp only
      rw [← hv]
      split
      · exact Wp.pure rfl
      · split
        · exact ih _ _ (by omega) hm
        · exact ih _ _ (by omega) (by omega)
    · rw [if_neg h, if_neg h]
      exact Wp.pure rfl

theorem Inv.col_le (hp : Problem n N d) (h : Inv n N NP d s) {c : Nat} (hc : c ≤ N) : arr s.L.p c ≤ s.L.nnz := by
  rw [h.nnz, h.Lp]
  exact hp.sym.lines.le hc

/-- Inserting a value at a stored position. -/
theorem insertValue_ref (hp : Problem n N d) (h : Inv n N NP d s) {row col : Nat} (hr : Has d.pL d.iL row col) (hc : col < N) (v : R) :
    Ok (fun L => (∃ x, x.length = s.L.x.length ∧ L = { s.L with x := x }) ∧
      factor L = Verif.Model.Factor.insertNonzeroAndValue N (factor s.L) row col v) (insertValue N s.L row col v) := by
  refine (insertValue_ok hp h hr hc v).and ?_
  unfold insertValue insertWith Verif.Model.Factor.insertNonzeroAndValue
  split
  · exact Wp.pure rfl
  · refine (rdA _ s.L.p col).bind fun lo hlo => ?_
    refine (rdA _ s.L.p (col + 1)).bind fun hi hhi => ?_
    subst hlo hhi
    have hle := Inv.col_le hp h (c := col + 1) hc
    refine Wp.bind (P := fun r => ∃ m, r = .inl m ∧ r = Verif.Model.Factor.bsearch (factor s.L).i row ((factor s.L).p col)
      ((factor s.L).p (col + 1)) ∧ m < s.L.nnz) ?_ ?_
    · have h1 := rd_Lp hp h (c := col) (by omega)
      have h2 := rd_Lp hp h (c := col + 1) hc
      have e1 : arr s.L.p col = ix d.pL col := by rw [h.Lp]; rfl
      have e2 : arr s.L.p (col + 1) = ix d.pL (col + 1) := by rw [h.Lp]; rfl
      have hb := bsearch_ok hp (fun k hk => h.ix_eq hk) (by rw [h.sz.Li]; exact h.iL_le) hc _ _ _ (le_refl _) (le_refl _) (le_refl _) hr
      rw [← e1, ← e2] at hb
      refine ((hb.and (bsearch_wp s.L.i s.L.nnz row _ _ _ (le_refl _) hle)).wp).mono fun r hr => ?_
      obtain ⟨⟨m, h1, h2⟩, h3⟩ := hr
      exact ⟨m, h1, h3, by omega⟩
    · rintro r ⟨m, rfl, hb, hm⟩
      rw [← hb]
      refine (wrT _ s.L.x s.L.nnz m v hm).bind fun x hx => Wp.pure ?_
      unfold factor
      dsimp only
      rw [hx.1]

/-- The search finds a stored position. -/
theorem search_found (hp : Problem n N d) (h : Inv n N NP d s) {row col : Nat} (hr : Has d.pL d.iL row col) (hc : col < N) :
    ∃ m, Verif.Model.Factor.bsearch (factor s.L).i row ((factor s.L).p col) ((factor s.L).p (col + 1)) = .inl m := by
  have e1 : arr s.L.p col = ix d.pL col := by rw [h.Lp]; rfl
  have e2 : arr s.L.p (col + 1) = ix d.pL (col + 1) := by rw [h.Lp]; rfl
  have hb := bsearch_ok hp (fun k hk => h.ix_eq hk) (by rw [h.sz.Li]; exact h.iL_le) hc _ _ _ (le_refl _) (le_refl _) (le_refl _) hr
  rw [← e1, ← e2] at hb
  obtain ⟨r, h1, ⟨m, h2, -⟩, h3⟩ := hb.and (bsearch_wp s.L.i s.L.nnz row _ _ _ (le_refl _) (Inv.col_le hp h (c := col + 1) hc))
  exact ⟨m, h3.symm.trans h2⟩

/-- Inserting a stored position changes nothing. -/
theorem insert_same (hp : Problem n N d) (h : Inv n N NP d s) {row col : Nat} (hr : Has d.pL d.iL row col) (hc : col < N) :
    Verif.Model.Factor.insertNonzero N (factor s.L) row col = factor s.L := by
  unfold Verif.Model.Factor.insertNonzero
  split
  · rfl
  · obtain ⟨m, hm⟩ := search_found hp h hr hc
    rw [hm]

theorem rdI_wp (n : Arr) (v : List Bool) (q : Int) : Wp (fun x => x = marks v q) (rdI n v q) := by
  unfold rdI marks
  by_cases h : 0 ≤ q
  · rw [if_pos h, if_pos h]
    exact (rd_wp n v _).mono fun x hx => hx.2 false
  · rw [if_neg h, if_neg h]
    exact Wp.error _

theorem wrI_wp (n : Arr) (v : List Bool) (q : Int) :
    Wp (fun v' => marks v' = fun k => if k = q then true else marks v k) (wrI n v q true) := by
  unfold wrI
  by_cases h : 0 ≤ q
  · rw [if_pos h]
    refine (wr_wp n v _ true).mono fun v' hv => ?_
    rw [hv.2]
    funext k
    show (if 0 ≤ k then (v.set q.toNat true).getD k.toNat false else false) = if k = q then true else
      if 0 ≤ k then v.getD k.toNat false else false
    by_cases hk : 0 ≤ k
    · rw [if_pos hk, if_pos hk, List.getD_eq_getElem?_getD, List.getD_eq_getElem?_getD, List.getElem?_set]
      by_cases e : k = q
      · rw [if_pos (by rw [e]), if_pos hv.1, if_pos e]; rfl
      · rw [if_neg (by omega), if_neg e]
    · rw [if_neg hk, if_neg hk, if_neg (by omega)]
  · rw [if_neg h]
    exact Wp.error _

/-- Part of an index array. -/
def part (size : Nat) (v : List Nat) : List Nat := (loop 0 size).map (arr v)

theorem part_drop (size k : Nat) (v : List Nat) : (part size v).drop k = (loop k size).map (arr v) := by
  unfold part loop
  rw [← List.map_drop, List.drop_range']
  simp

theorem symbolic_cons (offset k : Nat) (rest : List Nat) (S : Verif.Model.Factor.MaskedL R) :
    Verif.Model.Factor.symbolicUpdate N offset (k :: rest) S = Verif.Model.Factor.symbolicUpdate N offset rest
      (rest.foldl (fun S r => Verif.Model.Factor.symStep N S (r + offset) (k + offset)) S) := rfl

theorem symbolic_ref (F : Flops R) (hp : Problem n N d) (h : Inv n N NP d s) {index size : Nat} (hi : index < N)
    (hw : WiOK N d index size s.wi) :
    Ok (fun t => Inv n N NP d t ∧ (∃ mk, t = { s with mask := mk }) ∧
      Verif.Model.Factor.symbolicUpdate N (index + 1) (part size s.wi) (ws s).S = (ws t).S)
      (symbolicUpdate F N size (index + 1) s) := by
  refine (symbolicUpdate_ok F hp h hi hw).and ?_
  unfold symbolicUpdate
  refine (count_wp (fun k t => (∃ mk, t = { s with mask := mk }) ∧
    Verif.Model.Factor.symbolicUpdate N (index + 1) (part size s.wi) (ws s).S =
    Verif.Model.Factor.symbolicUpdate N (index + 1) ((loop k size).map (arr s.wi)) (ws t).S) 0 size (Nat.zero_le _) ⟨⟨s.mask, rfl⟩, rfl⟩ ?_).mono ?_
  · rintro k - hk _ ⟨⟨mk, rfl⟩, he⟩
    refine (rdA _ s.wi k).bind fun ck hck => ?_
    have hl : loop k size = k :: loop (k + 1) size := by
      unfold loop
      rw [show size - k = (size - (k + 1)) + 1 by omega, List.range'_succ]
    rw [hl, List.map_cons] at he
    rw [symbolic_cons, List.foldl_map] at he
    refine (each_wp (fun (t : St R) (S : Verif.Model.Factor.MaskedL R) => (∃ mk, t = { s with mask := mk }) ∧ (ws t).S = S)
      (g := fun S j => Verif.Model.Factor.symStep N S (arr s.wi j + (index + 1)) (arr s.wi k + (index + 1))) (k + 1) size
      ⟨⟨mk, rfl⟩, rfl⟩ ?_).mono ?_
    · rintro j hj1 hj2 _ _ ⟨⟨mk, rfl⟩, rfl⟩
      refine (rdA _ s.wi j).bind fun cj hcj => ?_
      refine (rdI_wp _ mk _).bind fun m hm => ?_
      subst hck hcj
      unfold Verif.Model.Factor.symStep
      have hmm : (ws { s with mask := mk }).S.mask (Verif.Model.Factor.maskIndex N ((arr s.wi j + (index + 1) : Nat) : Int)
        ((arr s.wi k + (index + 1) : Nat) : Int)) = m := hm.symm
      dsimp only
      rw [hmm]
      cases m with
      | true => exact Wp.pure ⟨⟨mk, rfl⟩, rfl⟩
      | false =>
        refine (wrI_wp _ mk _).bind fun mk' hmk => ?_
        have hcl := hp.sym.closed index _ _ hi (show index + 1 + ix s.wi k < index + 1 + ix s.wi j by
          have := hw.mono k j (by omega) hj2; omega) (hw.col k (by omega)) (hw.col j hj2)
        rw [Nat.add_comm (index + 1), Nat.add_comm (index + 1)] at hcl
        have hlt := hw.lt k (by omega)
        refine (insertNonzero_ok F hp h hcl (by omega)).wp.bind fun L hL => ?_
        subst hL
        refine Wp.pure ⟨⟨mk', rfl⟩, ?_⟩
        have := insert_same hp h hcl (by omega)
        show Verif.Model.Factor.MaskedL.mk (factor s.L) (marks mk') = ⟨Verif.Model.Factor.insertNonzero N (factor s.L) _ _, _⟩
        rw [hmk]
        exact congrArg (fun L => Verif.Model.Factor.MaskedL.mk L _) this.symm
    · rintro t ⟨⟨mk, rfl⟩, ht⟩
      refine ⟨⟨mk, rfl⟩, ?_⟩
      rw [he, ht]
  · rintro t ⟨h1, h2⟩
    refine ⟨h1, ?_⟩
    rw [h2]
    have : loop size size = [] := by unfold loop; rw [Nat.sub_self]; rfl
    rw [this]
    rfl

/-! ### rank-1 update -/

/-- Replacing what `cpg_rank_1_update` writes. -/
def r1 (s : St R) (w x D Dinv : List R) : St R := { s with w := w, L := { s.L with x := x }, D := D, Dinv := Dinv }

theorem rank1_ref (hp : Problem n N d) (sigma : R) (offset : Nat) (h : Inv n N NP d s) :
    Ok (fun t => Inv n N NP d t ∧ (∃ w x D Dinv, t = r1 s w x D Dinv) ∧
      ws t = Verif.Model.Factor.rank1 N sigma offset (ws s)) (rank1 (exact sqrt eps tol) N sigma offset s) := by
  refine (rank1_ok _ hp sigma offset h).and ?_
  unfold rank1
  refine Wp.bind (P := fun t => ∃ w x D Dinv, t.2 = r1 s w x D Dinv ∧
    Verif.Model.Factor.R1.mk t.1 (arr w) (arr (x.take s.L.nnz)) (arr D) (arr Dinv) =
    (loop offset N).foldl (Verif.Model.Factor.rank1Step (ws s).S.L sigma)
      { a := 1, w := (ws s).w, x := (ws s).S.L.x, D := (ws s).D, Dinv := (ws s).Dinv }) ?_ ?_
  · refine each_wp (fun (t : R × St R) (q : Verif.Model.Factor.R1 R) => ∃ w x D Dinv, t.2 = r1 s w x D Dinv ∧
      Verif.Model.Factor.R1.mk t.1 (arr w) (arr (x.take s.L.nnz)) (arr D) (arr Dinv) = q) offset N
      ⟨s.w, s.L.x, s.D, s.Dinv, rfl, rfl⟩ ?_
    rintro j hj1 hj2 ⟨a, _⟩ _ ⟨w, x, D, Dinv, rfl, rfl⟩
    unfold rank1Col
    refine (rdA _ w j).bind fun wj hwj => ?_
    refine (rdA _ D j).bind fun dj hdj => ?_
    refine (wrA _ D j _).bind fun D' hD' => ?_
    refine (rdA _ D' j).bind fun dj' hdj' => ?_
    refine (wrA _ Dinv j _).bind fun Dinv' hDinv' => ?_
    refine (rdA _ s.L.p j).bind fun lo hlo => ?_
    refine (rdA _ s.L.p (j + 1)).bind fun hi hhi => ?_
    subst hlo hhi hwj hdj hdj'
    have hle := Inv.col_le hp h (c := j + 1) (by omega)
    refine Wp.bind (P := fun t => ∃ w' x', t = r1 s w' x' D' Dinv' ∧ (arr w', arr (x'.take s.L.nnz)) =
      (loop (arr s.L.p j) (arr s.L.p (j + 1))).foldl (Verif.Model.Factor.rank1Entry (factor s.L).i j
        (sigma * (arr w j / (arr D j * (a + sigma * arr w j * arr w j / arr D j))))) (arr w, arr (x.take s.L.nnz))) ?_ ?_
    · refine each_wp (fun (t : St R) (q : (Nat → R) × (Nat → R)) => ∃ w' x', t = r1 s w' x' D' Dinv' ∧
        (arr w', arr (x'.take s.L.nnz)) = q) _ _ ⟨w, x, rfl, rfl⟩ ?_
      rintro k hk1 hk2 _ _ ⟨w', x', rfl, rfl⟩
      unfold rank1Entry Verif.Model.Factor.rank1Entry
      refine (rdT _ s.L.i s.L.nnz k (by omega)).bind fun i hi => ?_
      have hi' : (factor s.L).i k = i := hi.symm
      rw [hi']
      by_cases hji : j < i
      · rw [if_pos hji, if_pos hji]
        refine (rdA _ w' i).bind fun wi hwi => ?_
        refine (rdA _ w' j).bind fun wj hwj => ?_
        refine (rdT _ x' s.L.nnz k (by omega)).bind fun xk hxk => ?_
        refine (wrA _ w' i _).bind fun w2 hw2 => ?_
        refine (wrT _ x' s.L.nnz k _ (by omega)).bind fun x2 hx2 => ?_
        refine Wp.pure ⟨w2, x2, rfl, ?_⟩
        rw [hw2.1, hx2.1, hwi, hwj, hxk]
        simp [exact, upd]
      · rw [if_neg hji, if_neg hji]
        exact Wp.pure ⟨w', x', rfl, rfl⟩
    · rintro _ ⟨w', x', rfl, he⟩
      refine Wp.pure ⟨w', x', D', Dinv', rfl, ?_⟩
      unfold Verif.Model.Factor.rank1Step
      have e2 : (ws s).S.L.p = arr s.L.p := rfl
      have e3 : (ws s).S.L.i = (factor s.L).i := rfl
      simp only [e2, e3]
      rw [← he, hDinv'.1, hD'.1]
      simp [exact, upd]
  · rintro ⟨a, _⟩ ⟨w, x, D, Dinv, rfl, he⟩
    refine Wp.pure ⟨⟨w, x, D, Dinv, rfl⟩, ?_⟩
    unfold Verif.Model.Factor.rank1
    dsimp only
    rw [← he]
    rfl

end Verif.Lemmas.GradRef
