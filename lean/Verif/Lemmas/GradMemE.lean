import Verif.Lemmas.GradMemD
/-!
Checked runs with arbitrary arithmetic: entries may be inserted into the factor, which stays a valid matrix.
-/
namespace Verif.Lemmas.GradMem
open Verif.Model.GradMem Verif.Spec.GradMem
open Verif.Model.Factor (reserved maskSize maskIndex CscL upd)
open Verif.Spec.Factor (Valid)

variable {R : Type} {n N NP : Nat} {d : Patterns} {s : St R} {F : Flops R}

/-- The stored positions of a compressed matrix. -/
def shape (L : Csc R) : CscL Unit := { p := ix L.p, i := ix L.i, x := fun _ => (), nnz := L.nnz }

instance : Zero Unit := ⟨()⟩

theorem ix_set_upd (v : List Nat) (k x : Nat) (hk : k < v.length) : ix (v.set k x) = upd (ix v) k x := by
  funext q
  rw [ix_set v k q x hk]
  rfl

/-- The state during the computation: sizes and a valid factor. -/
structure Inw (n N NP : Nat) (d : Patterns) (s : St R) : Prop where
  sz : Sizes n N NP d s
  val : Valid N (shape s.L)

theorem Inw.le (h : Inw n N NP d s) {c : Nat} (hc : c ≤ N) : ix s.L.p c ≤ reserved N := by
  have h1 := Verif.Props.C32_fits h.val
  have h2 := h.val.last
  have key : ∀ m, c + m ≤ N → ix s.L.p c ≤ ix s.L.p (c + m) := by
    intro m
    induction m with
    | zero => intro _; exact le_refl _
    | succ m ih => intro hm; exact (ih (by omega)).trans (h.val.mono (c + m) (by omega))
  have := key (N - c) (by omega)
  rw [show c + (N - c) = N by omega] at this
  exact this.trans (h2.le.trans h1)

theorem rdw_Lp (h : Inw n N NP d s) {c : Nat} (hc : c ≤ N) : Ok (fun x => x = ix s.L.p c) (rd (.p .L) s.L.p c) :=
  rd_ix (.p .L) s.L.p c (by rw [h.sz.Lp]; omega)

theorem rdw_Li (h : Inw n N NP d s) {c k : Nat} (hc : c < N) (h1 : ix s.L.p c ≤ k) (hk : k < ix s.L.p (c + 1)) :
    Ok (fun x => x = ix s.L.i k ∧ c < x ∧ x < N) (rd (.i .L) s.L.i k) := by
  have hl := h.le (c := c + 1) hc
  refine (rd_ix (.i .L) s.L.i k (by rw [h.sz.Li]; omega)).mono fun x hx => ?_
  have := h.val.lower c hc k h1 hk
  exact ⟨hx, hx ▸ this.1, hx ▸ this.2⟩

theorem Lxw_lt (h : Inw n N NP d s) {c k : Nat} (hc : c < N) (hk : k < ix s.L.p (c + 1)) : k < s.L.x.length := by
  have hl := h.le (c := c + 1) hc
  rw [h.sz.Lx]
  omega

/-- Arrays other than the positions of the factor are replaced. -/
theorem Inw.of (h : Inw n N NP d s) {t : St R} (ht : Sizes n N NP d t) (hp : t.L.p = s.L.p) (hi : t.L.i = s.L.i) (hn : t.L.nnz = s.L.nnz) :
    Inw n N NP d t := by
  refine ⟨ht, ?_⟩
  have : shape t.L = shape s.L := by unfold shape; rw [hp, hi, hn]
  rw [this]
  exact h.val

/-- States with the same stored positions of the factor. -/
structure Same (n N NP : Nat) (d : Patterns) (s t : St R) : Prop where
  sz : Sizes n N NP d t
  p : t.L.p = s.L.p
  i : t.L.i = s.L.i
  nnz : t.L.nnz = s.L.nnz

theorem Same.refl (h : Inw n N NP d s) : Same n N NP d s s := ⟨h.sz, rfl, rfl, rfl⟩

theorem Same.trans {t u : St R} (h : Same n N NP d s t) (h' : Same n N NP d t u) : Same n N NP d s u :=
  ⟨h'.sz, h'.p.trans h.p, h'.i.trans h.i, h'.nnz.trans h.nnz⟩

theorem Same.inw {t : St R} (h : Inw n N NP d s) (ht : Same n N NP d s t) : Inw n N NP d t := h.of ht.sz ht.p ht.i ht.nnz

/-! ### insertion -/

theorem bsearch_eq (i : List Nat) (row : Nat) : ∀ (f start stop : Nat), stop - start ≤ f → stop ≤ i.length →
    bsearch i row f start stop = .ok (Verif.Model.Factor.bsearch (ix i) row start stop) := by
  intro f
  induction f with
  | zero =>
    intro start stop hf _
    unfold bsearch Verif.Model.Factor.bsearch
    rw [if_neg (by omega)]
  | succ f ih =>
    intro start stop hf hl
    unfold bsearch
    rw [Verif.Model.Factor.bsearch]
    by_cases h : start < stop
    · rw [if_pos h, if_pos h]
      obtain ⟨v, hv, rfl⟩ := rd_ix (.i .L) i (start + (stop - start) / 2) (by omega)
      simp only [hv]
      show (if _ then _ else _) = _
      by_cases e1 : ix i (start + (stop - start) / 2) = row
      · rw [if_pos e1, if_pos e1]
      · rw [if_neg e1, if_neg e1]
        by_cases e2 : ix i (start + (stop - start) / 2) < row
        · rw [if_pos e2, if_pos e2]
          exact ih _ _ (by omega) hl
        · rw [if_neg e2, if_neg e2]
          exact ih _ _ (by omega) (by omega)
    · rw [if_neg h, if_neg h]

/-- Moving entries up. -/
theorem shift_ok (pos : Nat) : ∀ (m : Nat) (L : Csc R), pos + m < L.i.length → pos + m < L.x.length →
    Ok (fun L' => L'.p = L.p ∧ L'.nnz = L.nnz ∧ L'.i.length = L.i.length ∧ L'.x.length = L.x.length ∧
        ix L'.i = Verif.Model.Factor.shiftUp pos m (ix L.i))
      ((List.range' (pos + 1) m).reverse.foldlM (init := L) fun L q => do
        let a ← rd (.i .L) L.i (q - 1)
        let i ← wr (.i .L) L.i q a
        let b ← rd (.x .L) L.x (q - 1)
        let x ← wr (.x .L) L.x q b
        (.ok { L with i := i, x := x } : Mem (Csc R))) := by
  intro m
  induction m with
  | zero => intro L _ _; exact Ok.pure ⟨rfl, rfl, rfl, rfl, rfl⟩
  | succ m ih =>
    intro L hi hx
    rw [List.range'_concat, List.reverse_append, List.reverse_singleton, List.singleton_append, List.foldlM_cons]
    refine Ok.bind (P := fun L' : Csc R => L'.p = L.p ∧ L'.nnz = L.nnz ∧ L'.i.length = L.i.length ∧ L'.x.length = L.x.length ∧
        ix L'.i = upd (ix L.i) (pos + m + 1) (ix L.i (pos + m))) ?_ fun L' hL' => ?_
    · refine (rd_ix (.i .L) L.i _ (by omega)).bind fun a ha => ?_
      refine (wr_ok (.i .L) L.i _ _ (by omega)).bind fun i hii => ?_
      refine (rd_any (.x .L) L.x _ (by omega)).bind fun b _ => ?_
      refine (wr_len (.x .L) L.x _ _ (by omega)).bind fun x hxx => ?_
      refine Ok.pure ⟨rfl, rfl, by rw [hii, List.length_set], hxx, ?_⟩
      show ix i = _
      rw [hii, ix_set_upd _ _ _ (by omega), ha, show pos + 1 + 1 * m = pos + m + 1 by omega, show pos + m + 1 - 1 = pos + m by omega]
    · obtain ⟨h1, h2, h3, h4, h5⟩ := hL'
      refine (ih L' (by omega) (by omega)).mono fun L'' hL'' => ?_
      obtain ⟨g1, g2, g3, g4, g5⟩ := hL''
      refine ⟨g1.trans h1, g2.trans h2, g3.trans h3, g4.trans h4, ?_⟩
      rw [g5, h5]
      rfl

/-- Moving column pointers. -/
theorem bump_ok : ∀ (m j : Nat) (p : List Nat), j + m ≤ p.length →
    Ok (fun p' => p'.length = p.length ∧ ix p' = Verif.Model.Factor.bump (· + 1) j m (ix p))
      ((List.range' j m).foldlM (fun p j => do
        let b ← rd (.p .L) p j
        wr (.p .L) p j (b + 1)) p) := by
  intro m
  induction m with
  | zero => intro j p _; exact Ok.pure ⟨rfl, rfl⟩
  | succ m ih =>
    intro j p hl
    rw [List.range'_succ, List.foldlM_cons]
    refine Ok.bind (P := fun p' => p'.length = p.length ∧ ix p' = upd (ix p) j (ix p j + 1)) ?_ fun p' hp' => ?_
    · refine (rd_ix (.p .L) p j (by omega)).bind fun b hb => ?_
      refine (wr_ok (.p .L) p j _ (by omega)).mono fun p' hp' => ?_
      rw [hp', hb]
      exact ⟨List.length_set, ix_set_upd _ _ _ (by omega)⟩
    · refine (ih (j + 1) p' (by omega)).mono fun p'' hp'' => ⟨hp''.1.trans hp'.1, ?_⟩
      rw [hp''.2, hp'.2]
      rfl

/-- What an insertion does to the factor: sizes and stored positions. -/
structure Ins (N : Nat) (L L' : Csc R) (M : CscL Unit) : Prop where
  p : L'.p.length = L.p.length
  i : L'.i.length = L.i.length
  x : L'.x.length = L.x.length
  eq : shape L' = M

theorem insertAt_ok {L : Csc R} (row col pos : Nat) (v : R) (hi : L.nnz < L.i.length) (hx : L.nnz < L.x.length) (hpos : pos ≤ L.nnz)
    (hcol : col < N) (hp : L.p.length = N + 1) :
    Ok (fun L' => Ins N L L' (Verif.Model.Factor.insertAt N (shape L) row col pos ())) (insertAt N L row col pos v) := by
  unfold insertAt
  refine (shift_ok pos (L.nnz + 1 - 1 - pos) L (by omega) (by omega)).bind fun L1 h1 => ?_
  obtain ⟨h1, h2, h3, h4, h5⟩ := h1
  refine (wr_ok (.i .L) L1.i pos row (by omega)).bind fun i hii => ?_
  refine (wr_len (.x .L) L1.x pos v (by omega)).bind fun x hxx => ?_
  refine Ok.bind (bump_ok (N + 1 - (col + 1)) (col + 1) L1.p (by rw [h1, hp]; omega)) fun p hpp => ?_
  refine Ok.pure ⟨hpp.1.trans (by rw [h1]), ?_, hxx.trans h4, ?_⟩
  · show i.length = _
    rw [hii, List.length_set, h3]
  · show (⟨ix p, ix i, fun _ => (), L.nnz + 1⟩ : CscL Unit) = _
    rw [hpp.2, hii, ix_set_upd _ _ _ (by omega), h5, h1, show N + 1 - (col + 1) = N - col by omega]
    rfl

theorem insertWith_any (h : Inw n N NP d s) {row col : Nat} (hcr : col < row) (hr : row < N) (v : R) (put : Nat → Mem (Csc R))
    (hput : ∀ m < ix s.L.p (col + 1), Ok (fun L => L.p = s.L.p ∧ L.i = s.L.i ∧ L.nnz = s.L.nnz ∧ L.x.length = s.L.x.length) (put m)) :
    Ok (fun L => Inw n N NP d { s with L := L }) (insertWith N s.L row col v put) := by
  have hv := (Verif.Props.C30_edit (fun _ => true) h.val (Verif.Props.C30_represented h.val).choose_spec
    (.put row col ()) (Or.inr ⟨hcr, hr⟩)).1
  unfold Verif.Spec.Factor.Edit.exec Verif.Model.Factor.insertNonzeroAndValue at hv
  simp only at hv
  rw [if_neg (by omega)] at hv
  unfold insertWith
  rw [if_neg (by omega)]
  refine (rdw_Lp h (by omega)).bind fun lo hlo => ?_
  refine (rdw_Lp h (by omega)).bind fun hi' hhi => ?_
  subst hlo hhi
  have hle := h.le (c := col + 1) (by omega)
  rw [bsearch_eq s.L.i row _ _ _ (le_refl _) (by rw [h.sz.Li]; exact hle)]
  show Ok _ (match Verif.Model.Factor.bsearch (ix s.L.i) row (ix s.L.p col) (ix s.L.p (col + 1)) with
    | .inl mid => put mid
    | .inr pos => insertAt N s.L row col pos v)
  have hb : Verif.Model.Factor.bsearch (shape s.L).i row ((shape s.L).p col) ((shape s.L).p (col + 1)) =
    Verif.Model.Factor.bsearch (ix s.L.i) row (ix s.L.p col) (ix s.L.p (col + 1)) := rfl
  rw [hb] at hv
  cases e : Verif.Model.Factor.bsearch (ix s.L.i) row (ix s.L.p col) (ix s.L.p (col + 1)) with
  | inl m =>
    have := Verif.Lemmas.Factor.bsearch_inl (ix s.L.i) row _ _ _ m (le_refl _) e
    exact (hput m this.2.1).mono fun L hL => h.of
      { h.sz with Lp := by rw [← h.sz.Lp]; exact congrArg _ hL.1, Li := by rw [← h.sz.Li]; exact congrArg _ hL.2.1,
                  Lx := hL.2.2.2.trans h.sz.Lx } hL.1 hL.2.1 hL.2.2.1
  | inr pos =>
    rw [e] at hv
    simp only at hv
    have hfit : s.L.nnz + 1 ≤ reserved N := Verif.Props.C32_fits hv
    have hpos : pos ≤ s.L.nnz := by
      have h1 : pos ≤ ix s.L.p (col + 1) := (Verif.Lemmas.Factor.search_free (M := shape s.L) h.val (show col < N by omega) e).2.1
      have h2 : ix s.L.p (col + 1) ≤ s.L.nnz := by
        have key : ∀ m, col + 1 + m ≤ N → ix s.L.p (col + 1) ≤ ix s.L.p (col + 1 + m) := by
          intro m
          induction m with
          | zero => intro _; exact le_refl _
          | succ m ih => intro hm; exact (ih (by omega)).trans (h.val.mono (col + 1 + m) (by omega))
        have := key (N - (col + 1)) (by omega)
        rw [show col + 1 + (N - (col + 1)) = N by omega] at this
        exact this.trans h.val.last.le
      omega
    refine (insertAt_ok row col pos v (by rw [h.sz.Li]; omega) (by rw [h.sz.Lx]; omega) hpos (by omega) h.sz.Lp).mono fun L hL => ?_
    refine ⟨{ h.sz with Lp := hL.p.trans h.sz.Lp, Li := hL.i.trans h.sz.Li, Lx := hL.x.trans h.sz.Lx }, ?_⟩
    show Valid N (shape L)
    rw [hL.eq]
    exact hv

theorem insertNonzero_any (F : Flops R) (h : Inw n N NP d s) {row col : Nat} (hcr : col < row) (hr : row < N) :
    Ok (fun L => Inw n N NP d { s with L := L }) (insertNonzero F N s.L row col) :=
  insertWith_any h hcr hr _ _ fun _ _ => Ok.pure ⟨rfl, rfl, rfl, rfl⟩

theorem insertValue_any (h : Inw n N NP d s) {row col : Nat} (hcr : col < row) (hr : row < N) (v : R) :
    Ok (fun L => Inw n N NP d { s with L := L }) (insertValue N s.L row col v) :=
  insertWith_any h hcr hr _ _ fun m hm =>
    (wr_len (.x .L) s.L.x m v (Lxw_lt h (show col < N by omega) hm)).bind fun _ hx => Ok.pure ⟨rfl, rfl, rfl, hx⟩

end Verif.Lemmas.GradMem
