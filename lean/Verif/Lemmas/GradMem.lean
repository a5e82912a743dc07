import Verif.Spec.GradMem
import Verif.Props.Factor
/-!
Lemmas on checked runs of `cpg_gradient`.
-/
namespace Verif.Lemmas.GradMem
open Verif.Model.GradMem Verif.Spec.GradMem
open Verif.Model.Factor (reserved maskSize maskIndex)

variable {R σ τ α : Type}

/-- The computation makes no access outside and ends in a state with property `Q`. -/
def Ok (Q : σ → Prop) (m : Mem σ) : Prop := ∃ s, m = .ok s ∧ Q s

theorem Ok.pure {Q : σ → Prop} {s : σ} (h : Q s) : Ok Q (.ok s : Mem σ) := ⟨s, rfl, h⟩

theorem Ok.bind {P : σ → Prop} {Q : τ → Prop} {m : Mem σ} {f : σ → Mem τ} (h : Ok P m) (hf : ∀ s, P s → Ok Q (f s)) :
    Ok Q (m >>= f) := by
  obtain ⟨s, rfl, hs⟩ := h
  exact hf s hs

theorem Ok.mono {P Q : σ → Prop} {m : Mem σ} (h : Ok P m) (hf : ∀ s, P s → Q s) : Ok Q m := by
  obtain ⟨s, h1, hs⟩ := h
  exact ⟨s, h1, hf s hs⟩

theorem rd_ok (n : Arr) (v : List α) (k : Nat) (h : k < v.length) : Ok (fun x => v[k]? = some x) (rd n v k) := by
  refine ⟨v[k], ?_, List.getElem?_eq_getElem h⟩
  unfold rd
  rw [List.getElem?_eq_getElem h]

theorem rd_any (n : Arr) (v : List α) (k : Nat) (h : k < v.length) : Ok (fun _ => True) (rd n v k) :=
  (rd_ok n v k h).mono fun _ _ => trivial

theorem rd_ix (n : Arr) (v : List Nat) (k : Nat) (h : k < v.length) : Ok (fun x => x = ix v k) (rd n v k) := by
  refine (rd_ok n v k h).mono fun x hx => ?_
  unfold ix
  rw [List.getD_eq_getElem?_getD, hx]
  rfl

theorem wr_ok (n : Arr) (v : List α) (k : Nat) (x : α) (h : k < v.length) : Ok (fun v' => v' = v.set k x) (wr n v k x) :=
  ⟨_, if_pos h, rfl⟩

theorem wr_len (n : Arr) (v : List α) (k : Nat) (x : α) (h : k < v.length) : Ok (fun v' => v'.length = v.length) (wr n v k x) :=
  ⟨_, if_pos h, List.length_set⟩

theorem rdI_ok (n : Arr) (v : List α) (k : Int) (h0 : 0 ≤ k) (h : k < v.length) : Ok (fun _ => True) (rdI n v k) := by
  unfold rdI
  rw [if_pos h0]
  exact rd_any n v _ (by omega)

theorem wrI_ok (n : Arr) (v : List α) (k : Int) (x : α) (h0 : 0 ≤ k) (h : k < v.length) :
    Ok (fun v' => v'.length = v.length) (wrI n v k x) := by
  unfold wrI
  rw [if_pos h0]
  exact wr_len n v _ x (by omega)

theorem foldlM_ok {f : σ → Nat → Mem σ} (I : σ → Prop) : ∀ (ks : List Nat) (s : σ), I s →
    (∀ k ∈ ks, ∀ s, I s → Ok I (f s k)) → Ok I (ks.foldlM f s) := by
  intro ks
  induction ks with
  | nil => intro s hs _; exact Ok.pure hs
  | cons k ks ih =>
    intro s hs hf
    rw [List.foldlM_cons]
    exact (hf k List.mem_cons_self s hs).bind fun s' hs' => ih s' hs' fun k hk => hf k (List.mem_cons_of_mem _ hk)

/-- A loop with an invariant. -/
theorem each_ok {f : σ → Nat → Mem σ} (I : σ → Prop) (a b : Nat) (s : σ) (hs : I s)
    (hf : ∀ k, a ≤ k → k < b → ∀ s, I s → Ok I (f s k)) : Ok I (each a b s f) := by
  refine foldlM_ok I _ s hs fun k hk => ?_
  rw [List.mem_range'_1] at hk
  exact hf k hk.1 (by omega)

/-- A loop with an invariant that depends on the counter. -/
theorem each_count {f : σ → Nat → Mem σ} (I : Nat → σ → Prop) (a b : Nat) (hab : a ≤ b) (s : σ) (hs : I a s)
    (hf : ∀ k, a ≤ k → k < b → ∀ s, I k s → Ok (I (k + 1)) (f s k)) : Ok (I b) (each a b s f) := by
  unfold each
  obtain ⟨m, rfl⟩ : ∃ m, b = a + m := ⟨b - a, by omega⟩
  rw [show a + m - a = m by omega]
  induction m generalizing a s with
  | zero => exact Ok.pure hs
  | succ m ih =>
    rw [List.range'_succ, List.foldlM_cons]
    refine (hf a (le_refl _) (by omega) s hs).bind fun s' hs' => ?_
    have := ih (a + 1) s' hs' (by omega) (fun k h1 h2 => hf k (by omega) (by omega))
    rwa [show a + (m + 1) = a + 1 + m by omega]

/-- A loop with `break`. -/
theorem eachBreak_ok {f : σ → Nat → Mem (σ × Bool)} (I : σ → Prop) : ∀ (ks : List Nat) (s : σ), I s →
    (∀ k ∈ ks, ∀ s, I s → Ok (fun t => I t.1) (f s k)) → Ok I (eachBreak f ks s) := by
  intro ks
  induction ks with
  | nil => intro s hs _; exact Ok.pure hs
  | cons k ks ih =>
    intro s hs hf
    refine (hf k List.mem_cons_self s hs).bind fun t ht => ?_
    split
    · exact Ok.pure ht
    · exact ih t.1 ht fun k hk => hf k (List.mem_cons_of_mem _ hk)

theorem fillWith_ok (n : Arr) (a b : Nat) (x : α) (v : List α) (h : b ≤ v.length) :
    Ok (fun v' => v'.length = v.length ∧ (∀ k y, a ≤ k → k < b → v'[k]? = some y → y = x)) (fillWith n a b x v) := by
  by_cases hab : a ≤ b
  · refine (each_count (fun j v' => v'.length = v.length ∧ ∀ k y, a ≤ k → k < j → v'[k]? = some y → y = x) a b hab v
      ⟨rfl, fun k y h1 h2 => by omega⟩ fun k h1 h2 s hs => ?_)
    refine (wr_ok n s k x (by omega)).mono fun v' hv => ?_
    subst hv
    refine ⟨by rw [List.length_set]; exact hs.1, fun q y h3 h4 hq => ?_⟩
    rw [List.getElem?_set] at hq
    split at hq
    · split at hq
      · cases hq; rfl
      · cases hq
    · exact hs.2 q y h3 (by omega) hq
  · unfold fillWith each
    rw [show b - a = 0 by omega]
    exact Ok.pure ⟨rfl, fun k y h1 h2 => by omega⟩

/-! ### patterns -/

theorem _root_.Verif.Spec.GradMem.Lines.le {n b : Nat} {p i : List Nat} (h : Lines n b p i) {c : Nat} (hc : c ≤ n) : ix p c ≤ i.length := by
  refine le_trans ?_ h.last
  have : ∀ m, c + m ≤ n → ix p c ≤ ix p (c + m) := by
    intro m
    induction m with
    | zero => intro _; exact le_refl _
    | succ m ih => intro hm; exact (ih (by omega)).trans (h.mono (c + m) (by omega))
  have := this (n - c) (by omega)
  rwa [show c + (n - c) = n by omega] at this

/-- Pointers of a line: both can be read, and the entries of the line are within the index array. -/
theorem _root_.Verif.Spec.GradMem.Lines.entry {n b : Nat} {p i : List Nat} (h : Lines n b p i) {c k : Nat} (hc : c < n) (hk : k < ix p (c + 1)) :
    k < i.length ∧ ix i k < b := by
  have := h.le (c := c + 1) hc
  exact ⟨by omega, h.below k (by omega)⟩

/-- The state during the computation: sizes and the pattern of the factor. -/
structure Inv (n N NP : Nat) (d : Patterns) (s : St R) : Prop where
  sz : Sizes n N NP d s
  Lp : s.L.p = d.pL
  Li : ∃ rest, s.L.i = d.iL ++ rest
  nnz : s.L.nnz = d.iL.length

variable {n N NP : Nat} {d : Patterns} {s : St R}

theorem Inv.ix_eq (h : Inv n N NP d s) {k : Nat} (hk : k < d.iL.length) : ix s.L.i k = ix d.iL k := by
  obtain ⟨rest, hr⟩ := h.Li
  unfold ix
  rw [hr, List.getD_eq_getElem?_getD, List.getD_eq_getElem?_getD, List.getElem?_append_left hk]

theorem Inv.iL_le (h : Inv n N NP d s) : d.iL.length ≤ reserved N := by
  obtain ⟨rest, hr⟩ := h.Li
  rw [← h.sz.Li, hr, List.length_append]
  omega

/-- Reading pointers of the factor. -/
theorem rd_Lp (hp : Problem n N d) (h : Inv n N NP d s) {c : Nat} (hc : c ≤ N) :
    Ok (fun x => x = ix d.pL c) (rd (.p .L) s.L.p c) := by
  have := rd_ix (.p .L) s.L.p c (by rw [h.sz.Lp]; omega)
  rw [h.Lp] at this ⊢
  exact this

theorem rd_Kp (hp : Problem n N d) (h : Sizes n N NP d s) {c : Nat} (hc : c ≤ N) :
    Ok (fun x => x = ix d.pK c) (rd (.p .K) s.K.p c) := by
  have := rd_ix (.p .K) s.K.p c (by rw [h.K.p, hp.K.len]; omega)
  rw [h.K.p] at this ⊢
  exact this

theorem rd_Ktp (hp : Problem n N d) (h : Sizes n N NP d s) {c : Nat} (hc : c ≤ N) :
    Ok (fun x => x = ix d.pKt c) (rd (.p .Kt) s.Kt.p c) := by
  have := rd_ix (.p .Kt) s.Kt.p c (by rw [h.Kt.p, hp.Kt.len]; omega)
  rw [h.Kt.p] at this ⊢
  exact this

/-- Reading a row index of the factor. -/
theorem rd_Li (hp : Problem n N d) (h : Inv n N NP d s) {c k : Nat} (hc : c < N) (h1 : ix d.pL c ≤ k) (hk : k < ix d.pL (c + 1)) :
    Ok (fun x => x = ix d.iL k ∧ c < x ∧ x < N ∧ Has d.pL d.iL x c) (rd (.i .L) s.L.i k) := by
  have hl := hp.sym.lines.entry hc hk
  have := h.iL_le
  refine (rd_ix (.i .L) s.L.i k (by rw [h.sz.Li]; omega)).mono fun x hx => ?_
  rw [h.ix_eq hl.1] at hx
  exact ⟨hx, hx ▸ hp.sym.lower c hc k h1 hk, hx ▸ hl.2, k, h1, hk, hx.symm⟩

theorem Lx_lt (hp : Problem n N d) (h : Inv n N NP d s) {c k : Nat} (hc : c < N) (hk : k < ix d.pL (c + 1)) :
    k < s.L.x.length := by
  have hl := hp.sym.lines.entry hc hk
  have := h.iL_le
  rw [h.sz.Lx]
  omega

/-- Reading a row index of `K`. -/
theorem rd_Ki (hp : Problem n N d) (h : Sizes n N NP d s) {c k : Nat} (hc : c < N) (h1 : ix d.pK c ≤ k) (hk : k < ix d.pK (c + 1)) :
    Ok (fun x => x = ix d.iK k ∧ x < N ∧ Has d.pK d.iK x c) (rd (.i .K) s.K.i k) := by
  have hl := hp.K.entry hc hk
  refine (rd_ix (.i .K) s.K.i k (by rw [h.K.i]; exact hl.1)).mono fun x hx => ?_
  rw [h.K.i] at hx
  exact ⟨hx, hx ▸ hl.2, k, h1, hk, hx.symm⟩

theorem Kx_lt (hp : Problem n N d) (h : Sizes n N NP d s) {c k : Nat} (hc : c < N) (hk : k < ix d.pK (c + 1)) :
    k < s.K.x.length := by
  rw [h.K.x]
  exact (hp.K.entry hc hk).1

/-! ### replacing one array -/

theorem Inv.setW (h : Inv n N NP d s) {v : List R} (hv : v.length = s.w.length) : Inv n N NP d { s with w := v } :=
  ⟨{ h.sz with w := hv.trans h.sz.w }, h.Lp, h.Li, h.nnz⟩

theorem Inv.setLx (h : Inv n N NP d s) {v : List R} (hv : v.length = s.L.x.length) :
    Inv n N NP d { s with L := { s.L with x := v } } :=
  ⟨{ h.sz with Lx := hv.trans h.sz.Lx }, h.Lp, h.Li, h.nnz⟩

theorem Inv.setD (h : Inv n N NP d s) {v : List R} (hv : v.length = s.D.length) : Inv n N NP d { s with D := v } :=
  ⟨{ h.sz with D := hv.trans h.sz.D }, h.Lp, h.Li, h.nnz⟩

theorem Inv.setDinv (h : Inv n N NP d s) {v : List R} (hv : v.length = s.Dinv.length) : Inv n N NP d { s with Dinv := v } :=
  ⟨{ h.sz with Dinv := hv.trans h.sz.Dinv }, h.Lp, h.Li, h.nnz⟩

theorem Inv.setWi (h : Inv n N NP d s) {v : List Nat} (hv : v.length = s.wi.length) : Inv n N NP d { s with wi := v } :=
  ⟨{ h.sz with wi := hv.trans h.sz.wi }, h.Lp, h.Li, h.nnz⟩

theorem Inv.setL (h : Inv n N NP d s) {v : List R} (hv : v.length = s.l.length) : Inv n N NP d { s with l := v } :=
  ⟨{ h.sz with l := hv.trans h.sz.l }, h.Lp, h.Li, h.nnz⟩

theorem Inv.setC (h : Inv n N NP d s) {v : List R} (hv : v.length = s.c.length) : Inv n N NP d { s with c := v } :=
  ⟨{ h.sz with c := hv.trans h.sz.c }, h.Lp, h.Li, h.nnz⟩

theorem Inv.setLi (h : Inv n N NP d s) {v : List Nat} (hv : v.length = s.li.length) : Inv n N NP d { s with li := v } :=
  ⟨{ h.sz with li := hv.trans h.sz.li }, h.Lp, h.Li, h.nnz⟩

theorem Inv.setLxs (h : Inv n N NP d s) {v : List R} (hv : v.length = s.lx.length) : Inv n N NP d { s with lx := v } :=
  ⟨{ h.sz with lx := hv.trans h.sz.lx }, h.Lp, h.Li, h.nnz⟩

theorem Inv.setMask (h : Inv n N NP d s) {v : List Bool} (hv : v.length = s.mask.length) : Inv n N NP d { s with mask := v } :=
  ⟨{ h.sz with mask := hv.trans h.sz.mask }, h.Lp, h.Li, h.nnz⟩

theorem Inv.setA (h : Inv n N NP d s) {v : List Int} (hv : v.length = s.a.length) : Inv n N NP d { s with a := v } :=
  ⟨{ h.sz with a := hv.trans h.sz.a }, h.Lp, h.Li, h.nnz⟩

theorem Inv.setR (h : Inv n N NP d s) {v : List R} (hv : v.length = s.r.length) : Inv n N NP d { s with r := v } :=
  ⟨{ h.sz with r := hv.trans h.sz.r }, h.Lp, h.Li, h.nnz⟩

theorem Inv.setDelta (h : Inv n N NP d s) {v : List R} (hv : v.length = s.delta.length) : Inv n N NP d { s with delta := v } :=
  ⟨{ h.sz with delta := hv.trans h.sz.delta }, h.Lp, h.Li, h.nnz⟩

theorem Inv.setRhs (h : Inv n N NP d s) {v : List R} (hv : v.length = s.rhs.length) : Inv n N NP d { s with rhs := v } :=
  ⟨{ h.sz with rhs := hv.trans h.sz.rhs }, h.Lp, h.Li, h.nnz⟩

end Verif.Lemmas.GradMem
