import Verif.Props.Deltas
import Mathlib.Algebra.BigOperators.Ring.Finset
/-!
# C55: exactly which problems have right incoming gradients
-/
namespace Verif.Props
open Verif.Model Verif.Model.Deltas Verif.Spec Verif.Spec.Deltas Verif.Lemmas Verif.Lemmas.Deltas

/-- The same variable without the attribute. -/
def asFull (v : UVar) : UVar := { v with sym := false }

theorem asFull_size (v : UVar) (h : SymOK v) (h1 : v.sym = true → v.size ≤ 1) : solverSize (asFull v) = solverSize v := by
  obtain ⟨nm, sh, sym, off⟩ := v
  cases sym with
  | false => rfl
  | true =>
    obtain ⟨m, hm⟩ := h rfl
    have hm : sh = [m, m] := hm
    subst hm
    have := h1 rfl
    have : m * m ≤ 1 := by simpa [UVar.size] using this
    have hm1 : m ≤ 1 := by
      by_contra hc
      have := Nat.mul_le_mul (show 2 ≤ m by omega) (show 2 ≤ m by omega)
      omega
    obtain rfl | rfl : m = 0 ∨ m = 1 := by omega
    · rfl
    · rfl

theorem asFull_pos (v : UVar) (h : SymOK v) (h1 : v.sym = true → v.size ≤ 1) (k : Nat) (hk : k < v.size) :
    entryPos (asFull v) k = entryPos v k := by
  obtain ⟨nm, sh, sym, off⟩ := v
  cases sym with
  | false => rfl
  | true =>
    obtain ⟨m, hm⟩ := h rfl
    have hm : sh = [m, m] := hm
    subst hm
    have := h1 rfl
    have h2 : m * m ≤ 1 := by simpa [UVar.size] using this
    have hk : k < m * m := by simpa [UVar.size] using hk
    have hm1 : m ≤ 1 := by
      by_contra hc
      have := Nat.mul_le_mul (show 2 ≤ m by omega) (show 2 ≤ m by omega)
      omega
    obtain rfl | rfl : m = 0 ∨ m = 1 := by omega
    · omega
    · obtain rfl : k = 0 := by omega
      simp [asFull, entryPos, triPos]

section
variable {R : Type} [CommRing R] [Nontrivial R]

omit [Nontrivial R] in
theorem run_same (pi pi' : PrimInfo) (h1 : pi.size = pi'.size) (h2 : pi.offset = pi'.offset) (n : Nat) (ops : List (Op R)) :
    Model.Deltas.run pi n ops = Model.Deltas.run pi' n ops := by
  have : Model.Deltas.step (R := R) pi n = Model.Deltas.step pi' n := by
    funext s o
    cases o with
    | upd u => simp only [Model.Deltas.step, updStep, h1, h2]
    | gradient => rfl
  unfold Model.Deltas.run
  rw [this]

omit [Nontrivial R] in
theorem sum_one (vs : List UVar) (hn : (vs.map UVar.name).Nodup) (f : UVar → R) (v : UVar) (hv : v ∈ vs)
    (h : ∀ w ∈ vs, w.name ≠ v.name → f w = 0) : (vs.map f).sum = f v := by
  induction vs with
  | nil => cases hv
  | cons a vs ih =>
    rw [List.map_cons, List.nodup_cons] at hn
    rw [List.map_cons, List.sum_cons]
    rcases List.mem_cons.1 hv with rfl | hv
    · have : (vs.map f).sum = 0 := by
        apply List.sum_eq_zero
        intro x hx
        obtain ⟨w, hw, rfl⟩ := List.mem_map.1 hx
        exact h w (List.mem_cons_of_mem _ hw) fun e => hn.1 (e ▸ List.mem_map_of_mem hw)
      rw [this, add_zero]
    · rw [ih hn.2 hv fun w hw => h w (List.mem_cons_of_mem _ hw),
        h a (List.mem_cons_self ..) (fun e => hn.1 (e ▸ List.mem_map_of_mem hv)), zero_add]

/-- **C55, exactly.** For all sequences of calls the incoming gradients are right exactly if every symmetric variable of the problem has at most
one entry. -/
theorem C55_iff (vs : List UVar) (n : Nat) (pi : PrimInfo) (hb : Blocks vs n) (hs : ∀ v ∈ vs, SymOK v) (hpi : primInfo vs = .ok pi) :
    (∀ ops : List (Op R), (∀ o ∈ ops, ValidOp vs o) →
      ∃ s, Model.Deltas.run pi n ops = some s ∧ List.Forall₂ (DxRight vs n) (pendings ops) s.log) ↔
    ∀ v ∈ vs, v.sym = true → v.size ≤ 1 := by
  rw [primInfo_eq vs hs] at hpi
  cases hpi
  constructor
  · intro h v hv hsym
    by_contra hsz
    obtain ⟨m, hm⟩ := hs v hv hsym
    have hsize : v.size = m * m := by simp [UVar.size, hm]
    have hm2 : 2 ≤ m := by
      by_contra hc
      have := Nat.mul_le_mul (show m ≤ 1 by omega) (show m ≤ 1 by omega)
      omega
    have hmm : m * 2 ≤ m * m := Nat.mul_le_mul_left m hm2
    obtain ⟨s, h1, h2⟩ := h [.upd ⟨v.name, m, 1⟩, .gradient] (by
      intro o ho
      rcases List.mem_cons.1 ho with rfl | ho
      · exact ⟨v, hv, rfl, by show m < v.size; omega⟩
      · rw [List.mem_singleton] at ho; subst ho; trivial)
    unfold Model.Deltas.run at h1
    rw [List.foldlM_cons] at h1
    simp only [Model.Deltas.step, updStep] at h1
    rw [lookup_nodup vs UVar.name UVar.size hb.names v hv, lookup_nodup vs UVar.name UVar.offset hb.names v hv] at h1
    simp only [Option.bind_eq_bind, Option.bind_some, if_neg (show ¬ v.size = 1 by omega)] at h1
    have hpos : entryPos v m = v.offset + 1 := by
      have e0 : m % m = 0 := Nat.mod_self m
      have e1 : m / m = 1 := Nat.div_self (by omega)
      simp [entryPos, hsym, hm, e0, e1, triPos]
    by_cases hlt : v.offset + m < n
    · rw [store, if_pos (by simpa [Model.Deltas.init] using hlt)] at h1
      simp only [Option.map_some, Option.bind_some, List.foldlM_cons, List.foldlM_nil, Model.Deltas.step, Option.bind_eq_bind] at h1
      cases hz : (List.range n).foldlM (init := (Model.Deltas.init n).dx.set (v.offset + m) (1 : R)) fun dx i => Model.store dx i 0 with
      | none => rw [hz] at h1; cases h1
      | some dx =>
        rw [hz] at h1
        simp only [Option.bind_some] at h1
        cases h1
        have h2 : List.Forall₂ (DxRight vs n) [pending [Op.upd ⟨v.name, m, (1 : R)⟩]] [(Model.Deltas.init n).dx.set (v.offset + m) (1 : R)] := h2
        have hd := (List.forall₂_cons.1 h2).1.2 fun i => if i = v.offset + 1 then 1 else 0
        have hl : ∑ i ∈ Finset.range n, ((Model.Deltas.init n).dx.set (v.offset + m) (1 : R)).getD i 0 * (if i = v.offset + 1 then 1 else 0) = 0 := by
          refine Finset.sum_eq_zero fun i _ => ?_
          split
          · rename_i hi
            subst hi
            rw [List.getD_eq_getElem?_getD, List.getElem?_set_ne (by omega)]
            simp [Model.Deltas.init, List.getElem?_replicate]
            split <;> rfl
          · rw [mul_zero]
        rw [hl] at hd
        unfold functional at hd
        rw [sum_one vs hb.names _ v hv (by
          intro w _ hw
          refine Finset.sum_eq_zero fun k _ => ?_
          show (if w.name = v.name ∧ k = m then (1 : R) else 0) * _ = 0
          rw [if_neg (fun e => hw e.1), zero_mul])] at hd
        rw [Finset.sum_eq_single m (by
            intro k _ hk
            show (if v.name = v.name ∧ k = m then (1 : R) else 0) * _ = 0
            rw [if_neg (fun e => hk e.2), zero_mul]) (by
            intro hk
            exact absurd (Finset.mem_range.2 (by omega)) hk)] at hd
        have hd : (0 : R) = (if v.name = v.name ∧ m = m then (1 : R) else 0) * (if entryPos v m = v.offset + 1 then 1 else 0) := hd
        rw [if_pos ⟨rfl, rfl⟩, if_pos hpos, mul_one] at hd
        exact zero_ne_one hd
    · rw [store, if_neg (by simpa [Model.Deltas.init] using hlt)] at h1
      cases h1
  · intro h ops hops
    have hs' : ∀ v ∈ vs.map asFull, v.sym = false := by
      intro v hv
      obtain ⟨w, _, rfl⟩ := List.mem_map.1 hv
      rfl
    have hb' : Blocks (vs.map asFull) n := by
      refine ⟨by rw [List.map_map]; exact hb.names, ?_, ?_⟩
      · intro v hv
        obtain ⟨w, hw, rfl⟩ := List.mem_map.1 hv
        rw [asFull_size w (hs w hw) (h w hw)]
        exact hb.bound w hw
      · rw [List.pairwise_map]
        refine hb.disj.imp_of_mem fun {a b} ha hb' hab => ?_
        rw [asFull_size a (hs a ha) (h a ha), asFull_size b (hs b hb') (h b hb')]
        exact hab
    obtain ⟨s, h1, h2⟩ := C55_partial (vs.map asFull) n _ ops hb' hs' (primInfo_eq _ fun v hv e => absurd (hs' v hv) (by rw [e]; simp)) (by
      intro o ho
      have := hops o ho
      cases o with
      | gradient => trivial
      | upd u =>
        obtain ⟨v, hv, h1, h2⟩ := this
        exact ⟨asFull v, List.mem_map_of_mem hv, h1, h2⟩)
    refine ⟨s, ?_, h2.imp ?_⟩
    · rw [← h1]
      refine run_same _ _ ?_ ?_ n ops
      · show dictOf _ = dictOf _
        rw [List.map_map]; rfl
      · show dictOf _ = dictOf _
        rw [List.map_map]; rfl
    · rintro g dx ⟨e1, e2⟩
      refine ⟨e1, fun x => ?_⟩
      rw [e2 x]
      unfold functional
      rw [List.map_map]
      congr 1
      refine List.map_congr_left fun v hv => ?_
      refine Finset.sum_congr rfl fun k hk => ?_
      rw [asFull_pos v (hs v hv) (h v hv) k (Finset.mem_range.1 hk)]
      rfl

end

/-- A symmetric variable with one entry beside a vector, and one with four entries (three of the solver). -/
example : Blocks [⟨"x", [2], false, 0⟩, ⟨"S", [1, 1], true, 2⟩] 3 ∧ Blocks [⟨"S", [2, 2], true, 0⟩] 3 ∧
    (∀ v ∈ [(⟨"x", [2], false, 0⟩ : UVar), ⟨"S", [1, 1], true, 2⟩], v.sym = true → v.size ≤ 1) ∧
    ¬ ∀ v ∈ [(⟨"S", [2, 2], true, 0⟩ : UVar)], v.sym = true → v.size ≤ 1 :=
  ⟨⟨by decide, by decide, by decide⟩, ⟨by decide, by decide, by decide⟩, by decide, by decide⟩

end Verif.Props
