import Verif.Props.ExMem
import Verif.Props.Retrieve
/-! C16 in explicit mode: `cpg_obj` reads the stored solution as if it were the canonical one. -/
namespace Verif.Props
open Verif.Model Verif.Model.Explicit Verif.Model.Deltas Verif.Spec Verif.Lemmas Verif.Lemmas.Explicit Verif.Lemmas.Deltas Finset

/-- `cpg_obj`, run on what the explicit solver stored of a canonical solution `x`, returns the canonical objective at `x`. -/
def ObjOK (g : ExGen) : Prop :=
  ∀ (Pp Pi : Nat → Nat) (Px q x : Nat → ℚ), (∀ i < g.nVar, Pp i ≤ Pp (i + 1)) →
    (∀ i < g.nVar, ∀ j ∈ Ico (Pp i) (Pp (i + 1)), Pi j < g.nVar) →
    cpgObj g.nVar Pp Pi Px q (g.solX x) = quadObjective g.nVar (csc Pp Pi Px) q x

/-- What the loop over the requests appends to the stored positions. -/
theorem outInds_fold (size o : String → Nat) (reqs : List (String × List Nat)) : ∀ (offs : List (String × Nat)) (s : StoreSt),
    (reqs.map (·.1)).Nodup → (∀ r ∈ reqs, offs.lookup r.1 = some (o r.1)) →
    (reqs.foldl (fun s r => storeStep size s.1 s.2 r) (offs, s)).2.outInds
      = s.outInds ++ reqs.flatMap fun r => (reqInds size r).map (o r.1 + ·) := by
  induction reqs with
  | nil => intro offs s _ _; simp
  | cons r reqs ih =>
    intro offs s hn ho
    rw [List.map_cons, List.nodup_cons] at hn
    have h0 := ho r (List.mem_cons_self ..)
    have es : storeStep size offs s r = (dictPut offs r.1 s.shift,
        { shift := s.shift + (reqInds size r).length
          outInds := s.outInds ++ (reqInds size r).map (o r.1 + ·)
          info := dictPut s.info r.1 (infoAt size r s.shift) }) := by
      unfold storeStep
      simp only [h0]
      rfl
    rw [List.foldl_cons]
    simp only [es]
    rw [ih _ _ hn.2]
    · simp
    · intro r' hr'
      rw [lookup_dictPut, if_neg]
      · exact ho r' (List.mem_cons_of_mem _ hr')
      · intro e
        exact hn.1 (e ▸ List.mem_map_of_mem hr')

/-- The canonical position of every stored entry, in the order of storage. -/
theorem exobj_outInds {g : ExGen} (h : ExOK g) :
    g.store.outInds = g.reqs.flatMap fun r => (reqInds g.size r).map ((g.offs.lookup r.1).getD 0 + ·) := by
  have := outInds_fold g.size (fun n => (g.offs.lookup n).getD 0) g.reqs g.offs ⟨0, [], []⟩ h.reqs (exmem_lookup h)
  unfold ExGen.store storeVars
  rw [this]
  simp

/-- **C16 (explicit mode)** `cpg_obj` returns the canonical objective, for all problem data and solutions, exactly if the stored
entries are all canonical variables in canonical order. -/
theorem C16_stored_iff (g : ExGen) (hl : g.store.outInds.length ≤ g.nVar) :
    ObjOK g ↔ g.store.outInds = List.range g.nVar := by
  constructor
  · intro h
    apply List.ext_getElem?
    intro k
    by_cases hk : k < g.nVar
    · have e := h (fun _ => 0) (fun _ => 0) (fun _ => 0) (fun i => if i = k then 1 else 0) (fun i => if i = k then 1 else 0)
        (fun _ _ => le_rfl) (fun i _ j hj => by simp at hj)
      rw [(C16_cpg_obj_partial g.nVar _ _ _ _ _ (fun _ _ => le_rfl) (fun i _ j hj => by simp at hj)).1] at e
      unfold quadObjective dot csc at e
      simp only [Ico_self, sum_empty, mul_zero, zero_mul, sum_const_zero, ite_mul, one_mul, zero_add] at e
      rw [sum_ite_eq', sum_ite_eq', if_pos (mem_range.2 hk), if_pos (mem_range.2 hk)] at e
      unfold ExGen.solX at e
      rw [List.getElem?_range hk]
      cases ho : g.store.outInds[k]? with
      | none => rw [ho] at e; simp at e
      | some i =>
        rw [ho] at e
        by_cases hi : i = k
        · rw [hi]
        · simp [hi] at e
    · rw [List.getElem?_eq_none (by omega), List.getElem?_eq_none (by simpa using hk)]
  · intro h Pp Pi Px q x hm hi
    rw [(C16_cpg_obj_partial g.nVar Pp Pi Px q _ hm hi).1]
    have e : ∀ i < g.nVar, g.solX x i = x i := by
      intro i hn
      unfold ExGen.solX
      rw [h, List.getElem?_range hn]
    unfold quadObjective dot
    refine congrArg₂ _ (congrArg _ ?_) ?_
    · apply sum_congr rfl
      intro i hi'
      apply sum_congr rfl
      intro r hr
      rw [e i (mem_range.1 hi'), e r (mem_range.1 hr)]
    · apply sum_congr rfl
      intro i hi'
      rw [e i (mem_range.1 hi')]

/-- The variables of the problem lie one after the other in the canonical vector, from position `p` on, and fill it up to `n`
(there are no auxiliary variables between or behind them). -/
def Tiled (size : String → Nat) (offs : List (String × Nat)) : Nat → List String → Nat → Prop
  | p, [], n => p = n
  | p, v :: vs, n => offs.lookup v = some p ∧ Tiled size offs (p + size v) vs n

/-- **C16 (explicit mode, partial)** Without `stored_vars` (all variables are stored, in the order of the problem,
pdaqp.py:162) and without auxiliary variables, `cpg_obj` returns the canonical objective of the solution that was found.
Missing: see `C16_stored_fails_order` and `C16_stored_fails_aux`. -/
theorem C16_stored_partial (g : ExGen) (h : ExOK g) (hd : g.reqs = g.all.map fun n => (n, []))
    (ht : Tiled g.size g.offs 0 g.all g.nVar) : ObjOK g := by
  have key : ∀ (vs : List String) (p n : Nat), Tiled g.size g.offs p vs n →
      p ≤ n ∧ (vs.flatMap fun v => (reqInds g.size (v, [])).map ((g.offs.lookup v).getD 0 + ·)) = List.range' p (n - p) := by
    intro vs
    induction vs with
    | nil => rintro p n rfl; simp
    | cons v vs ih =>
      rintro p n ⟨h1, h2⟩
      obtain ⟨i1, i2⟩ := ih _ _ h2
      refine ⟨by omega, ?_⟩
      rw [List.flatMap_cons, i2, h1]
      unfold reqInds
      simp only [Option.getD_some, if_true]
      rw [show n - p = g.size v + (n - (p + g.size v)) by omega, ← List.range'_append, List.range_eq_range',
        List.map_add_range']
      simp
  have e : g.store.outInds = List.range g.nVar := by
    rw [exobj_outInds h, hd, List.flatMap_map, (key g.all 0 g.nVar ht).2, List.range_eq_range']
    rfl
  exact (C16_stored_iff g (by rw [e]; simp)).2 e

/-- Two variables `x` (two entries) and `y` (one entry), stored in the order `y`, `x`. -/
def exSwapped : ExGen where
  size n := if n = "x" then 2 else 1
  offs := [("x", 0), ("y", 2)]
  all := ["x", "y"]
  reqs := [("y", []), ("x", [])]
  nVar := 3
  K := 1
  nLaws := 1

/-- A variable `x` with two entries and an auxiliary canonical variable (such as the bound `t` of `abs`). -/
def exAux : ExGen where
  size _ := 2
  offs := [("x", 0)]
  all := ["x"]
  reqs := [("x", [])]
  nVar := 3
  K := 1
  nLaws := 1

/-- **C16 fails** if `stored_vars` lists all variables in another order: `cpg_obj` is generated, but reads the entries of one
variable as those of another. -/
theorem C16_stored_fails_order : ExOK exSwapped ∧ Tiled exSwapped.size exSwapped.offs 0 exSwapped.all exSwapped.nVar ∧
    reducedFlag exSwapped.size exSwapped.offs exSwapped.all exSwapped.reqs = false ∧ ¬ ObjOK exSwapped := by
  refine ⟨⟨by decide, by decide, by decide, ?_⟩, by unfold exSwapped; simp [Tiled, List.lookup], by decide, ?_⟩
  · intro r hr
    simp only [exSwapped, List.mem_cons, List.not_mem_nil, or_false] at hr
    rcases hr with rfl | rfl
    · exact ⟨by decide, by decide, by decide⟩
    · exact ⟨by decide, by decide, by decide⟩
  · rw [C16_stored_iff _ (by decide)]
    decide

/-- **C16 fails** for problems with auxiliary variables: their part of the objective is taken to be zero. -/
theorem C16_stored_fails_aux : ExOK exAux ∧ exAux.reqs = exAux.all.map (fun n => (n, [])) ∧
    reducedFlag exAux.size exAux.offs exAux.all exAux.reqs = false ∧ ¬ ObjOK exAux := by
  refine ⟨⟨by decide, by decide, by decide, ?_⟩, by decide, by decide, ?_⟩
  · intro r hr
    simp only [exAux, List.mem_cons, List.not_mem_nil, or_false] at hr
    subst hr
    exact ⟨by decide, by decide, by decide⟩
  · rw [C16_stored_iff _ (by decide)]
    decide

/-- Two variables, all stored, filling the canonical vector. -/
def exTiled : ExGen := { exSwapped with reqs := [("x", []), ("y", [])] }

example : ExOK exTiled ∧ exTiled.reqs = exTiled.all.map (fun n => (n, [])) ∧
    Tiled exTiled.size exTiled.offs 0 exTiled.all exTiled.nVar := by
  refine ⟨⟨by decide, by decide, by decide, ?_⟩, by decide, by unfold exTiled exSwapped; simp [Tiled, List.lookup]⟩
  intro r hr
  simp only [exTiled, List.mem_cons, List.not_mem_nil, or_false] at hr
  rcases hr with rfl | rfl
  · exact ⟨by decide, by decide, by decide⟩
  · exact ⟨by decide, by decide, by decide⟩

end Verif.Props
