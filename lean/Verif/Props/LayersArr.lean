import Verif.Model.LayersArr
import Verif.Props.GradArr
import Verif.Props.LayersG
/-!
C99: CVXPYlayers' forward and backward passes down to the arrays of the C code.
-/
namespace Verif.Props
open Verif.Model Verif.Model.Pipeline Verif.Model.Saved Verif.Model.Flatten Verif.Model.GradArr Verif.Model.Layers
open Verif.Model.LayersG (GLSt GLOp GSol glrun glstep solInfo overwrite)
open Verif.Model.LayersArr (ALSt takeOver takeOne copyOut)
open Verif.Spec Verif.Spec.Pipeline Verif.Spec.GradPipe Verif.Spec.GradArr Verif.Spec.LayersG Verif.Spec.Layers
open Verif.Spec.GradRef (arr)
open Verif.Lemmas Verif.Lemmas.Pipeline Verif.Lemmas.GradPipe

theorem takeOver_eq {R : Type} {n : Nat} {l a : List R} (hl : l.length = n) (ha : a.length = n) : takeOver n l a = some l := by
  have key : ∀ k ≤ n, takeOver k l a = some (l.take k ++ a.drop k) := by
    intro k
    induction k with
    | zero => intro _; rfl
    | succ k ih =>
      intro hk
      have h1 := ih (by omega)
      unfold takeOver at h1 ⊢
      rw [List.range_succ, List.foldlM_append, h1]
      have hv : l[k]? = some (l[k]'(by omega)) := List.getElem?_eq_getElem _
      have hlen : k < (l.take k ++ a.drop k).length := by
        simp only [List.length_append, List.length_take, List.length_drop]
        omega
      have e0 : takeOne l (l.take k ++ a.drop k) k = some ((l.take k ++ a.drop k).set k (l[k]'(by omega))) := by
        unfold takeOne
        rw [hv]
        exact if_pos hlen
      show ([k].foldlM (takeOne l) (l.take k ++ a.drop k)) = _
      rw [List.foldlM_cons, e0]
      show some _ = some _
      congr 1
      have e1 : (l.take k).length = k := by rw [List.length_take]; omega
      rw [List.set_append, if_neg (by omega), e1, Nat.sub_self]
      have e2 : a.drop k = (a[k]'(by omega)) :: a.drop (k + 1) := List.drop_eq_getElem_cons (by omega)
      rw [e2, List.set_cons_zero]
      have e3 : l.take (k + 1) = l.take k ++ [l[k]'(by omega)] := (List.take_concat_get' l k (by omega)).symm
      rw [e3, List.append_assoc]
      rfl
  have := key n (le_refl _)
  rw [this, ← hl, List.take_length, hl, ← ha, List.drop_length, List.append_nil]

theorem copyOut_eq {R : Type} [Zero R] {n : Nat} {a : List R} (ha : a.length = n) :
    copyOut n a = some ((List.range n).map (fn a)) := by
  unfold copyOut
  have key : ∀ l : List Nat, (∀ i ∈ l, i < n) → (l.mapM fun i => a[i]?) = some (l.map (fn a)) := by
    intro l
    induction l with
    | nil => intro _; rfl
    | cons i l ih =>
      intro h
      have hi := h i List.mem_cons_self
      rw [List.mapM_cons, ih fun j hj => h j (List.mem_cons_of_mem _ hj)]
      have e : a[i]? = some (fn a i) := by
        unfold fn
        rw [List.getD_eq_getElem?_getD, List.getElem?_eq_getElem (by omega)]
        rfl
      rw [e]
      rfl
  exact key _ fun i hi => List.mem_range.1 hi

/-- A solution taken over. -/
theorem overwrite_fn {R : Type} [Zero R] {n : Nat} {l a : List R} (hl : l.length = n) (ha : a.length = n) : overwrite n l (fn a) = fn l := by
  funext i
  unfold overwrite
  split
  · rfl
  · rename_i hi
    unfold fn
    rw [List.getD_eq_getElem?_getD, List.getD_eq_getElem?_getD, List.getElem?_eq_none (by omega), List.getElem?_eq_none (by omega)]

section
variable {R S : Type} [Field R] [LinearOrder R] {sqrt : R → R} {eps tol : R} {A : AProb R} {Q : GradMem.Qdldl R}

/-- The process with index functions in place of arrays. -/
def viewL (s : ALSt R S A) : GLSt R S A.toG := ⟨view s.st, s.infos⟩

/-- A gradient with a solution passed. -/
theorem gradientAt_view (h : GradOK (libOf A Q sqrt eps tol) A.toG) {θ0 : A.prob.Vec} {pL iL : List Nat}
    (ha : ArraysOK (GradRef.exact sqrt eps tol) A θ0 pL iL Q) (F : Files) (hpi : primInfo A.prob.vs = .ok F.pi)
    (st : GradArr.St R S A.toG) (inv : ArrInv (GradRef.exact sqrt eps tol) A θ0 pL iL st)
    (hcanon : ∀ p, st.pipe.py.mem.canon p = canonVal (A.prob.maps p) p.isUpper st.pipe.py.mem.θ.1)
    (hdx : st.mem.dx = List.replicate A.dims.n 0) (sp sd : Option (List R)) {st' : GradPipe.St R S A.toG} {r : Except PyErr Unit}
    (hs : LayersG.gradientAt (libOf A Q sqrt eps tol) A.toG θ0 F (view st) sp sd = some (st', r)) :
    ∃ t, LayersArr.gradientAt (GradRef.exact sqrt eps tol) Q A F st sp sd = some (t, r) ∧ view t = st' ∧
      ArrInv (GradRef.exact sqrt eps tol) A θ0 pL iL t := by
  cases sp with
  | none => exact gradient_view h ha F hpi st inv hcanon hdx hs
  | some x =>
    cases sd with
    | none => exact gradient_view h ha F hpi st inv hcanon hdx hs
    | some y =>
      unfold LayersG.gradientAt at hs
      unfold LayersArr.gradientAt
      dsimp only at hs ⊢
      by_cases hl : x.length = A.dims.n ∧ y.length = A.dims.nu
      · rw [if_pos hl] at hs ⊢
        rw [show (view st).vgrad = st.vgrad from rfl] at hs
        cases hf : GradPipe.vdelta A.prob.vs st.vgrad with
        | error e =>
          rw [hf] at hs
          cases hs
          exact ⟨st, rfl, rfl, inv⟩
        | ok fields =>
          rw [hf] at hs
          dsimp only at hs ⊢
          rw [takeOver_eq hl.1 inv.x, takeOver_eq hl.2 inv.y]
          dsimp only
          have e : ({ view st with sol := (overwrite A.dims.n x (view st).sol.1, overwrite A.dims.nu y (view st).sol.2) } :
              GradPipe.St R S A.toG) = view { st with x := x, y := y } := by
            have e1 : overwrite A.dims.n x (view st).sol.1 = fn x := overwrite_fn hl.1 inv.x
            have e2 : overwrite A.dims.nu y (view st).sol.2 = fn y := overwrite_fn hl.2 inv.y
            rw [e1, e2]
            rfl
          have hs : GradPipe.gradient (libOf A Q sqrt eps tol) A.toG θ0 F (view { st with x := x, y := y }) = some (st', r) := by
            rw [← e]
            exact hs
          exact gradient_view h ha F hpi { st with x := x, y := y } ⟨inv.mem, hl.1, hl.2⟩ hcanon hdx hs
      · rw [if_neg hl] at hs ⊢
        cases hs
        exact ⟨st, rfl, rfl, inv⟩

/-- A forward call. -/
theorem forward_view {θ0 : A.prob.Vec} {pL iL : List Nat} (sg : Stgs S) (big : R) (solver : SolverFn R S)
    (hlen : ∀ n D s, (solver n D s).sol.length = A.dims.n ∧ ((solver n D s).duals 0).length = A.dims.nu) (F : Files)
    (s : ALSt R S A) (inv : ArrInv (GradRef.exact sqrt eps tol) A θ0 pL iL s.st) (ctx : Ctx) (vals : List (List Nat → R))
    (u : Option (List String)) (kw : List (String × S)) {s' : GLSt R S A.toG} {res : Except LErr (List (Option (List R)))}
    (hs : LayersG.forward A.toG θ0 sg big solver F (viewL s) ctx vals u kw = some (s', res)) :
    ∃ t, LayersArr.forward A θ0 sg big solver F s ctx vals u kw = some (t, res) ∧ viewL t = s' ∧
      ArrInv (GradRef.exact sqrt eps tol) A θ0 pL iL t.st := by
  unfold LayersG.forward at hs
  unfold LayersArr.forward
  rw [show (viewL s).st.pipe.tvals = s.st.pipe.tvals from rfl] at hs
  dsimp only at hs ⊢
  generalize putVals (A.prob.tps.map (·.name)) s.st.pipe.tvals (ctx.params.zip vals) = pv at hs ⊢
  obtain ⟨tv, found⟩ := pv
  dsimp only at hs ⊢
  cases found with
  | false =>
    cases hs
    exact ⟨_, rfl, rfl, ⟨inv.mem, inv.x, inv.y⟩⟩
  | true =>
    rw [if_pos rfl] at hs ⊢
    cases hsol : GradPipe.solve A.toG θ0 sg big solver F
        (view ({ s.st with pipe := { s.st.pipe with tvals := tv } } : GradArr.St R S A.toG)) u kw with
    | none =>
      have hsol' : GradPipe.solve A.toG θ0 sg big solver F { (viewL s).st with pipe := { (viewL s).st.pipe with tvals := tv } } u kw = none := hsol
      rw [hsol'] at hs
      cases hs
    | some pr =>
      obtain ⟨st2, r⟩ := pr
      have hsol' : GradPipe.solve A.toG θ0 sg big solver F { (viewL s).st with pipe := { (viewL s).st.pipe with tvals := tv } } u kw
        = some (st2, r) := hsol
      rw [hsol'] at hs
      obtain ⟨t, s1, rfl, s3, s4⟩ := solve_view A.toG θ0 sg big solver F _ u kw hsol
      rw [s1]
      have inv' : ArrInv (GradRef.exact sqrt eps tol) A θ0 pL iL t := by
        refine ⟨by rw [s3]; exact inv.mem, ?_, ?_⟩
        · rcases s4 with ⟨e, _⟩ | ⟨_, _, _, e, _⟩
          · rw [e]; exact inv.x
          · rw [e]; exact (hlen _ _ _).1
        · rcases s4 with ⟨_, e⟩ | ⟨_, _, _, _, e⟩
          · rw [e]; exact inv.y
          · rw [e]; exact (hlen _ _ _).2
      cases r with
      | error e =>
        cases hs
        exact ⟨_, rfl, rfl, inv'⟩
      | ok ret =>
        dsimp only at hs ⊢
        rw [copyOut_eq inv'.x, copyOut_eq inv'.y]
        dsimp only
        by_cases hv : (ctx.vars.all fun n => (A.prob.vs.map UVar.name).contains n) = true
        · rw [if_pos hv] at hs ⊢
          cases hs
          exact ⟨_, rfl, rfl, inv'⟩
        · rw [if_neg hv] at hs ⊢
          cases hs
          exact ⟨_, rfl, rfl, inv'⟩

/-- A backward call. -/
theorem backward_view (h : GradOK (libOf A Q sqrt eps tol) A.toG) {θ0 : A.prob.Vec} {pL iL : List Nat}
    (ha : ArraysOK (GradRef.exact sqrt eps tol) A θ0 pL iL Q) (F : Files) (hpi : primInfo A.prob.vs = .ok F.pi)
    (s : ALSt R S A) (inv : ArrInv (GradRef.exact sqrt eps tol) A θ0 pL iL s.st)
    (hcanon : ∀ p, s.st.pipe.py.mem.canon p = canonVal (A.prob.maps p) p.isUpper s.st.pipe.py.mem.θ.1)
    (hdx : s.st.mem.dx = List.replicate A.dims.n 0) (k : Nat) (dvars : List (Backward.Arr R)) {s' : GLSt R S A.toG}
    {res : Except LErr (List (Option (List Nat → Option R)))}
    (hs : LayersG.backward (libOf A Q sqrt eps tol) A.toG θ0 F (viewL s) k dvars = some (s', res)) :
    ∃ t, LayersArr.backward (GradRef.exact sqrt eps tol) Q A F s k dvars = some (t, res) ∧ viewL t = s' ∧
      ArrInv (GradRef.exact sqrt eps tol) A θ0 pL iL t.st := by
  unfold LayersG.backward at hs
  unfold LayersArr.backward
  rw [show (viewL s).infos = s.infos from rfl] at hs
  cases hk : s.infos[k]? with
  | none =>
    rw [hk] at hs
    cases hs
    exact ⟨s, rfl, rfl, inv⟩
  | some e =>
    obtain ⟨ctx, sol⟩ := e
    rw [hk] at hs
    dsimp only at hs ⊢
    rw [show (viewL s).st.vgrad = s.st.vgrad from rfl] at hs
    generalize putGrads (A.prob.vs.map UVar.name) s.st.vgrad (ctx.vars.zip dvars) = pv at hs ⊢
    obtain ⟨gr, found⟩ := pv
    dsimp only at hs ⊢
    cases found with
    | false =>
      cases hs
      exact ⟨_, rfl, rfl, ⟨inv.mem, inv.x, inv.y⟩⟩
    | true =>
      rw [if_pos rfl] at hs ⊢
      cases hg : LayersG.gradientAt (libOf A Q sqrt eps tol) A.toG θ0 F
          (view ({ s.st with vgrad := gr } : GradArr.St R S A.toG)) (some sol.1) (some sol.2) with
      | none =>
        have hg' : LayersG.gradientAt (libOf A Q sqrt eps tol) A.toG θ0 F { (viewL s).st with vgrad := gr } (some sol.1) (some sol.2) = none := hg
        rw [hg'] at hs
        cases hs
      | some pr =>
        obtain ⟨st2, r⟩ := pr
        have hg' : LayersG.gradientAt (libOf A Q sqrt eps tol) A.toG θ0 F { (viewL s).st with vgrad := gr } (some sol.1) (some sol.2)
          = some (st2, r) := hg
        rw [hg'] at hs
        obtain ⟨t, s1, rfl, s3⟩ := gradientAt_view h ha F hpi ({ s.st with vgrad := gr } : GradArr.St R S A.toG)
          ⟨inv.mem, inv.x, inv.y⟩ hcanon hdx _ _ hg
        rw [s1]
        cases r with
        | error e =>
          cases hs
          exact ⟨_, rfl, rfl, s3⟩
        | ok _ =>
          dsimp only at hs ⊢
          by_cases hv : (ctx.params.all fun n => (A.prob.tps.map (·.name)).contains n) = true
          · rw [if_pos hv] at hs ⊢
            cases hs
            exact ⟨_, rfl, rfl, s3⟩
          · rw [if_neg hv] at hs ⊢
            cases hs
            exact ⟨_, rfl, rfl, s3⟩

/-- One operation. -/
theorem glstep_view (h : GradOK (libOf A Q sqrt eps tol) A.toG) {θ0 : A.prob.Vec} {pL iL : List Nat}
    (ha : ArraysOK (GradRef.exact sqrt eps tol) A θ0 pL iL Q) (sg : Stgs S) (big : R) (solver : SolverFn R S)
    (hlen : ∀ n D s, (solver n D s).sol.length = A.dims.n ∧ ((solver n D s).duals 0).length = A.dims.nu) (F : Files)
    (hpi : primInfo A.prob.vs = .ok F.pi) (s : ALSt R S A) (inv : ArrInv (GradRef.exact sqrt eps tol) A θ0 pL iL s.st)
    (hcanon : ∀ p, s.st.pipe.py.mem.canon p = canonVal (A.prob.maps p) p.isUpper s.st.pipe.py.mem.θ.1)
    (hdx : s.st.mem.dx = List.replicate A.dims.n 0) (op : GLOp R S) {s' : GLSt R S A.toG}
    (hs : glstep (libOf A Q sqrt eps tol) A.toG θ0 sg big solver F (viewL s) op = some s') :
    ∃ t, LayersArr.step (GradRef.exact sqrt eps tol) Q A θ0 sg big solver F s op = some t ∧ viewL t = s' ∧
      ArrInv (GradRef.exact sqrt eps tol) A θ0 pL iL t.st := by
  cases op with
  | user op =>
    have hs : (GradPipe.step (libOf A Q sqrt eps tol) A.toG θ0 sg big solver F (view s.st) op).map
      (fun st => ({ viewL s with st := st } : GLSt R S A.toG)) = some s' := hs
    cases op with
    | setVal m v =>
      cases hs
      exact ⟨_, rfl, rfl, ⟨inv.mem, inv.x, inv.y⟩⟩
    | setGrad m v =>
      cases hs
      exact ⟨_, rfl, rfl, ⟨inv.mem, inv.x, inv.y⟩⟩
    | solve u kw =>
      have hs : ((GradPipe.solve A.toG θ0 sg big solver F (view s.st) u kw).map Prod.fst).map
        (fun st => ({ viewL s with st := st } : GLSt R S A.toG)) = some s' := hs
      cases hq : GradPipe.solve A.toG θ0 sg big solver F (view s.st) u kw with
      | none => rw [hq] at hs; cases hs
      | some pr =>
        rw [hq] at hs
        cases hs
        obtain ⟨t, s1, s2, s3, s4⟩ := solve_view A.toG θ0 sg big solver F s.st u kw hq
        refine ⟨⟨t, s.infos⟩, ?_, ?_, ?_⟩
        · show ((GradArr.solve A.toG θ0 sg big solver F s.st u kw).map Prod.fst).map _ = _
          rw [s1]; rfl
        · unfold viewL
          dsimp only
          rw [s2]
        · refine ⟨by rw [s3]; exact inv.mem, ?_, ?_⟩
          · rcases s4 with ⟨e, _⟩ | ⟨_, _, _, e, _⟩
            · rw [e]; exact inv.x
            · rw [e]; exact (hlen _ _ _).1
          · rcases s4 with ⟨_, e⟩ | ⟨_, _, _, _, e⟩
            · rw [e]; exact inv.y
            · rw [e]; exact (hlen _ _ _).2
    | gradient =>
      have hs : ((GradPipe.gradient (libOf A Q sqrt eps tol) A.toG θ0 F (view s.st)).map Prod.fst).map
        (fun st => ({ viewL s with st := st } : GLSt R S A.toG)) = some s' := hs
      cases hq : GradPipe.gradient (libOf A Q sqrt eps tol) A.toG θ0 F (view s.st) with
      | none => rw [hq] at hs; cases hs
      | some pr =>
        rw [hq] at hs
        cases hs
        obtain ⟨t, s1, s2, s3⟩ := gradient_view h ha F hpi s.st inv hcanon hdx hq
        refine ⟨⟨t, s.infos⟩, ?_, ?_, s3⟩
        · show ((GradArr.gradient (GradRef.exact sqrt eps tol) Q A F s.st).map Prod.fst).map _ = _
          rw [s1]; rfl
        · unfold viewL
          dsimp only
          rw [s2]
  | gradientAt sp sd =>
    have hs : (LayersG.gradientAt (libOf A Q sqrt eps tol) A.toG θ0 F (view s.st) sp sd).map
      (fun r => ({ viewL s with st := r.1 } : GLSt R S A.toG)) = some s' := hs
    cases hq : LayersG.gradientAt (libOf A Q sqrt eps tol) A.toG θ0 F (view s.st) sp sd with
    | none => rw [hq] at hs; cases hs
    | some pr =>
      rw [hq] at hs
      cases hs
      obtain ⟨t, s1, s2, s3⟩ := gradientAt_view h ha F hpi s.st inv hcanon hdx sp sd hq
      refine ⟨⟨t, s.infos⟩, ?_, ?_, s3⟩
      · show (LayersArr.gradientAt (GradRef.exact sqrt eps tol) Q A F s.st sp sd).map _ = _
        rw [s1]; rfl
      · unfold viewL
        dsimp only
        rw [s2]
  | forward ctx vals u kw =>
    have hs : (LayersG.forward A.toG θ0 sg big solver F (viewL s) ctx vals u kw).map Prod.fst = some s' := hs
    cases hq : LayersG.forward A.toG θ0 sg big solver F (viewL s) ctx vals u kw with
    | none => rw [hq] at hs; cases hs
    | some pr =>
      rw [hq] at hs
      cases hs
      obtain ⟨t, s1, s2, s3⟩ := forward_view sg big solver hlen F s inv ctx vals u kw hq
      refine ⟨t, ?_, s2, s3⟩
      show (LayersArr.forward A θ0 sg big solver F s ctx vals u kw).map Prod.fst = _
      rw [s1]; rfl
  | backward k dvars =>
    have hs : (LayersG.backward (libOf A Q sqrt eps tol) A.toG θ0 F (viewL s) k dvars).map Prod.fst = some s' := hs
    cases hq : LayersG.backward (libOf A Q sqrt eps tol) A.toG θ0 F (viewL s) k dvars with
    | none => rw [hq] at hs; cases hs
    | some pr =>
      rw [hq] at hs
      cases hs
      obtain ⟨t, s1, s2, s3⟩ := backward_view h ha F hpi s inv hcanon hdx k dvars hq
      refine ⟨t, ?_, s2, s3⟩
      show (LayersArr.backward (GradRef.exact sqrt eps tol) Q A F s k dvars).map Prod.fst = _
      rw [s1]; rfl

/-- All interleavings. -/
theorem arr_glhistory [IsStrictOrderedRing R] (h : GradOK (libOf A Q sqrt eps tol) A.toG) {θ0 : A.prob.Vec} {pL iL : List Nat}
    (ha : ArraysOK (GradRef.exact sqrt eps tol) A θ0 pL iL Q) {sg : Stgs S} {big : R} {solver : SolverFn R S}
    (hlen : ∀ n D s, (solver n D s).sol.length = A.dims.n ∧ ((solver n D s).duals 0).length = A.dims.nu) {F : Files}
    (hpi : primInfo A.prob.vs = .ok F.pi) {W : Verif.Model.Factor.Ws R} {delta : Nat → R} {g : Verif.Model.Grad.DCanon R}
    (hstep : SolveStep (libOf A Q sqrt eps tol) A.toG θ0 sg big solver F W delta g) (ops : List (GLOp R S)) : ∀ (s : ALSt R S A) (a : GLAbs R),
      (∀ k, Convex A.toG (vector A.prob (glafter A.toG sg solver a (ops.take k)).g.u.sent)) →
      (∀ sp sd, GLOp.gradientAt sp sd ∈ ops → ∀ x y, Passed A.toG sp sd x y → SignOK (libOf A Q sqrt eps tol) A.toG (fn y)) →
      GLInv (libOf A Q sqrt eps tol) A.toG θ0 W delta g (viewL s) a → ArrInv (GradRef.exact sqrt eps tol) A θ0 pL iL s.st →
      ∃ t, LayersArr.run (GradRef.exact sqrt eps tol) Q A θ0 sg big solver F s ops = some t ∧
        glrun (libOf A Q sqrt eps tol) A.toG θ0 sg big solver F (viewL s) ops = some (viewL t) ∧
        GLInv (libOf A Q sqrt eps tol) A.toG θ0 W delta g (viewL t) (glafter A.toG sg solver a ops) ∧
        ArrInv (GradRef.exact sqrt eps tol) A θ0 pL iL t.st := by
  induction ops with
  | nil => intro s a _ _ inv inv2; exact ⟨s, rfl, rfl, inv, inv2⟩
  | cons op ops ih =>
    intro s a hconv hsgn inv inv2
    obtain ⟨s1, g1, g2⟩ := glhistory h hpi hstep [op] (viewL s) a (by
      intro k
      match k with
      | 0 => exact hconv 0
      | k + 1 =>
        have : [op].take (k + 1) = (op :: ops).take 1 := by simp
        rw [this]
        exact hconv 1) (fun sp sd hm => hsgn sp sd (by
          rw [List.mem_singleton] at hm
          rw [hm]
          exact List.mem_cons_self)) inv
    have g1' : glstep (libOf A Q sqrt eps tol) A.toG θ0 sg big solver F (viewL s) op = some s1 := by
      unfold glrun at g1
      rw [List.foldlM_cons] at g1
      have e : (glstep (libOf A Q sqrt eps tol) A.toG θ0 sg big solver F (viewL s) op >>= pure) = some s1 := g1
      rw [bind_pure] at e
      exact e
    obtain ⟨t, t1, rfl, t3⟩ := glstep_view h ha sg big solver hlen F hpi s inv2 inv.g.canon inv.g.dx op g1'
    obtain ⟨t', k1, k2, k3, k4⟩ := ih t _ (fun k => hconv (k + 1)) (fun sp sd hm => hsgn sp sd (List.mem_cons_of_mem _ hm)) g2 t3
    refine ⟨t', ?_, ?_, k3, k4⟩
    · unfold LayersArr.run at k1 ⊢
      rw [List.foldlM_cons, t1]
      exact k1
    · unfold glrun at k2 ⊢
      rw [List.foldlM_cons, g1']
      exact k2

/-- A process after import: the generated arrays, whatever the parts are that are written before they are read. -/
structure AImport (A : AProb R) (Q : GradMem.Qdldl R) (sqrt : R → R) (eps tol : R) (S : Type) where
  big : R
  junk : CId → Option (List R)
  a : UAbs R
  θ0 : A.prob.Vec
  hθ0 : θ0.1 = vector A.prob a.sent
  store : String → S
  used : String → S
  pvals : String → Option (List R)
  before : PObj R
  n : Nat
  x : List R
  y : List R
  hx : x.length = A.dims.n
  hy : y.length = A.dims.nu
  hsol : SignOK (libOf A Q sqrt eps tol) A.toG (fn y)

def AImport.init (I : AImport A Q sqrt eps tol S) : ALSt R S A :=
  ⟨GradArr.init (GradRef.exact sqrt eps tol) A I.θ0 ⟨I.a.vals, ⟨I.pvals,
    (canonGen A.prob.ps (A.prob.k.canonIds A.prob.quad) A.prob.quad A.prob.maps I.θ0).initMem
      (A.prob.k.solver A.prob.quad A.prob.lp) I.junk, I.store, I.used, none⟩, I.before, I.n⟩ I.x I.y, []⟩

def AImport.abs (I : AImport A Q sqrt eps tol S) : GLAbs R := ⟨⟨I.a, fun _ => none, (fn I.x, fn I.y), I.n⟩, []⟩

theorem AImport.toG (I : AImport A Q sqrt eps tol S) : ∃ J : GImport (libOf A Q sqrt eps tol) A.toG S,
    J.θ0 = I.θ0 ∧ J.big = I.big ∧ J.abs = I.abs ∧ J.init = viewL I.init := by
  obtain ⟨W, delta, g, e⟩ := init_view (sqrt := sqrt) (eps := eps) (tol := tol) A Q I.θ0 (⟨I.a.vals, ⟨I.pvals,
    (canonGen A.prob.ps (A.prob.k.canonIds A.prob.quad) A.prob.quad A.prob.maps I.θ0).initMem
      (A.prob.k.solver A.prob.quad A.prob.lp) I.junk, I.store, I.used, none⟩, I.before, I.n⟩ : Pipeline.St R S A.prob) I.x I.y
  refine ⟨⟨I.big, I.junk, I.a, I.θ0, I.hθ0, I.store, I.used, I.pvals, I.before, I.n, (fn I.x, fn I.y), I.hsol, W, delta, g⟩, rfl, rfl, rfl, ?_⟩
  exact congrArg (fun w => (⟨w, []⟩ : GLSt R S A.toG)) e.symm

/-- **C99** (refinement): for every interleaving of forward and backward calls of CVXPYlayers with each other and with operations of the
user, the process down to the arrays runs without an access outside of an array, and its state represents the one of C73. -/
theorem C99_arrays [IsStrictOrderedRing R] (h : GradOK (libOf A Q sqrt eps tol) A.toG) (sg : Stgs S)
    (hd : "default_settings" ∉ sg.enabled) (solver : SolverFn R S) (hsolver : SolverOK A.prob sg solver)
    (hsgn : ∀ n D s, SignOK (libOf A Q sqrt eps tol) A.toG (fn ((solver n D s).duals 0)))
    (hlen : ∀ n D s, (solver n D s).sol.length = A.dims.n ∧ ((solver n D s).duals 0).length = A.dims.nu)
    (order : List CId → List CId) (horder : ∀ l, (order l).Perm l) (I : AImport A Q sqrt eps tol S) {pL iL : List Nat}
    (ha : ArraysOK (GradRef.exact sqrt eps tol) A I.θ0 pL iL Q) (ops : List (GLOp R S))
    (hh : GHist (libOf A Q sqrt eps tol) A.toG sg solver I.abs ops) :
    ∃ F t W delta g, gen A.prob I.θ0 order = .ok F ∧ primInfo A.prob.vs = .ok F.pi ∧
      LayersArr.run (GradRef.exact sqrt eps tol) Q A I.θ0 sg I.big solver F I.init ops = some t ∧
      glrun (libOf A Q sqrt eps tol) A.toG I.θ0 sg I.big solver F (viewL I.init) ops = some (viewL t) ∧
      SolveStep (libOf A Q sqrt eps tol) A.toG I.θ0 sg I.big solver F W delta g ∧
      GLInv (libOf A Q sqrt eps tol) A.toG I.θ0 W delta g (viewL t) (glafter A.toG sg solver I.abs ops) ∧
      ArrInv (GradRef.exact sqrt eps tol) A I.θ0 pL iL t.st := by
  obtain ⟨J, j1, j2, j3, j4⟩ := I.toG
  obtain ⟨F, s, f1, f2, f3, k1, k2⟩ := gl_start h sg hd solver hsolver hsgn order horder J [] (by
    rw [j3]
    exact ⟨fun k => by rw [List.take_nil]; exact hh.1 0, fun sp sd hm => (by cases hm)⟩)
  rw [j1] at f1 f3 k2
  rw [j2] at f3
  cases k1
  rw [j4] at k2
  have e : glafter A.toG sg solver J.abs [] = I.abs := j3
  rw [e] at k2
  obtain ⟨t, t1, t2, t3, t4⟩ := arr_glhistory h ha hlen f2 f3 ops I.init I.abs hh.1 hh.2 k2
    ⟨Verif.Lemmas.GradRef.start_between (arrays_generated h ha), I.hx, I.hy⟩
  exact ⟨F, t, J.W, J.delta, J.g, f1, f2, t1, t2, f3, t3, t4⟩

/-- **C99** What a backward call computes on its arrays, after every interleaving: the gradients of the parameters for the solution of
its own forward call, with the matrices `P` and `A` of the problem solved last. -/
theorem C99_mixed [IsStrictOrderedRing R] (h : GradOK (libOf A Q sqrt eps tol) A.toG) (sg : Stgs S)
    (hd : "default_settings" ∉ sg.enabled) (solver : SolverFn R S) (hsolver : SolverOK A.prob sg solver)
    (hsgn : ∀ n D s, SignOK (libOf A Q sqrt eps tol) A.toG (fn ((solver n D s).duals 0)))
    (hlen : ∀ n D s, (solver n D s).sol.length = A.dims.n ∧ ((solver n D s).duals 0).length = A.dims.nu)
    (order : List CId → List CId) (horder : ∀ l, (order l).Perm l) (I : AImport A Q sqrt eps tol S) {pL iL : List Nat}
    (ha : ArraysOK (GradRef.exact sqrt eps tol) A I.θ0 pL iL Q) (ops : List (GLOp R S))
    (hh : GHist (libOf A Q sqrt eps tol) A.toG sg solver I.abs ops) (hfull : Full A.prob.tps)
    (hord : ∀ p ∈ A.prob.tps, ∀ k < slots p, slotIdx p k = unpos p.shape k) :
    ∃ F t, gen A.prob I.θ0 order = .ok F ∧
      LayersArr.run (GradRef.exact sqrt eps tol) Q A I.θ0 sg I.big solver F I.init ops = some t ∧
      ∀ k p, (glafter A.toG sg solver I.abs ops).past[k]? = some p → p.ctx.vars.Nodup → AllNamed (A.prob.vs.map UVar.name) p.ctx.vars →
        AllNamed (A.prob.tps.map (·.name)) p.ctx.params → AllNamed p.ctx.vars (A.prob.vs.map UVar.name) →
        ∀ gr : String → List Nat → R, ∀ dvars : List (Backward.Arr R), dvars.length = p.ctx.vars.length →
        (∀ v ∈ A.prob.vs, ∀ i : Nat, p.ctx.vars[i]? = some v.name → ∃ arr, dvars[i]? = some arr ∧ arr.shape = v.shape ∧ arr.val = gr v.name) →
        ∃ t' gs, LayersArr.backward (GradRef.exact sqrt eps tol) Q A F t k dvars = some (t', .ok gs) ∧
          RightFor (libOf A Q sqrt eps tol) A.toG (vector A.prob (glafter A.toG sg solver I.abs ops).g.u.sent) p.sent p.sol gr
            (arr t'.st.mem.delta) p.ctx.params gs := by
  obtain ⟨J, j1, j2, j3, j4⟩ := I.toG
  obtain ⟨F, t, W, delta, g, f1, f2, t1, t2, f3, t3, t4⟩ := C99_arrays h sg hd solver hsolver hsgn hlen order horder I ha ops hh
  obtain ⟨F', s, f1', k1, k2⟩ := C73_mixed h sg hd solver hsolver hsgn order horder J ops (by rw [j3]; exact hh) hfull hord
  have f1 : gen A.toG.prob I.θ0 order = .ok F := f1
  rw [j1] at f1' k1 k2
  rw [f1] at f1'
  cases f1'
  rw [j2, j4, t2] at k1
  cases k1
  refine ⟨F, t, f1, t1, fun k p hk hnd hv hp hst gr dvars hl hdv => ?_⟩
  rw [j3] at k2
  obtain ⟨s', gs, e1, e2⟩ := k2 k p hk hnd hv hp hst gr dvars hl hdv
  obtain ⟨t', u1, rfl, _⟩ := backward_view h ha F f2 t t4 t3.g.canon t3.g.dx k dvars e1
  exact ⟨t', gs, u1, e2⟩

/-- **C99 (partial)** As C73, down to the arrays: the backward call of any earlier forward call returns the gradients of the parameters
for that forward call, if the problem solved last has the same matrices `P` and `A`. Missing: other matrices (C73_fails), contexts that
lack a variable (C56), what C70 excludes, rounding. -/
theorem C99_partial [IsStrictOrderedRing R] (h : GradOK (libOf A Q sqrt eps tol) A.toG) (sg : Stgs S)
    (hd : "default_settings" ∉ sg.enabled) (solver : SolverFn R S) (hsolver : SolverOK A.prob sg solver)
    (hsgn : ∀ n D s, SignOK (libOf A Q sqrt eps tol) A.toG (fn ((solver n D s).duals 0)))
    (hlen : ∀ n D s, (solver n D s).sol.length = A.dims.n ∧ ((solver n D s).duals 0).length = A.dims.nu)
    (order : List CId → List CId) (horder : ∀ l, (order l).Perm l) (I : AImport A Q sqrt eps tol S) {pL iL : List Nat}
    (ha : ArraysOK (GradRef.exact sqrt eps tol) A I.θ0 pL iL Q) (ops : List (GLOp R S))
    (hh : GHist (libOf A Q sqrt eps tol) A.toG sg solver I.abs ops) (hfull : Full A.prob.tps)
    (hord : ∀ p ∈ A.prob.tps, ∀ k < slots p, slotIdx p k = unpos p.shape k) :
    ∃ F t, gen A.prob I.θ0 order = .ok F ∧
      LayersArr.run (GradRef.exact sqrt eps tol) Q A I.θ0 sg I.big solver F I.init ops = some t ∧
      ∀ k p, (glafter A.toG sg solver I.abs ops).past[k]? = some p →
        SameMatrices A.toG (vector A.prob (glafter A.toG sg solver I.abs ops).g.u.sent) (vector A.prob p.sent) →
        p.ctx.vars.Nodup → AllNamed (A.prob.vs.map UVar.name) p.ctx.vars →
        AllNamed (A.prob.tps.map (·.name)) p.ctx.params → AllNamed p.ctx.vars (A.prob.vs.map UVar.name) →
        ∀ gr : String → List Nat → R, ∀ dvars : List (Backward.Arr R), dvars.length = p.ctx.vars.length →
        (∀ v ∈ A.prob.vs, ∀ i : Nat, p.ctx.vars[i]? = some v.name → ∃ arr, dvars[i]? = some arr ∧ arr.shape = v.shape ∧ arr.val = gr v.name) →
        ∃ t' gs, LayersArr.backward (GradRef.exact sqrt eps tol) Q A F t k dvars = some (t', .ok gs) ∧
          RightFor (libOf A Q sqrt eps tol) A.toG (vector A.prob p.sent) p.sent p.sol gr (arr t'.st.mem.delta) p.ctx.params gs := by
  obtain ⟨F, t, f1, f2, f3⟩ := C99_mixed h sg hd solver hsolver hsgn hlen order horder I ha ops hh hfull hord
  refine ⟨F, t, f1, f2, fun k p hk hm hnd hv hp hst gr dvars hl hdv => ?_⟩
  obtain ⟨s', gs, e1, e2, f, e3, e4⟩ := f3 k p hk hnd hv hp hst gr dvars hl hdv
  refine ⟨s', gs, e1, e2, f, e3, fun t' x' y' hder => e4 t' x' y' ?_⟩
  unfold DerivativeWith at hder ⊢
  rw [hm.1, hm.2]
  exact hder

/-- What a forward call does on its arrays, after every interleaving: it returns the values that the solver's result for the parameters
of this call means, and from then on counts as a forward call with these parameters and this solution. -/
theorem C99_forward [IsStrictOrderedRing R] (h : GradOK (libOf A Q sqrt eps tol) A.toG) (sg : Stgs S)
    (hd : "default_settings" ∉ sg.enabled) (solver : SolverFn R S) (hsolver : SolverOK A.prob sg solver)
    (hsgn : ∀ n D s, SignOK (libOf A Q sqrt eps tol) A.toG (fn ((solver n D s).duals 0)))
    (hlen : ∀ n D s, (solver n D s).sol.length = A.dims.n ∧ ((solver n D s).duals 0).length = A.dims.nu)
    (order : List CId → List CId) (horder : ∀ l, (order l).Perm l) (I : AImport A Q sqrt eps tol S) {pL iL : List Nat}
    (ha : ArraysOK (GradRef.exact sqrt eps tol) A I.θ0 pL iL Q) (ops : List (GLOp R S))
    (hh : GHist (libOf A Q sqrt eps tol) A.toG sg solver I.abs ops) (ctx : Ctx) (tv : String → List Nat → R)
    (hp : ∀ n, n ∈ ctx.params ↔ n ∈ A.prob.tps.map (·.name)) (hv : AllNamed (A.prob.vs.map UVar.name) ctx.vars)
    (kw : List (String × S)) (hkw : ∀ kv ∈ kw, (sg.translate.lookup kv.1).getD kv.1 ∈ sg.enabled ∧
      sg.accepts ((sg.translate.lookup kv.1).getD kv.1) kv.2 = true) (hcv : Convex A.toG (vector A.prob tv)) :
    let vals := ctx.params.map tv
    let out := solver (glafter A.toG sg solver I.abs ops).g.n (dataAt A.prob (vector A.prob tv)) (settingFor sg kw)
    ∃ F t t' o ret sent, gen A.prob I.θ0 order = .ok F ∧
      LayersArr.run (GradRef.exact sqrt eps tol) Q A I.θ0 sg I.big solver F I.init ops = some t ∧
      LayersArr.forward A I.θ0 sg I.big solver F t ctx vals none kw = some (t', .ok (ctx.vars.map o.prim)) ∧
      Solved A.prob I.big out (constAt A.prob (vector A.prob tv)) o (.ok ret) ∧ (∀ p ∈ A.prob.tps, sent p.name = tv p.name) ∧
      (glafter A.toG sg solver I.abs (ops ++ [.forward ctx vals none kw])).past
        = (glafter A.toG sg solver I.abs ops).past ++ [⟨ctx, sent, (fn out.sol, fn (out.duals 0))⟩] := by
  intro vals out
  obtain ⟨J, j1, j2, j3, j4⟩ := I.toG
  obtain ⟨F, t, W, delta, g, f1, f2, t1, t2, f3, t3, t4⟩ := C99_arrays h sg hd solver hsolver hsgn hlen order horder I ha ops hh
  obtain ⟨F', s, s', o, ret, sent, f1', k1, k2, k3, k4, k5⟩ := C73_forward h sg hd solver hsolver hsgn order horder J ops
    (by rw [j3]; exact hh) ctx tv hp hv kw hkw hcv
  have f1 : gen A.toG.prob I.θ0 order = .ok F := f1
  rw [j1] at f1' k1 k2
  rw [f1] at f1'
  cases f1'
  rw [j2, j4, t2] at k1
  cases k1
  rw [j2] at k2 k3
  rw [j3] at k3 k5
  obtain ⟨t', u1, rfl, u3⟩ := forward_view sg I.big solver hlen F t t4 ctx vals none kw k2
  exact ⟨F, t, t', o, ret, sent, f1, t1, u1, k3, k4, k5⟩

end
/-! ### Concrete cases: minimize `½ b x² + a x` without constraints, as for C73, with arrays. -/

def exLA : AProb ℚ := ⟨exLG.prob, ⟨1, 0, 0, 1, 0⟩, [0, 1], [0], [0, 0], []⟩

/-- Factorization for one variable and no constraints. -/
def exLAQ : GradMem.Qdldl ℚ where
  factor := fun K => { p := [0, 0], i := [], x := [], D := [K.x.getD 0 0], Dinv := [1 / K.x.getD 0 0] }
  solve := fun _ Dinv x => [Dinv.getD 0 0 * x.getD 0 0]

def exLAF : GradMem.Flops ℚ := GradRef.exact (fun _ => 0) (1 / 1000000) (1 / 1000000000000)

/-- Generation with `a = b = 1`, then `ops`, then a backward call of the first forward call. -/
def exLARun (ops : List (GLOp ℚ Int)) : Option (List (Option ℚ)) :=
  match gen exLA.prob ⟨[1, 1], rfl⟩ id with
  | .error _ => none
  | .ok F =>
    let pipe : Pipeline.St ℚ Int exLA.prob := ⟨fun _ => none, ⟨fun _ => none, (canonGen exLA.prob.ps
      (exLA.prob.k.canonIds exLA.prob.quad) exLA.prob.quad exLA.prob.maps ⟨[1, 1], rfl⟩).initMem
      (exLA.prob.k.solver exLA.prob.quad exLA.prob.lp) (fun _ => none), fun _ => 0, fun _ => 0, none⟩,
      ⟨fun _ => none, fun _ => none, none, none⟩, 0⟩
    match LayersArr.run exLAF exLAQ exLA ⟨[1, 1], rfl⟩ exStgs (10 ^ 30) exLGSolver F
      ⟨GradArr.init exLAF exLA ⟨[1, 1], rfl⟩ pipe [0] [], []⟩ ops with
    | none => none
    | some s =>
      match LayersArr.backward exLAF exLAQ exLA F s 0 [⟨[], fun _ => 1⟩] with
      | some (_, .ok gs) => some (gs.map fun g => match g with
        | some g => g []
        | none => none)
      | _ => none

/-- **C99 fails** if the matrices of the problem solved last are others: on its arrays the code keeps within bounds, but returns 1 and
-1/2 in place of 2 and -1. -/
theorem C99_fails : exNear (exLARun (exLGOps.take 1)) [2, -1] ∧ exNear (exLARun exLGOps) [1, -1 / 2] := by
  decide +kernel

/-! ### The hypotheses are met: two forward calls of the example of C98 (minimize `½ λ x²` subject to `x = a`) with the same `λ`. -/

noncomputable def exAImport (before : PObj ℝ) : AImport (exArr false) rQ Real.sqrt (1 / 1000000) (1 / 1000000000000) Int where
  big := 10 ^ 30
  junk := fun _ => none
  a := exGradAbs.u
  θ0 := ⟨[1, 1], rfl⟩
  hθ0 := rfl
  store := fun _ => 0
  used := fun _ => 0
  pvals := fun _ => none
  before := before
  n := 0
  x := [0]
  y := [0]
  hx := rfl
  hy := rfl
  hsol := fun k h1 h2 => absurd h2 (Nat.not_lt.2 h1)

theorem exA_fwd (b : GLAbs ℝ) (l a : ℝ) : ∃ sent sol,
    (glastep (exArr false).toG exStgs exGradSolver b (exGFwd l a)).past = b.past ++ [⟨exGCtx, sent, sol⟩] ∧
    (glastep (exArr false).toG exStgs exGradSolver b (exGFwd l a)).g.u.sent = sent ∧ vector (exArr false).prob sent = [a, l] :=
  exG_fwd b l a

theorem exA_same (a l a' : ℝ) : SameMatrices (exArr false).toG [a, l] [a', l] := by
  obtain ⟨h1, h2, -⟩ := exGrad_data false a l [] [a, l] rfl rfl
  obtain ⟨h1', h2', -⟩ := exGrad_data false a' l [] [a', l] rfl rfl
  have h1 : dataAt (exArr false).toG.prob [a, l] .P = _ := h1
  have h2 : dataAt (exArr false).toG.prob [a, l] .A = _ := h2
  have h1' : dataAt (exArr false).toG.prob [a', l] .P = _ := h1'
  have h2' : dataAt (exArr false).toG.prob [a', l] .A = _ := h2'
  unfold SameMatrices matP matA
  rw [h1, h2, h1', h2']
  exact ⟨rfl, rfl⟩

example (before : PObj ℝ) :
    let I := exAImport before
    let ops := [exGFwd 2 3, exGFwd 2 4]
    GHist (exArrLib false) (exArr false).toG exStgs exGradSolver I.abs ops ∧
    ∃ (F : Files) (t t' : ALSt ℝ Int (exArr false)) (gs : List (Option (List Nat → Option ℝ))) (p : Past ℝ),
      gen (exArr false).prob I.θ0 id = .ok F ∧
      LayersArr.run (GradRef.exact Real.sqrt (1 / 1000000 : ℝ) (1 / 1000000000000)) rQ (exArr false) I.θ0 exStgs I.big exGradSolver F I.init ops
        = some t ∧
      LayersArr.backward (GradRef.exact Real.sqrt (1 / 1000000 : ℝ) (1 / 1000000000000)) rQ (exArr false) F t 0 [⟨[], fun _ => 1⟩]
        = some (t', .ok gs) ∧ p.ctx = exGCtx ∧ vector (exArr false).prob p.sent = [3, 2] ∧
      RightFor (exArrLib false) (exArr false).toG [3, 2] p.sent p.sol (fun _ _ => 1) (arr t'.st.mem.delta) ["lam", "a"] gs := by
  intro I ops
  have h0 : I.abs.past = [] := rfl
  obtain ⟨t1, s1, p1, e1, v1⟩ := exA_fwd I.abs 2 3
  obtain ⟨t2, s2, p2, e2, v2⟩ := exA_fwd (glastep (exArr false).toG exStgs exGradSolver I.abs (exGFwd 2 3)) 2 4
  have hh : GHist (exArrLib false) (exArr false).toG exStgs exGradSolver I.abs ops := by
    refine ⟨fun k => ?_, ?_⟩
    · apply exArr_convex
      apply exGrad_convex
      match k with
      | 0 =>
        show (0 : ℝ) ≤ (vector (exGrad false).prob fun _ _ => 1).getD 1 0
        simp [vector, exGrad, exLam, slotVec, slots]
      | 1 =>
        show (0 : ℝ) ≤ (vector (exArr false).prob (glastep (exArr false).toG exStgs exGradSolver I.abs (exGFwd 2 3)).g.u.sent).getD 1 0
        rw [e1, v1]
        simp
      | k + 2 =>
        have : ops.take (k + 2) = ops := List.take_of_length_le (Nat.le_add_left 2 k)
        rw [this]
        show (0 : ℝ) ≤ (vector (exArr false).prob (glastep (exArr false).toG exStgs exGradSolver
          (glastep (exArr false).toG exStgs exGradSolver I.abs (exGFwd 2 3)) (exGFwd 2 4)).g.u.sent).getD 1 0
        rw [e2, v2]
        simp
    · intro sp sd hm
      simp only [ops, exGFwd, List.mem_cons, List.not_mem_nil, or_false] at hm
      rcases hm with h | h <;> cases h
  refine ⟨hh, ?_⟩
  obtain ⟨F, t, f1, f2, f3⟩ := C99_partial (exArr_ok false) exStgs (by decide) exGradSolver (exGradSolver_ok false)
    (fun _ _ _ k h1 h2 => absurd h2 (Nat.not_lt.2 h1)) (fun _ _ _ => ⟨rfl, rfl⟩) id (fun l => List.Perm.refl l) I
    (exArr_arrays false _ [] rfl rfl) ops hh (by
      intro p hp
      have hp : p ∈ (exGrad false).prob.tps := hp
      simp only [exGrad, List.mem_cons, List.not_mem_nil, or_false] at hp
      rcases hp with rfl | rfl <;> rfl) (by
      intro p hp k hk
      have hp : p ∈ (exGrad false).prob.tps := hp
      simp only [exGrad, List.mem_cons, List.not_mem_nil, or_false] at hp
      rcases hp with rfl | rfl <;> rfl)
  have hpast : (glafter (exArr false).toG exStgs exGradSolver I.abs ops).past = [⟨exGCtx, t1, s1⟩, ⟨exGCtx, t2, s2⟩] := by
    show (glastep (exArr false).toG exStgs exGradSolver (glastep (exArr false).toG exStgs exGradSolver I.abs (exGFwd 2 3)) (exGFwd 2 4)).past = _
    rw [p2, p1, h0]
    rfl
  have hlast : (glafter (exArr false).toG exStgs exGradSolver I.abs ops).g.u.sent = t2 := e2
  obtain ⟨t', gs, k1, k2⟩ := f3 0 ⟨exGCtx, t1, s1⟩ (by rw [hpast]; rfl) (by rw [hlast, v2, v1]; exact exA_same 4 2 3) (show exGCtx.vars.Nodup by decide)
    (by
      intro m hm
      show m ∈ (exGrad false).prob.vs.map UVar.name
      simp only [exGCtx, List.mem_cons, List.not_mem_nil, or_false] at hm
      subst hm
      simp [exGrad])
    (by
      intro m hm
      show m ∈ (exGrad false).prob.tps.map (·.name)
      simp only [exGCtx, List.mem_cons, List.not_mem_nil, or_false] at hm
      rcases hm with rfl | rfl <;> simp [exGrad, exLam])
    (by
      intro m hm
      have hm : m ∈ (exGrad false).prob.vs.map UVar.name := hm
      simpa [exGrad, exGCtx] using hm)
    (fun _ _ => 1) [⟨[], fun _ => 1⟩] rfl (by
      intro v hv i hi
      have hv : v ∈ (exGrad false).prob.vs := hv
      simp only [exGrad, List.mem_cons, List.not_mem_nil, or_false] at hv
      subst hv
      match i, hi with
      | 0, _ => exact ⟨_, rfl, rfl, rfl⟩
      | i + 1, hi => simp [exGCtx] at hi)
  rw [v1] at k2
  exact ⟨F, t, t', gs, _, f1, f2, k1, rfl, v1, k2⟩

end Verif.Props
