import Verif.Lemmas.ExPipe
import Mathlib.Tactic.FieldSimp
import Mathlib.Tactic.NormNum
/-!
C69: explicit mode as a whole.
-/
namespace Verif.Props
open Verif.Model Verif.Model.Pipeline Verif.Model.Saved Verif.Model.Flatten Verif.Model.Explicit Verif.Model.ExPipe
open Verif.Spec.Flatten Verif.Spec Verif.Spec.Pipeline Verif.Spec.Explicit Verif.Spec.ExPipe
open Verif.Lemmas Verif.Lemmas.Flatten Verif.Lemmas.Pipeline Verif.Lemmas.Explicit Verif.Lemmas.ExPipe Finset

section
variable {R : Type} [Field R] [LinearOrder R] [IsStrictOrderedRing R] {E : EProb R}

/-- What generation must have found for explicit mode to be right (C38, C41): every entry of `q` and `u` depends on the
parameters that can vary with coefficients of one sign, and no zero row of `A` precedes another equality row. -/
structure ECond (E : EProb R) (F : EFiles R) : Prop where
  oneSign : ∀ i < E.n + E.m,
    (∀ c < totalSize E.prob.ps + 1, F.b.lower c < F.b.upper c → 0 ≤ E.C i c) ∨
    (∀ c < totalSize E.prob.ps + 1, F.b.lower c < F.b.upper c → E.C i c ≤ 0)
  eqRows : ∀ i j, i < j → j < E.eqM → (∀ c < E.n, F.A i c = 0) → (∃ c < E.n, F.A j c ≠ 0) → False

/-- What generation has done. -/
theorem egen_ok (h : EOK E) {θ0 : E.prob.Vec} {F : EFiles R} (hg : egen E θ0 = .ok F) :
    paramBounds (totalSize E.prob.ps + 1) E.big E.pcons = .ok F.b ∧
    F.M = reduceMpqp E.n E.m F.A ((List.range (E.n + E.m)).map fun i => (thetaBound (totalSize E.prob.ps + 1) E.C F.b i).1)
      ((List.range (E.n + E.m)).map fun i => (thetaBound (totalSize E.prob.ps + 1) E.C F.b i).2) ∧
    F.lo = sel F.M.thMask ((List.range (E.n + E.m)).map fun i => (thetaBound (totalSize E.prob.ps + 1) E.C F.b i).1) ∧
    F.up = sel F.M.thMask ((List.range (E.n + E.m)).map fun i => (thetaBound (totalSize E.prob.ps + 1) E.C F.b i).2) ∧
    F.eq = eqInds E.eqM (rowMask E.m E.n F.A) ∧
    (∀ v ∈ E.vs, v.name ∈ F.names ↔ v.name ∈ E.reqs.map Prod.fst) ∧
    ∀ θ : List R, θ.length = totalSize E.prob.ps →
      F.A = (problemAt E θ).A ∧ F.H = ((problemAt E θ).regularised E.reg).H := by
  have hs : Sound (E.gen θ0) := canonGen_sound _ _ _ _ h.wf θ0
  unfold egen at hg
  split at hg
  · cases hg
  rename_i hch
  simp only [Bool.or_eq_true, not_or, Bool.not_eq_true] at hch
  split at hg
  · rename_i a p ha hp
    dsimp only at hg
    split at hg
    · cases hg
    rename_i b hb
    split at hg
    · cases hg
    rename_i s hdrop
    cases hg
    refine ⟨hb, rfl, rfl, rfl, rfl, ?_, ?_⟩
    · intro v hv
      have hok : InfoOK (⟨E.vs.map fun v => (v.name, ()), E.vs.map UVar.sym, false⟩ : Stored.Info Unit) := by
        refine ⟨?_, by simp⟩
        rw [List.map_map]
        exact h.varNames
      have hroom : FlagRoom (addedNames E.exGen.offs E.reqs) 0 (E.vs.map fun v => (v.name, ())).length
          ((E.vs.map fun v => (v.name, ())).map Prod.fst) := by
        by_contra hn
        rw [(C59_partial _ _ hok).2 hn] at hdrop
        cases hdrop
      obtain ⟨s', e1, e2, _⟩ := (C59_partial _ _ hok).1 hroom
      rw [hdrop] at e1
      cases e1
      have hd : s.dict = (E.vs.map fun v => (v.name, ())).filter (fun e => decide (e.1 ∈ addedNames E.exGen.offs E.reqs)) := e2
      rw [hd, added_eq h]
      simp only [List.mem_map, List.mem_filter, decide_eq_true_eq]
      constructor
      · rintro ⟨e, ⟨⟨w, _, rfl⟩, e3⟩, e4⟩
        simp only at e3 e4
        rw [e4] at e3
        exact e3
      · intro e3
        exact ⟨_, ⟨⟨v, hv, rfl⟩, e3⟩, rfl⟩
    · intro θ hθ
      have hdat : ∀ c, (E.gen θ0).chg c = false → (E.gen θ0).canon0 c = dataAt E.prob θ c := by
        intro c hc
        rw [hs.written c ⟨θ, hθ⟩ hc]
        exact canonVal_dataAt h.prob.wf θ hθ c
      rw [hdat _ hch.1] at hp
      rw [hdat _ hch.2] at ha
      exact ⟨by simp [problemAt, ha], by simp [problemAt, Qp.regularised, hp]⟩
  · cases hg

/-- The point that the explicit solution gives is optimal for the problem at the parameter vector. -/
theorem explicit_optimal (h : EOK E) {θ0 : E.prob.Vec} {F : EFiles R} (hg : egen E θ0 = .ok F) (hc : ECond E F)
    {sol : List R → Nat → R} (hsol : PdaqpOK F E.n sol) {θ : List R} (hθ : θ.length = totalSize E.prob.ps)
    (hbox : InBox (totalSize E.prob.ps + 1) F.b (fn (θ ++ [1]))) (hf : ∃ y, (problemAt E θ).Feasible y) :
    ((problemAt E θ).regularised E.reg).Optimal
      (sol (thetaUpdate E.n E.m F.M.thMask (problemAt E θ).q (problemAt E θ).u)) := by
  obtain ⟨g1, g2, g3, g4, g5, _, g7⟩ := egen_ok h hg
  obtain ⟨gA, gH⟩ := g7 θ hθ
  have hcov : ∀ i < E.n + E.m, Covers (totalSize E.prob.ps + 1) E.C F.b i := fun i hi =>
    (C38_partial _ _ _ (fun c hc' => le_trans (hbox c hc').1 (hbox c hc').2) i).2 (hc.oneSign i hi)
  set Q := problemAt E θ with hQ
  set thmin := (List.range (E.n + E.m)).map fun i => (thetaBound (totalSize E.prob.ps + 1) E.C F.b i).1 with hmin
  set thmax := (List.range (E.n + E.m)).map fun i => (thetaBound (totalSize E.prob.ps + 1) E.C F.b i).2 with hmax
  have hrow : ∀ i < E.n + E.m, fn thmin i ≤ (if i < E.n then Q.q i else Q.u (i - E.n)) ∧
      (if i < E.n then Q.q i else Q.u (i - E.n)) ≤ fn thmax i := by
    intro i hi
    have := hcov i hi _ hbox
    rw [C_eq h θ hθ i hi] at this
    have e1 : fn thmin i = (thetaBound (totalSize E.prob.ps + 1) E.C F.b i).1 := by
      simp [fn, hmin, List.getD, List.getElem?_map, List.getElem?_range hi]
    have e2 : fn thmax i = (thetaBound (totalSize E.prob.ps + 1) E.C F.b i).2 := by
      simp [fn, hmax, List.getD, List.getElem?_map, List.getElem?_range hi]
    rw [e1, e2]
    exact this
  obtain ⟨e1, e2, e3, e4, e5⟩ := C42_elimination E.n E.m F.A thmin thmax (by simp [hmin]) (by simp [hmax]) Q.q Q.u
    (fun i hi => by have := hrow i (by omega); rwa [if_pos hi] at this)
    (fun j hj => by
      have := hrow (E.n + j) (by omega)
      rwa [if_neg (by omega), Nat.add_sub_cancel_left] at this)
  have hM0 : reduceMpqp E.n E.m F.A thmin thmax = F.M := g2.symm
  rw [hM0] at e1 e2 e3 e4 e5
  set th := thetaUpdate E.n E.m F.M.thMask Q.q Q.u with hth
  have hrows : F.M.rows = sel (rowMask E.m E.n F.A) (List.range E.m) := by rw [g2]; rfl
  have hmaskget : ∀ i < E.m, ((rowMask E.m E.n F.A)[i]? = some true ↔ ∃ c < E.n, F.A i c ≠ 0) ∧
      ((rowMask E.m E.n F.A)[i]? = some false ↔ ∀ c < E.n, F.A i c = 0) := by
    intro i hi
    unfold rowMask
    rw [List.getElem?_map, List.getElem?_range hi]
    simp
  -- the rows declared as equalities
  have heq : ∀ p, p ∈ F.eq ↔ ∃ i, F.M.rows[p]? = some i ∧ i < E.eqM := by
    rw [g5, hrows]
    refine (C41_partial (rowMask E.m E.n F.A) E.eqM E.m (by simp [rowMask]) h.eqRows).2 ?_
    intro i j h1 h2 h3 h4
    have hm := h.eqRows
    exact hc.eqRows i j h1 h2 ((hmaskget i (by omega)).2.1 h3) ((hmaskget j (by omega)).1.1 h4)
  -- theta is in its box
  have hthbox : ∀ (k : Nat) x, th[k]? = some x → (∀ y, F.lo[k]? = some y → y ≤ x) ∧ ∀ y, F.up[k]? = some y → x ≤ y := by
    intro k x hx
    have hx : (sel F.M.thMask ((List.range (E.n + E.m)).map fun i => if i < E.n then Q.q i else Q.u (i - E.n)))[k]? = some x := by
      rw [sel_map]; exact hx
    constructor
    · intro y hy
      rw [g3] at hy
      refine sel_rel (fun y x => y ≤ x) _ _ _ ?_ k y x hy hx
      intro i y x h1 h2
      have hi : i < E.n + E.m := by
        have := (List.getElem?_eq_some_iff.1 h1).1; simpa [hmin] using this
      rw [List.getElem?_map, List.getElem?_range hi] at h1 h2
      simp only [Option.map_some, Option.some.injEq] at h1 h2
      rw [← h1, ← h2]
      have := (hrow i hi).1
      simpa [fn, hmin, List.getD, List.getElem?_map, List.getElem?_range hi] using this
    · intro y hy
      rw [g4] at hy
      refine sel_rel (fun y x => x ≤ y) _ _ _ ?_ k y x hy hx
      intro i y x h1 h2
      have hi : i < E.n + E.m := by
        have := (List.getElem?_eq_some_iff.1 h1).1; simpa [hmax] using this
      rw [List.getElem?_map, List.getElem?_range hi] at h1 h2
      simp only [Option.map_some, Option.some.injEq] at h1 h2
      rw [← h1, ← h2]
      have := (hrow i hi).2
      simpa [fn, hmax, List.getD, List.getElem?_map, List.getElem?_range hi] using this
  have hp := hsol th e1 hthbox
  dsimp only at hp
  -- the reduced problem is the problem
  have hget : ∀ r, r < F.M.rows.length → F.M.rows[r]? = some (F.M.rows.getD r 0) := by
    intro r hr
    simp [List.getD, List.getElem?_eq_getElem hr]
  have hz : ∀ j < E.m, j ∉ F.M.rows → ∀ x : Nat → R, ∑ c ∈ range E.n, F.A j c * x c = 0 := by
    intro j hj hn x
    apply sum_eq_zero
    intro c hcc
    rw [mem_range] at hcc
    by_contra hne
    refine hn ((e5 j).2 ⟨hj, c, hcc, fun h0 => hne (by rw [h0, zero_mul])⟩)
  have hfeas : ∀ x : Nat → R, Q.Feasible x →
      (∀ r < F.M.rows.length, ∑ c ∈ range E.n, F.A (F.M.rows.getD r 0) c * x c ≤ F.M.b r + colDot F.M.B th r ∧
        (r ∈ F.eq → ∑ c ∈ range E.n, F.A (F.M.rows.getD r 0) c * x c = F.M.b r + colDot F.M.B th r)) := by
    intro x hx r hr
    have hr' := hget r hr
    rw [e4 r _ hr']
    have hj := ((e5 _).1 (List.mem_of_getElem? hr')).1
    have := hx _ hj
    rw [gA]
    refine ⟨this.1, fun he => ?_⟩
    obtain ⟨i, h1, h2⟩ := (heq r).1 he
    rw [hr'] at h1
    cases h1
    exact this.2 h2
  obtain ⟨y0, hy0⟩ := hf
  have hback : ∀ x : Nat → R,
      (∀ r < F.M.rows.length, ∑ c ∈ range E.n, F.A (F.M.rows.getD r 0) c * x c ≤ F.M.b r + colDot F.M.B th r ∧
        (r ∈ F.eq → ∑ c ∈ range E.n, F.A (F.M.rows.getD r 0) c * x c = F.M.b r + colDot F.M.B th r)) → Q.Feasible x := by
    intro x hx j hj
    show ∑ c ∈ range E.n, Q.A j c * x c ≤ Q.u j ∧ (j < E.eqM → ∑ c ∈ range E.n, Q.A j c * x c = Q.u j)
    rw [← gA]
    by_cases hm : j ∈ F.M.rows
    · obtain ⟨r, hr, e⟩ := List.getElem_of_mem hm
      have hr' : F.M.rows[r]? = some j := by rw [List.getElem?_eq_getElem hr, e]
      have hd : F.M.rows.getD r 0 = j := by simp [List.getD, hr']
      have := hx r hr
      rw [hd, e4 r j hr'] at this
      exact ⟨this.1, fun he => this.2 ((heq r).2 ⟨j, hr', he⟩)⟩
    · have h1 := hy0 j hj
      rw [← gA] at h1
      have h1 : ∑ c ∈ range E.n, F.A j c * y0 c ≤ Q.u j ∧ (j < E.eqM → ∑ c ∈ range E.n, F.A j c * y0 c = Q.u j) := h1
      rw [hz j hj hm] at h1
      rw [hz j hj hm]
      exact h1
  have hcost : ∀ x : Nat → R, (∑ i ∈ range E.n, ∑ j ∈ range E.n, x i * F.H i j * x j) / 2
      + ∑ i ∈ range E.n, (F.M.f i + colDot F.M.F th i) * x i = (Q.regularised E.reg).cost x := by
    intro x
    unfold Qp.cost
    rw [gH]
    congr 1
    apply sum_congr rfl
    intro i hi
    rw [e3 i (mem_range.1 hi)]
    rfl
  obtain ⟨o1, o2⟩ := hp ⟨y0, hfeas y0 hy0⟩
  refine ⟨hback _ o1, fun y hy => ?_⟩
  have := o2 y (hfeas y hy)
  rw [← hcost, ← hcost]
  exact this

/-! ### one call -/

theorem einv_updates (h : EOK E) (θ0 : E.prob.Vec) (b : Bounds R) (acts : List { a : UpdCall R // a.Valid E.prob.ps }) :
    ∀ m, EInv (E.gen θ0) m → EInv (E.gen θ0) (acts.foldl (fun m a => eupdate E θ0 b a m) m) := by
  have hs : Sound (E.gen θ0) := canonGen_sound _ _ _ _ h.wf θ0
  induction acts with
  | nil => intro m hm; exact hm
  | cons a acts ih => intro m hm; exact ih _ (einv_update hs _ hm)

/-- `cpg_solve` evaluates the solution for the problem at the parameter vector in memory. -/
theorem csolve_some (h : EOK E) {θ0 : E.prob.Vec} (F : EFiles R) (sol : List R → Nat → R) {m : EMem E} (hm : EInv (E.gen θ0) m) :
    csolve E θ0 F sol m = some ((E.gen θ0).resetFlags ((E.gen θ0).canonicalize m),
      sol (thetaUpdate E.n E.m F.M.thMask (problemAt E m.θ.1).q (problemAt E m.θ.1).u)) := by
  have hc : ∀ c, ((E.gen θ0).canonicalize m).canon c = dataAt E.prob m.θ.1 c := fun c => by
    rw [canonicalize_fresh hm c]
    exact canonVal_dataAt h.prob.wf m.θ.1 m.θ.2 c
  obtain ⟨mq, hq, _⟩ := h.q
  obtain ⟨mu, hu, _⟩ := h.u
  have e1 : ∃ l, dataAt E.prob m.θ.1 .q = some l := by
    have : E.prob.maps .q = some mq := hq
    exact ⟨_, by unfold dataAt; rw [this]; rfl⟩
  have e2 : ∃ l, dataAt E.prob m.θ.1 .u = some l := by
    have : E.prob.maps .u = some mu := hu
    exact ⟨_, by unfold dataAt; rw [this]; rfl⟩
  obtain ⟨lq, e1⟩ := e1
  obtain ⟨lu, e2⟩ := e2
  unfold csolve
  dsimp only
  rw [hc, hc, e1, e2]
  dsimp only [problemAt]
  rw [e1, e2]
  rfl

/-- Values within the bounds are not moved. -/
theorem clamped_same (h : EOK E) {b : Bounds R} (hb : paramBounds (totalSize E.prob.ps + 1) E.big E.pcons = .ok b)
    (T : String → List R) (hlen : ∀ p ∈ E.prob.ps, (T p.name).length = p.size)
    (ha : Admissible E (E.prob.ps.flatMap fun p => T p.name)) (a : { a : UpdCall R // a.Valid E.prob.ps })
    (hT : (T a.1.name)[a.1.idx]? = some a.1.val) : clampAct E b a = a := by
  obtain ⟨p, hp, hn, hi⟩ := a.2
  obtain ⟨j, hj, rfl⟩ := List.getElem_of_mem hp
  have hg := vector_get E.prob.ps T hlen j hj a.1.idx hi
  rw [hn, hT] at hg
  have hl : (E.prob.ps.flatMap fun p => T p.name).length = totalSize E.prob.ps := by
    unfold totalSize
    rw [List.length_flatMap]
    congr 1
    exact List.map_congr_left hlen
  have hlt := (List.getElem?_eq_some_iff.1 hg).1
  have hbox := in_box h hb hl ha (colOf E.prob.ps j + a.1.idx) (by omega)
  have hfn : fn ((E.prob.ps.flatMap fun p => T p.name) ++ [1]) (colOf E.prob.ps j + a.1.idx) = a.1.val := by
    simp [fn, List.getD, List.getElem?_append_left hlt, hg]
  rw [hfn] at hbox
  apply Subtype.ext
  unfold clampAct
  dsimp only
  rw [← hn, baseCol_eq E.prob.ps h.wf.names h.wf.sizes j hj]
  dsimp only [Option.getD_some]
  rw [clamp_id b _ a.1.val hbox.1 hbox.2, hn]

theorem eupdates_same (b : Bounds R) (θ0 : E.prob.Vec) (acts : List { a : UpdCall R // a.Valid E.prob.ps }) (hs : ∀ a ∈ acts, clampAct E b a = a) :
    ∀ m : EMem E, acts.foldl (fun m a => eupdate E θ0 b a m) m = acts.foldl (fun m a => (E.gen θ0).update a m) m := by
  induction acts with
  | nil => intro m; rfl
  | cons a acts ih =>
    intro m
    rw [List.foldl_cons, List.foldl_cons, ih (fun a ha => hs a (List.mem_cons_of_mem _ ha))]
    unfold eupdate
    rw [hs a (List.mem_cons_self ..)]

theorem updateActs_mem (ps : List UParam) (hn : (ps.map UParam.name).Nodup) (L : List String) (vals : String → Option (List R)) (T : String → List R)
    (hT : ∀ p ∈ ps, p.name ∈ L → T p.name = (vals p.name).getD []) (hlen : ∀ p ∈ ps, (T p.name).length = p.size)
    (a : { a : UpdCall R // a.Valid ps }) (ha : a ∈ updateActs ps L vals) : (T a.1.name)[a.1.idx]? = some a.1.val := by
  unfold updateActs at ha
  obtain ⟨p, _, hm⟩ := List.mem_flatMap.1 ha
  split at hm
  · rename_i hL
    obtain ⟨i, _, rfl⟩ := List.mem_map.1 hm
    have e := hT p.1 p.2 (by simpa using hL)
    have hl := hlen p.1 p.2
    dsimp only
    rw [e] at hl ⊢
    rw [List.getElem?_eq_getElem (by rw [hl]; exact i.2)]
    simp
  · simp at hm

/-- The method and the user agree on the state. -/
structure EAgree (θ0 : E.prob.Vec) (st : ESt E) (a : UAbs R) : Prop where
  inv : EInv (E.gen θ0) st.mem
  θ : st.mem.θ.1 = vector E.prob a.sent
  vals : st.tvals = a.vals

/-- After the updates of a call the vector is that of the values transferred. -/
theorem eupdates_vector (h : EOK E) {b : Bounds R} (hb : paramBounds (totalSize E.prob.ps + 1) E.big E.pcons = .ok b)
    {θ0 : E.prob.Vec} {st : ESt E} {a : UAbs R} (hag : EAgree θ0 st a) (u : Option (List String))
    (hv : ∀ p ∈ E.tps, ∃ t, a.vals p.name = some t) (hu : ∀ L, u = some L → ∀ n ∈ L, ∃ p ∈ E.tps, p.name = n)
    (ha : Admissible E (vector E.prob (a.transfer u).sent)) :
    ((updateActs E.prob.ps (u.getD (E.prob.ps.map UParam.name)) (E.prob.flat st.tvals)).foldl
      (fun m a => eupdate E θ0 b a m) st.mem).θ.1 = vector E.prob (a.transfer u).sent := by
  set L := u.getD (E.prob.ps.map UParam.name) with hL
  set vals := E.prob.flat st.tvals with hvals
  set T : String → List R := fun n => if n ∈ L then (vals n).getD [] else (absOf E.prob a).sent n with hTdef
  have hval : ∀ p ∈ E.prob.ps, ∃ v, vals p.name = some v ∧ v.length = p.size := by
    intro q hq
    obtain ⟨p, hp, rfl⟩ := List.mem_map.1 hq
    obtain ⟨t, ht⟩ := hv p hp
    refine ⟨slotVec p t, ?_, ?_⟩
    · show E.prob.flat st.tvals p.name = _
      rw [flat_eq h.prob hp, hag.vals, ht]; rfl
    · simp [slotVec, TParam.toU, slots_eq]
  have hsl : ∀ p ∈ E.prob.ps, ((absOf E.prob a).sent p.name).length = p.size := by
    intro q hq
    obtain ⟨p, hp, rfl⟩ := List.mem_map.1 hq
    show ((absOf E.prob a).sent p.name).length = _
    rw [absOf_sent h.prob a hp]
    simp [slotVec, TParam.toU, slots_eq]
  have hTlen : ∀ p ∈ E.prob.ps, (T p.name).length = p.size := by
    intro p hp
    simp only [hTdef]
    split
    · obtain ⟨v, e1, e2⟩ := hval p hp
      rw [e1]; exact e2
    · exact hsl p hp
  have hvec : (E.prob.ps.flatMap fun p => T p.name) = vector E.prob (a.transfer u).sent := by
    unfold vector Prob.ps
    rw [List.flatMap_map]
    apply List.flatMap_congr
    intro p hp
    obtain ⟨t, ht⟩ := hv p hp
    have hflat : vals p.name = some (slotVec p t) := by
      rw [hvals, flat_eq h.prob hp, hag.vals, ht]; rfl
    have hs := absOf_sent h.prob a hp
    show (if p.name ∈ L then (vals p.name).getD [] else (absOf E.prob a).sent p.name) = _
    rw [hflat, hs]
    have hmem : p.name ∈ E.prob.ps.map UParam.name := by
      rw [ps_names]; exact List.mem_map.2 ⟨p, hp, rfl⟩
    unfold UAbs.transfer
    dsimp only
    cases u with
    | none => simp [hL, hmem, ht]
    | some L' =>
      by_cases hm : p.name ∈ L'
      · simp [hL, hm, ht]
      · simp [hL, hm]
  rw [eupdates_same b θ0 _ (fun act hact => clamped_same h hb T hTlen (by rw [hvec]; exact ha) act
    (updateActs_mem E.prob.ps h.wf.names L vals T (fun p _ hp => by simp only [hTdef, if_pos hp]) hTlen act hact)), updates_θ]
  have := updates_vector E.prob.quad h.wf θ0 L vals (absOf E.prob a).sent st.mem.θ
    (by rw [hag.θ, ← absOf_vector h.prob]; rfl) hsl hval
  refine Eq.trans this hvec

/-- The point arrives in the problem object. -/
theorem earrives (h : EOK E) {θ0 : E.prob.Vec} {F : EFiles R} (hg : egen E θ0 = .ok F) (x : Nat → R) (time : R) (before : PObj R) :
    ∃ o ret, save E.big ⟨1, F.names, 0⟩ (E.vs.map UVar.name) E.cons ⟨eread E x, fun _ => [], 0, "", time⟩ before = .ok (o, ret) ∧
      Delivered E x time o (.ok ret) := by
  obtain ⟨_, _, _, _, _, g6, _⟩ := egen_ok h hg
  obtain ⟨o, ret, s1, s2, _, s4, s5⟩ := C63_stored E.big ⟨1, F.names, 0⟩ (E.vs.map UVar.name) E.cons
    ⟨eread E x, fun _ => [], 0, "", time⟩ before (Nat.zero_le _)
  obtain ⟨t1, t2, t3⟩ := s4 Nat.one_ne_zero
  refine ⟨o, ret, s1, ?_, ?_, ?_, t1, t2, by rw [t3]⟩
  · intro v hv hr
    have hmem : v.name ∈ E.vs.map UVar.name := List.mem_map.2 ⟨v, hv, rfl⟩
    have he := eread_eq h x hv hr
    have hl : (eread E x v.name).length = size v.shape := by
      rw [he]; simp [UVar.size, size_prod]
    obtain ⟨f, hf, hf'⟩ := reshapeF_spec v.shape (eread E x v.name) hl
    refine ⟨eread E x v.name, f, ?_, hf, fun idx hi => ?_⟩
    · rw [s2 v.name hmem, if_pos]
      exact (g6 v hv).2 hr
    · have hk : pos v.shape idx < v.size := by
        have := pos_lt v.shape idx hi
        rwa [size_prod] at this
      rw [hf' idx hi, he, List.getElem?_map, List.getElem?_range hk]
      rfl
  · intro v hv hr
    have hmem : v.name ∈ E.vs.map UVar.name := List.mem_map.2 ⟨v, hv, rfl⟩
    rw [s2 v.name hmem, if_neg]
    exact fun hh => hr ((g6 v hv).1 hh)
  · intro c hc
    rw [s5 c hc, if_pos rfl]

/-- Good arguments, in the words of the method. -/
theorem egood_iff (h : EOK E) (a : UAbs R) (u : Option (List String)) :
    EGood E a u ↔ (u.getD (E.prob.ps.map UParam.name)).any (fun n => !(E.prob.ps.map UParam.name).contains n) = false ∧
      readVals (E.prob.flat a.vals) E.prob.ps = none := by
  rw [readVals_none]
  have h2 : HaveValues E.prob.ps (E.prob.flat a.vals) ↔ ∀ p ∈ E.tps, ∃ t, a.vals p.name = some t := by
    constructor
    · intro hv p hp
      obtain ⟨v, hv⟩ := hv p.toU (List.mem_map.2 ⟨p, hp, rfl⟩)
      have : E.prob.flat a.vals p.name = some v := hv
      rw [flat_eq h.prob hp] at this
      cases ht : a.vals p.name with
      | none => rw [ht] at this; cases this
      | some t => exact ⟨t, rfl⟩
    · intro hv q hq
      obtain ⟨p, hp, rfl⟩ := List.mem_map.1 hq
      obtain ⟨t, ht⟩ := hv p hp
      refine ⟨slotVec p t, ?_⟩
      show E.prob.flat a.vals p.name = _
      rw [flat_eq h.prob hp, ht]; rfl
  rw [h2]
  refine and_congr ?_ Iff.rfl
  have hn : E.prob.ps.map UParam.name = E.tps.map TParam.name := ps_names E.prob
  rw [List.any_eq_false]
  constructor
  · intro hu n hn'
    cases u with
    | none => simpa using hn'
    | some L =>
      obtain ⟨p, hp, rfl⟩ := hu L rfl n hn'
      have : p.name ∈ E.prob.ps.map UParam.name := by rw [hn]; exact List.mem_map.2 ⟨p, hp, rfl⟩
      simpa using this
  · intro hu L hL n hn'
    subst hL
    have := hu n hn'
    simp only [Bool.not_eq_true, Bool.not_eq_false', List.contains_iff_mem, hn] at this
    obtain ⟨p, hp, e⟩ := List.mem_map.1 this
    exact ⟨p, hp, e⟩

/-- A call with good arguments. -/
theorem esolve_good {S : Type} (h : EOK E) {θ0 : E.prob.Vec} {F : EFiles R} (hg : egen E θ0 = .ok F) (sol : List R → Nat → R) (time : R)
    {st : ESt E} (hinv : EInv (E.gen θ0) st.mem) {a : UAbs R} (hvals : st.tvals = a.vals) (u : Option (List String))
    (kw : List (String × S)) (hgood : EGood E a u) :
    ∃ m o ret, esolve E θ0 F sol time st u kw = some (⟨st.tvals, m, o⟩, .ok ret) ∧ EInv (E.gen θ0) m ∧
      m.θ = ((updateActs E.prob.ps (u.getD (E.prob.ps.map UParam.name)) (E.prob.flat st.tvals)).foldl
        (fun m a => eupdate E θ0 F.b a m) st.mem).θ ∧
      Delivered E (sol (thetaUpdate E.n E.m F.M.thMask (problemAt E m.θ.1).q (problemAt E m.θ.1).u)) time o (.ok ret) := by
  obtain ⟨g1, g2⟩ := (egood_iff h a u).1 hgood
  have hi := einv_updates h θ0 F.b (updateActs E.prob.ps (u.getD (E.prob.ps.map UParam.name)) (E.prob.flat st.tvals)) st.mem hinv
  have hc := csolve_some h F sol hi
  obtain ⟨o, ret, s1, s2⟩ := earrives h hg (sol (thetaUpdate E.n E.m F.M.thMask
    (problemAt E ((updateActs E.prob.ps (u.getD (E.prob.ps.map UParam.name)) (E.prob.flat st.tvals)).foldl
        (fun m a => eupdate E θ0 F.b a m) st.mem).θ.1).q
    (problemAt E ((updateActs E.prob.ps (u.getD (E.prob.ps.map UParam.name)) (E.prob.flat st.tvals)).foldl
        (fun m a => eupdate E θ0 F.b a m) st.mem).θ.1).u)) time st.obj
  refine ⟨_, o, ret, ?_, einv_solved hi, rfl, s2⟩
  unfold esolve
  dsimp only
  rw [g1, if_neg (by simp)]
  rw [hvals] at hc s1 ⊢
  rw [g2]
  dsimp only
  rw [hc]
  dsimp only
  rw [s1]

/-- A call with bad arguments changes nothing. -/
theorem esolve_bad {S : Type} (h : EOK E) {θ0 : E.prob.Vec} (F : EFiles R) (sol : List R → Nat → R) (time : R)
    {st : ESt E} {a : UAbs R} (hvals : st.tvals = a.vals) (u : Option (List String)) (kw : List (String × S)) (hbad : ¬ EGood E a u) :
    ∃ e, esolve E θ0 F sol time st u kw = some (st, .error e) := by
  rw [egood_iff h] at hbad
  unfold esolve
  dsimp only
  by_cases h1 : (u.getD (E.prob.ps.map UParam.name)).any (fun n => !(E.prob.ps.map UParam.name).contains n) = true
  · rw [if_pos h1]; exact ⟨_, rfl⟩
  · rw [if_neg h1, hvals]
    cases hr : readVals (E.prob.flat a.vals) E.prob.ps with
    | some e => exact ⟨e, rfl⟩
    | none => exact (hbad ⟨by simpa using h1, hr⟩).elim

/-- The method never gets stuck. -/
theorem erun_total {S : Type} (h : EOK E) {θ0 : E.prob.Vec} {F : EFiles R} (hg : egen E θ0 = .ok F) (sol : List R → Nat → R) (clock : Nat → R)
    (ops : List (TOp R S)) : ∀ (k : Nat) (st : ESt E), EInv (E.gen θ0) st.mem → ∃ rs, erun E θ0 F sol clock k st ops = some rs := by
  induction ops with
  | nil => intro k st _; exact ⟨[], rfl⟩
  | cons op ops ih =>
    intro k st hi
    cases op with
    | setVal n t => exact ih k _ hi
    | solve u kw =>
      rw [erun]
      by_cases hgd : EGood E ⟨st.tvals, fun _ _ => 0⟩ u
      · obtain ⟨m, o, ret, e1, e2, _⟩ := esolve_good h hg sol (clock k) hi (a := ⟨st.tvals, fun _ _ => 0⟩) rfl u kw hgd
        rw [e1]
        obtain ⟨rs, e3⟩ := ih (k + 1) ⟨st.tvals, m, o⟩ e2
        dsimp only
        rw [e3]
        exact ⟨_, rfl⟩
      · obtain ⟨e, e1⟩ := esolve_bad h F sol (clock k) (a := ⟨st.tvals, fun _ _ => 0⟩) rfl u kw hgd
        rw [e1]
        obtain ⟨rs, e3⟩ := ih (k + 1) st hi
        dsimp only
        rw [e3]
        exact ⟨_, rfl⟩

/-- **C69 (partial)** Explicit mode as a whole. For every problem for which generation succeeds and every history of
assignments of parameter values and of calls of the method, with a PDAQP that solves the problem it is given: after every
call with parameters within the bounds declared, the requested entries of the variables are those of an optimal point of the
user's problem at the parameter values last transferred, with `½·10⁻⁶‖x‖²` added to the objective, if the problem is feasible;
calls with bad arguments or missing values raise and leave the problem object as it is.
Missing: problems in which a component of `theta` depends on parameters that vary with coefficients of both signs (C38), a
zero row before an equality row (C41), symmetric variables, requests that are not in range or increasing (C39), and parameters
out of bounds. -/
theorem C69_partial {S : Type} (E : EProb R) (h : EOK E) (a : UAbs R) (θ0 : E.prob.Vec) (hθ0 : θ0.1 = vector E.prob a.sent) (F : EFiles R)
    (hg : egen E θ0 = .ok F) (hc : ECond E F) (sol : List R → Nat → R) (hsol : PdaqpOK F E.n sol) (clock : Nat → R) (k : Nat)
    (before : PObj R) (ops : List (TOp R S)) :
    ∃ rs, erun E θ0 F sol clock k ⟨a.vals, einit E θ0, before⟩ ops = some rs ∧ EFollows E clock a k before ops rs := by
  have hs : Sound (E.gen θ0) := canonGen_sound _ _ _ _ h.wf θ0
  suffices key : ∀ (ops : List (TOp R S)) (k : Nat) (st : ESt E) (a : UAbs R), EAgree θ0 st a →
      ∃ rs, erun E θ0 F sol clock k st ops = some rs ∧ EFollows E clock a k st.obj ops rs by
    refine key ops k ⟨a.vals, einit E θ0, before⟩ a ⟨?_, hθ0, rfl⟩
    intro c hc
    rcases hc with hc | hc
    · cases hc
    · exact hs.written c θ0 hc
  obtain ⟨hb, _⟩ := egen_ok h hg
  intro ops
  induction ops with
  | nil => intro k st a _; exact ⟨[], rfl, rfl⟩
  | cons op ops ih =>
    intro k st a hag
    cases op with
    | setVal m t =>
      obtain ⟨rs, k1, k2⟩ := ih k { st with tvals := fun m' => if m' = m then some t else st.tvals m' }
        { a with vals := fun m' => if m' = m then some t else a.vals m' }
        ⟨hag.inv, hag.θ, by simp only [hag.vals]⟩
      exact ⟨rs, k1, k2⟩
    | solve u kw =>
      by_cases hgd : EGood E a u
      · obtain ⟨m, o, ret, e1, e2, e3, e4⟩ := esolve_good h hg sol (clock k) hag.inv hag.vals u kw hgd
        by_cases ha : Admissible E (vector E.prob (a.transfer u).sent)
        · have hθ : m.θ.1 = vector E.prob (a.transfer u).sent := by
            rw [e3]
            exact eupdates_vector h hb hag u hgd.2 hgd.1 ha
          rw [hθ] at e4
          obtain ⟨rs, k1, k2⟩ := ih (k + 1) ⟨st.tvals, m, o⟩ (a.transfer u) ⟨e2, hθ, hag.vals⟩
          refine ⟨(o, .ok ret) :: rs, ?_, o, .ok ret, rs, rfl, Or.inl ⟨hgd, fun _ => ⟨⟨_, e4, fun hf => ?_⟩, k2⟩⟩⟩
          · rw [erun, e1]
            dsimp only
            rw [k1]
          · exact explicit_optimal h hg hc hsol (mem_vector_length h _) (in_box h hb (mem_vector_length h _) ha) hf
        · obtain ⟨rs, k1⟩ := erun_total h hg sol clock ops (k + 1) ⟨st.tvals, m, o⟩ e2
          refine ⟨(o, .ok ret) :: rs, ?_, o, .ok ret, rs, rfl, Or.inl ⟨hgd, fun hh => (ha hh).elim⟩⟩
          rw [erun, e1]
          dsimp only
          rw [k1]
      · obtain ⟨e, e1⟩ := esolve_bad h F sol (clock k) hag.vals u kw hgd
        obtain ⟨rs, k1, k2⟩ := ih (k + 1) st a hag
        refine ⟨(st.obj, .error e) :: rs, ?_, st.obj, .error e, rs, rfl, Or.inr ⟨hgd, rfl, ⟨e, rfl⟩, k2⟩⟩
        rw [erun, e1]
        dsimp only
        rw [k1]

/-! ### what this means for the problem without the added term -/

theorem regularised_cost (Q : Qp R) (r : R) (x : Nat → R) :
    (Q.regularised r).cost x = Q.cost x + r / 2 * ∑ i ∈ range Q.n, x i * x i := by
  unfold Qp.cost Qp.regularised
  dsimp only
  have : ∑ i ∈ range Q.n, ∑ j ∈ range Q.n, x i * (Q.H i j + if i = j then r else 0) * x j
      = (∑ i ∈ range Q.n, ∑ j ∈ range Q.n, x i * Q.H i j * x j) + r * ∑ i ∈ range Q.n, x i * x i := by
    rw [mul_sum, ← sum_add_distrib]
    apply sum_congr rfl
    intro i hi
    have : r * (x i * x i) = ∑ j ∈ range Q.n, if i = j then r * (x i * x j) else 0 := by
      rw [sum_ite_eq, if_pos hi]
    rw [this, ← sum_add_distrib]
    apply sum_congr rfl
    intro j _
    split <;> ring
  rw [this]
  ring

/-- The point delivered is feasible for the user's problem, and its cost exceeds that of any other feasible point `y` by at most
`½·10⁻⁶(‖y‖² - ‖x‖²)`. -/
theorem C69_near (Q : Qp R) (r : R) (hr : 0 ≤ r) (x : Nat → R) (h : (Q.regularised r).Optimal x) :
    Q.Feasible x ∧ ∀ y, Q.Feasible y → Q.cost x ≤ Q.cost y + r / 2 * (∑ i ∈ range Q.n, y i * y i - ∑ i ∈ range Q.n, x i * x i) ∧
      Q.cost x ≤ Q.cost y + r / 2 * ∑ i ∈ range Q.n, y i * y i := by
  refine ⟨h.1, fun y hy => ?_⟩
  have h1 := h.2 y hy
  rw [regularised_cost, regularised_cost] at h1
  have h2 : 0 ≤ r / 2 * ∑ i ∈ range Q.n, x i * x i :=
    mul_nonneg (div_nonneg hr zero_le_two) (sum_nonneg fun i _ => mul_self_nonneg _)
  constructor <;> linarith [mul_sub (r / 2) (∑ i ∈ range Q.n, y i * y i) (∑ i ∈ range Q.n, x i * x i)]

/-! ### errors and what is ignored -/

/-- Problems whose `P` or `A` depends on the parameters are rejected (pdaqp.py:89-92). -/
theorem C69_rejects (E : EProb R) (h : EOK E) (θ0 : E.prob.Vec) (c : CId) (hc : c = .P ∨ c = .A) (θ θ' : E.prob.Vec)
    (hne : dataAt E.prob θ.1 c ≠ dataAt E.prob θ'.1 c) : egen E θ0 = .error .valueError := by
  have hs : Sound (E.gen θ0) := canonGen_sound _ _ _ _ h.wf θ0
  have hch : (E.gen θ0).chg c = true := by
    by_contra hn
    have := hs.const c θ θ' (Bool.eq_false_iff.2 hn)
    exact hne (((canonVal_dataAt h.prob.wf θ.1 θ.2 c).symm.trans this).trans (canonVal_dataAt h.prob.wf θ'.1 θ'.2 c))
  unfold egen
  rw [if_pos]
  rcases hc with rfl | rfl <;> simp [hch]

/-- A problem for which CVXPY delivers no quadratic part is not accepted: `p['P']` raises (pdaqp.py:97). -/
theorem C69_fails_linear (E : EProb R) (h : EOK E) (θ0 : E.prob.Vec) (hP : E.maps .P = none) (hA : mapChanges (E.maps .A) true = false) :
    egen E θ0 = .error .keyError := by
  have e1 : (E.gen θ0).chg .P = false := by
    show mapChanges (E.maps .P) true = false
    rw [hP]; rfl
  have e2 : (E.gen θ0).chg .A = false := hA
  have e3 : (E.gen θ0).canon0 .P = none := by
    have hs : Sound (E.gen θ0) := canonGen_sound _ _ _ _ h.wf θ0
    rw [hs.written .P θ0 e1]
    refine (canonVal_dataAt h.prob.wf θ0.1 θ0.2 .P).trans ?_
    have : E.prob.maps .P = none := hP
    unfold dataAt
    rw [this]; rfl
  unfold egen
  rw [if_neg (by rw [e1, e2]; simp), e3]
  split
  · rename_i h2 ; cases h2
  · rfl

/-- Keyword arguments have no effect, whatever they are: neither settings nor errors (template:53-62). -/
theorem C69_fails_settings {S : Type} (E : EProb R) (θ0 : E.prob.Vec) (F : EFiles R) (sol : List R → Nat → R) (time : R) (st : ESt E)
    (u : Option (List String)) (kw kw' : List (String × S)) :
    esolve E θ0 F sol time st u kw = esolve E θ0 F sol time st u kw' := rfl

end

/-! ### a concrete problem -/

/-- Parameters `a` and `b`; minimize `½ y² + ½ ‖x‖² + a x₀` subject to `x₀ ≤ b` and the row `0 ≤ 1`. -/
def exEMaps : CId → Option (RawMap ℚ)
  | .P => some ⟨⟨4, 3, [(0, 2, 1), (1, 2, 1), (2, 2, 1), (3, 2, 1)]⟩, fun _ => 1⟩
  | .q => some ⟨⟨4, 3, [(1, 0, 1)]⟩, fun _ => 1⟩
  | .A => some ⟨⟨1, 3, [(0, 2, 1)]⟩, fun _ => 1⟩
  | .l => some ⟨⟨2, 3, []⟩, fun _ => 1⟩
  | .u => some ⟨⟨2, 3, [(0, 1, 1), (1, 2, 1)]⟩, fun _ => 1⟩
  | .d => some ⟨⟨1, 3, []⟩, fun _ => 1⟩
  | _ => none

/-- `x` has three entries after `y`; the first and the last of them are stored. The parameter `a` is between -5 and 5. -/
def exE : EProb ℚ where
  tps := [⟨"a", [], .plain⟩, ⟨"b", [], .plain⟩]
  maps := exEMaps
  mat := fun c l i j => match c with
    | .P => if i = j then (l[i]?).getD 0 else 0
    | _ => if i = 0 ∧ j = 1 then (l[0]?).getD 0 else 0
  n := 4
  m := 2
  eqM := 0
  vs := [⟨"y", [], false, 0⟩, ⟨"x", [3], false, 1⟩]
  cons := [4, 5, 6]
  pcons := [⟨true, true, false, .other, .other⟩, ⟨false, true, false, .param 0 1, .const fun _ => 5⟩,
    ⟨false, true, false, .const fun _ => -5, .param 0 1⟩]
  reqs := [("x", [0, 2])]
  reg := 1 / 10 ^ 6
  big := 10 ^ 30

theorem exE_ok : EOK exE := by
  refine ⟨⟨by decide, by decide, ?_, ?_⟩, ?_, ⟨_, rfl, rfl⟩, ⟨_, rfl, rfl⟩, ⟨_, rfl, rfl⟩, by decide, by decide, by decide, by decide,
    ?_, by decide, ?_⟩
  · intro c m h
    cases c <;> simp [exE, exEMaps] at h <;> subst h <;> rfl
  · intro c hc
    cases c <;> simp_all [exE, exEMaps, Kind.canonIds, EProb.prob]
  · intro p hp
    simp only [exE, List.mem_cons, List.not_mem_nil, or_false] at hp
    rcases hp with rfl | rfl
    · exact ⟨by decide, by decide, fun h => (by cases h), fun c h => (by cases h)⟩
    · exact ⟨by decide, by decide, fun h => (by cases h), fun c h => (by cases h)⟩
  · intro r hr
    simp only [exE, List.mem_cons, List.not_mem_nil, or_false] at hr
    subst hr
    exact ⟨by decide, by decide, fun h => (by cases h)⟩
  · intro c hc
    simp only [exE, List.mem_cons, List.not_mem_nil, or_false] at hc
    rcases hc with rfl | rfl | rfl <;> exact ⟨rfl, rfl⟩

def exEθ : exE.prob.Vec := ⟨[0, 0], rfl⟩

/-- What PDAQP computes for this problem. -/
def exESol (th : List ℚ) (i : Nat) : ℚ :=
  if i = 1 then min (-(th.getD 0 0) / (1 + 1 / 10 ^ 6)) (th.getD 1 0) else 0

/-- Bounds of the parameters found by generation. -/
def exEB : Bounds ℚ where
  lower := setSlice 0 1 (fun _ => -5) fun k => if k + 1 = 3 then 1 else -10 ^ 30
  upper := setSlice 0 1 (fun _ => 5) fun k => if k + 1 = 3 then 1 else 10 ^ 30

theorem exE_best (t0 t1 y0 y1 y2 y3 : ℚ) (hy : y1 ≤ t1) :
    (1 + 1 / 10 ^ 6) * (exESol [t0, t1] 0 * exESol [t0, t1] 0 + exESol [t0, t1] 1 * exESol [t0, t1] 1 + exESol [t0, t1] 2 * exESol [t0, t1] 2
      + exESol [t0, t1] 3 * exESol [t0, t1] 3) / 2 + t0 * exESol [t0, t1] 1
    ≤ (1 + 1 / 10 ^ 6) * (y0 * y0 + y1 * y1 + y2 * y2 + y3 * y3) / 2 + t0 * y1 := by
  have e0 : exESol [t0, t1] 0 = 0 := rfl
  have e2 : exESol [t0, t1] 2 = 0 := rfl
  have e3 : exESol [t0, t1] 3 = 0 := rfl
  have e1 : exESol [t0, t1] 1 = min (-t0 / (1 + 1 / 10 ^ 6)) t1 := rfl
  rw [e0, e1, e2, e3]
  rcases le_total (-t0 / (1 + 1 / 10 ^ 6)) t1 with hle | hle
  · rw [min_eq_left hle]
    generalize hz : -t0 / (1 + 1 / 10 ^ 6) = z
    have : t0 = -(1 + 1 / 10 ^ 6) * z := by rw [← hz]; field_simp
    rw [this]
    nlinarith [sq_nonneg (y1 - z), sq_nonneg y0, sq_nonneg y2, sq_nonneg y3]
  · rw [min_eq_right hle]
    have : t1 * (1 + 1 / 10 ^ 6) ≤ -t0 := by rwa [le_div_iff₀ (by norm_num)] at hle
    nlinarith [sq_nonneg (y1 - t1), sq_nonneg y0, sq_nonneg y2, sq_nonneg y3,
      mul_nonneg (sub_nonneg.2 hy) (sub_nonneg.2 this)]

theorem exE_gen : ∃ F, egen exE exEθ = .ok F ∧ ECond exE F ∧ PdaqpOK F exE.n exESol := by
  have hok : (match egen exE exEθ with | .ok _ => true | .error _ => false) = true := by decide +kernel
  cases hg : egen exE exEθ with
  | error e => rw [hg] at hok; cases hok
  | ok F =>
    obtain ⟨g1, g2, g3, g4, g5, g6, g7⟩ := egen_ok exE_ok hg
    have hb : F.b = exEB := by
      have : paramBounds (totalSize exE.prob.ps + 1) exE.big exE.pcons = .ok exEB := rfl
      rw [this] at g1
      exact (Except.ok.inj g1).symm
    obtain ⟨gA, gH⟩ := g7 exEθ.1 exEθ.2
    refine ⟨F, rfl, ⟨?_, ?_⟩, ?_⟩
    · rw [hb]
      intro i hi
      left
      revert i
      decide +kernel
    · intro i j _ hj
      exact absurd hj (Nat.not_lt_zero _)
    · have hM : F.M = reduceMpqp exE.n exE.m (problemAt exE exEθ.1).A
          ((List.range (exE.n + exE.m)).map fun i => (thetaBound (totalSize exE.prob.ps + 1) exE.C exEB i).1)
          ((List.range (exE.n + exE.m)).map fun i => (thetaBound (totalSize exE.prob.ps + 1) exE.C exEB i).2) := by
        rw [g2, gA, hb]
      have hrows : F.M.rows = [0] := by rw [hM]; decide +kernel
      have hF : F.M.F.map (fun c => [c 0, c 1, c 2, c 3]) = [[0, 1, 0, 0], [0, 0, 0, 0]] := by rw [hM]; decide +kernel
      have hB : F.M.B.map (fun c => c 0) = [0, 1] := by rw [hM]; decide +kernel
      have hf : [F.M.f 0, F.M.f 1, F.M.f 2, F.M.f 3] = [0, 0, 0, 0] := by rw [hM]; decide +kernel
      have hb0 : F.M.b 0 = 0 := by rw [hM]; decide +kernel
      have hH : (List.range 4).map (fun i => (List.range 4).map fun j => F.H i j)
          = (List.range 4).map fun i => (List.range 4).map fun j => if i = j then 1 + 1 / 10 ^ 6 else 0 := by rw [gH]; decide +kernel
      have hA : [F.A 0 0, F.A 0 1, F.A 0 2, F.A 0 3] = [0, 1, 0, 0] := by rw [gA]; decide +kernel
      have heq : F.eq = [] := by rw [g5]; rfl
      intro th hth _
      obtain ⟨c0, c1, hFF⟩ : ∃ c0 c1, F.M.F = [c0, c1] := by
        apply List.length_eq_two.1
        have := congrArg List.length hF
        simpa using this
      obtain ⟨d0, d1, hBB⟩ : ∃ c0 c1, F.M.B = [c0, c1] := by
        apply List.length_eq_two.1
        have := congrArg List.length hB
        simpa using this
      rw [hFF] at hth
      obtain ⟨t0, t1, rfl⟩ : ∃ t0 t1, th = [t0, t1] := by
        exact List.length_eq_two.1 hth
      rw [hFF] at hF
      rw [hBB] at hB
      simp only [List.map_cons, List.map_nil, List.cons.injEq, and_true] at hF hB hf hA
      obtain ⟨⟨p1, p2, p3, p4⟩, p5, p6, p7, p8⟩ := hF
      obtain ⟨q1, q2⟩ := hB
      obtain ⟨f0, f1, f2, f3⟩ := hf
      obtain ⟨a0, a1, a2, a3⟩ := hA
      simp [List.range_succ, List.range_zero] at hH
      obtain ⟨⟨h00, h01, h02, h03⟩, ⟨h10, h11, h12, h13⟩, ⟨h20, h21, h22, h23⟩, h30, h31, h32, h33⟩ := hH
      dsimp only
      rintro -
      have hr : F.M.rows.length = 1 := by rw [hrows]; rfl
      have hn : exE.n = 4 := rfl
      have cost : ∀ x : Nat → ℚ, Qp.cost ⟨exE.n, F.M.rows.length, F.H, fun r c => F.A (F.M.rows.getD r 0) c,
          fun i => F.M.f i + colDot F.M.F [t0, t1] i, fun r => F.M.b r + colDot F.M.B [t0, t1] r, fun r => r ∈ F.eq⟩ x
          = (1 + 1 / 10 ^ 6) * (x 0 * x 0 + x 1 * x 1 + x 2 * x 2 + x 3 * x 3) / 2 + t0 * x 1 := by
        intro x
        unfold Qp.cost
        simp only [hn, sum_range_succ, sum_range_zero, hFF, colDot, List.zipWith_cons_cons, List.zipWith_nil_left, List.sum_cons, List.sum_nil,
          p1, p2, p3, p4, p5, p6, p7, p8, f0, f1, f2, f3, h00, h01, h02, h03, h10, h11, h12, h13, h20, h21, h22, h23, h30, h31, h32, h33]
        ring
      have feas : ∀ x : Nat → ℚ, Qp.Feasible ⟨exE.n, F.M.rows.length, F.H, fun r c => F.A (F.M.rows.getD r 0) c,
          fun i => F.M.f i + colDot F.M.F [t0, t1] i, fun r => F.M.b r + colDot F.M.B [t0, t1] r, fun r => r ∈ F.eq⟩ x
          ↔ x 1 ≤ t1 := by
        intro x
        unfold Qp.Feasible
        simp [hr, hrows, heq, hn, sum_range_succ, hBB, colDot, q1, q2, hb0, a0, a1, a2, a3]
      constructor
      · rw [feas]
        simp [exESol]
      · intro y hy
        rw [feas] at hy
        rw [cost, cost]
        exact exE_best t0 t1 (y 0) (y 1) (y 2) (y 3) hy

example : ∃ F, egen exE exEθ = .ok F ∧ ECond exE F ∧ PdaqpOK F exE.n exESol ∧ exEθ.1 = vector exE.prob (fun _ _ => (0 : ℚ)) ∧ EOK exE :=
  let ⟨F, h1, h2, h3⟩ := exE_gen
  ⟨F, h1, h2, h3, by decide +kernel, exE_ok⟩

/-- A history with errors, keyword arguments, partial updates and a parameter out of bounds, reporting the variables. -/
def exEOps : List (TOp ℚ Int) :=
  [.solve none [], .setVal "a" (fun _ => 3), .setVal "b" (fun _ => -4), .solve none [("no_setting", 7)],
   .setVal "b" (fun _ => 10), .setVal "a" (fun _ => 2), .solve (some ["b"]) [], .solve (some ["t"]) [], .solve (some ["a"]) [],
   .setVal "a" (fun _ => 7), .solve none []]

def exERun (ops : List (TOp ℚ Int)) : Option (List (List (Option (List ℚ)) × Bool)) :=
  match egen exE exEθ with
  | .error _ => none
  | .ok F => (erun exE exEθ F exESol (fun _ => 0) 0 ⟨fun _ => none, einit exE exEθ, ⟨fun _ => none, fun _ => none, none, none⟩⟩ ops).map
      fun rs => rs.map fun r => ([r.1.prim "x", r.1.prim "y"], match r.2 with | .ok _ => true | .error _ => false)

example : exERun exEOps = some
    [([none, none], false),
     ([some [-4, 0, 0], none], true),
     ([some [-3000000 / 1000001, 0, 0], none], true),
     ([some [-3000000 / 1000001, 0, 0], none], false),
     ([some [-2000000 / 1000001, 0, 0], none], true),
     ([some [-5000000 / 1000001, 0, 0], none], true)] := by
  decide +kernel

/-- **C69 fails** without the added term: the point delivered is not optimal for the user's problem. -/
theorem C69_fails_exact : ∃ x, ((problemAt exE [1, 10]).regularised exE.reg).Optimal x ∧ ¬ (problemAt exE [1, 10]).Optimal x := by
  obtain ⟨F, hg, hc, hs⟩ := exE_gen
  obtain ⟨_, g2, _, _, _, _, g7⟩ := egen_ok exE_ok hg
  have had : Admissible exE [1, 10] := by
    intro k x hk
    have : (k = 0 ∧ x = 1) ∨ (k = 1 ∧ x = 10) := by
      match k, hk with
      | 0, h => left; exact ⟨rfl, (Option.some.inj h).symm⟩
      | 1, h => right; exact ⟨rfl, (Option.some.inj h).symm⟩
    refine ⟨?_, ?_, ?_⟩
    · rcases this with ⟨-, rfl⟩ | ⟨-, rfl⟩ <;> decide +kernel
    · rcases this with ⟨-, rfl⟩ | ⟨-, rfl⟩ <;> decide +kernel
    · intro c hc ho
      simp only [exE, List.mem_cons, List.not_mem_nil, or_false] at hc
      rcases hc with rfl | rfl | rfl
      · cases ho.1
      · refine ⟨fun v hv => ⟨?_, fun h => by cases h⟩, fun v hv => by cases hv⟩
        simp only [upperAt] at hv
        split at hv
        · cases hv
          rcases this with ⟨-, rfl⟩ | ⟨rfl, -⟩
          · decide +kernel
          · omega
        · cases hv
      · refine ⟨fun v hv => (by cases hv), fun v hv => ⟨?_, fun h => by cases h⟩⟩
        simp only [lowerAt] at hv
        split at hv
        · cases hv
          rcases this with ⟨-, rfl⟩ | ⟨rfl, -⟩
          · decide +kernel
          · omega
        · cases hv
  have hfeas : (problemAt exE [1, 10]).Feasible fun i => if i = 1 then -1 else 0 := by
    show ∀ j < 2, _
    have : ∀ j < 2, ∑ c ∈ range 4, (problemAt exE [1, 10]).A j c * (if c = 1 then (-1 : ℚ) else 0) ≤ (problemAt exE [1, 10]).u j := by
      decide +kernel
    exact fun j hj => ⟨this j hj, fun h => absurd h (Nat.not_lt_zero _)⟩
  have ho := explicit_optimal exE_ok hg hc hs (θ := [1, 10]) rfl (in_box exE_ok (egen_ok exE_ok hg).1 rfl had) ⟨_, hfeas⟩
  refine ⟨_, ho, fun hno => ?_⟩
  have h1 := hno.2 _ hfeas
  obtain ⟨gA, _⟩ := g7 [1, 10] rfl
  revert h1
  have hth : thetaUpdate exE.n exE.m F.M.thMask (problemAt exE [1, 10]).q (problemAt exE [1, 10]).u = [1, 10] := by
    have hb : F.b = exEB := by
      have g1 := (egen_ok exE_ok hg).1
      have : paramBounds (totalSize exE.prob.ps + 1) exE.big exE.pcons = .ok exEB := rfl
      rw [this] at g1
      exact (Except.ok.inj g1).symm
    rw [g2, gA, hb]
    decide +kernel
  rw [hth]
  unfold Qp.cost
  decide +kernel

/-- **C69 fails** for problems that are unbounded: because of the added term a point is delivered, and there is no status that
tells. -/
theorem C69_fails_unbounded (r : ℚ) (hr : 0 < r) : ∃ (Q : Qp ℚ) (x : Nat → ℚ), (Q.regularised r).Optimal x ∧
    ∀ b, ∃ y, Q.Feasible y ∧ Q.cost y < b := by
  refine ⟨⟨1, 0, fun _ _ => 0, fun _ _ => 0, fun _ => 1, fun _ => 0, fun _ => False⟩, fun _ => -1 / r, ⟨fun j hj => absurd hj (Nat.not_lt_zero _), ?_⟩, ?_⟩
  · intro y _
    rw [regularised_cost, regularised_cost]
    simp only [Qp.cost, sum_range_succ, sum_range_zero]
    have e : r * (-1 / r) = -1 := by field_simp
    generalize -1 / r = z at e
    have h1 := mul_nonneg hr.le (sq_nonneg (y 0 - z))
    have h2 : r * (y 0 - z) ^ 2 = r * y 0 * y 0 - 2 * (r * z) * y 0 + (r * z) * z := by ring
    rw [e] at h2
    have h3 : r / 2 * (z * z) = (r * z) * z / 2 := by ring
    rw [e] at h3
    nlinarith
  · intro b
    refine ⟨fun _ => b - 1, fun j hj => absurd hj (Nat.not_lt_zero _), ?_⟩
    simp [Qp.cost]

end Verif.Props
