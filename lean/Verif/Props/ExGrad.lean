import Verif.Spec.ExGrad
import Verif.Props.ExClamp
import Verif.Props.GradPipe
import Verif.Props.Deltas
/-!
C71: differentiation in explicit mode as a whole.
-/
namespace Verif.Props
open Verif.Model Verif.Model.Pipeline Verif.Model.Saved Verif.Model.Flatten Verif.Model.Explicit Verif.Model.ExPipe Verif.Model.GradPipe
open Verif.Model.ExGrad Verif.Model.Deltas
open Verif.Spec.Flatten Verif.Spec Verif.Spec.Pipeline Verif.Spec.Explicit Verif.Spec.ExPipe Verif.Spec.GradPipe Verif.Spec.ExGrad
open Verif.Lemmas Verif.Lemmas.Flatten Verif.Lemmas.Pipeline Verif.Lemmas.Explicit Verif.Lemmas.ExPipe Verif.Lemmas.GradPipe
open Verif.Lemmas.Deltas Finset

section
variable {R : Type} [Field R] [LinearOrder R] [IsStrictOrderedRing R] {E : EProb R}

/-! ### calls -/

omit [LinearOrder R] [IsStrictOrderedRing R] in
theorem setD_run (T : ExTab R) (C : ExCanon R) : ∀ (calls : List (Nat × R)) (s : ExSt R),
    ∃ s', (calls.map fun c => ExOp.setD c.1 c.2).foldlM (exStep T C) s = some s' := by
  intro calls
  induction calls with
  | nil => intro s; exact ⟨s, rfl⟩
  | cons c calls ih =>
    intro s
    rw [List.map_cons, List.foldlM_cons]
    exact ih _

omit [LinearOrder R] [IsStrictOrderedRing R] in
theorem setD_region (xs : List (ExOp R)) (calls : List (Nat × R)) :
    regionOf (xs ++ calls.map fun c => ExOp.setD c.1 c.2) = regionOf xs := by
  induction calls using List.reverseRecOn with
  | nil => simp
  | append_singleton calls c ih => rw [List.map_append, ← List.append_assoc, List.map_singleton, regionOf_snoc]; exact ih

omit [LinearOrder R] [IsStrictOrderedRing R] in
theorem setD_given (xs : List (ExOp R)) (calls : List (Nat × R)) :
    givenDx (xs ++ calls.map fun c => ExOp.setD c.1 c.2)
      = calls.foldl (fun dx c => fun i => if i = c.1 then c.2 else dx i) (givenDx xs) := by
  induction calls using List.reverseRecOn with
  | nil => simp
  | append_singleton calls c ih =>
    funext k
    rw [List.map_append, ← List.append_assoc, List.map_singleton, givenDx_snoc, List.foldl_append, ← ih]
    rfl

/-- The calls assign within `cpg_dx`. -/
theorem xcalls_bound (h : EOK E) (fields : List (String × List R)) : ∀ c ∈ xcalls E fields, c.1 < E.exGen.nSol := by
  intro c hc
  obtain ⟨e, he, hc⟩ := List.mem_flatMap.1 hc
  refine exPos_bound h.exOK e he c.1 ?_
  rw [← exCalls_pos (E.exGen.size e.1) e.2 fun k => fn ((fields.lookup e.1).getD []) k]
  exact List.mem_map_of_mem hc

theorem xnRed (h : EOK E) : E.exGen.nSol ≤ E.exGen.nRed := by
  rw [exmem_nRed h.exOK]
  omega

/-- All accesses are within the arrays. -/
theorem xaccess (h : EOK E) (hall : ExAllStored E.exGen) (T : XTab R) (k : Nat) (hk : k < T.nLaws) :
    (((exArrays E T).deltas ++ (exArrays E T).gradient k).any fun e => decide ((exArrays E T).len e.1 ≤ e.2)) = false := by
  have hok : ExOK (exArrays E T) := ⟨h.exOK.names, h.exOK.reqs, h.exOK.known, h.exOK.good⟩
  rw [List.any_eq_false]
  intro e he
  have : e.2 < (exArrays E T).len e.1 := by
    rcases List.mem_append.1 he with he | he
    · obtain ⟨b, hb, he⟩ := List.mem_flatMap.1 he
      obtain ⟨c, hc, rfl⟩ := List.mem_map.1 he
      have hp : c.1 ∈ exPos ((exArrays E T).size b.1) b.2 := by
        rw [← exCalls_pos ((exArrays E T).size b.1) b.2 fun _ => ()]
        exact List.mem_map_of_mem hc
      have h1 := exPos_bound hok b hb c.1 hp
      have h2 := exmem_nRed hok
      show c.1 < (exArrays E T).nRed
      omega
    · exact C60_gradient_partial (exArrays E T) hok hall k hk e.1 e.2 he
  simpa using this

/-! ### canonical vectors -/

/-- Values of `q` or `u` at a parameter vector, and the step between values. -/
theorem xrows (h : EOK E) {c : CId} (hc : c.isUpper = false) {n : Nat} (hm : ∃ m, E.maps c = some m ∧ m.mapping.rows = n) :
    (∀ θ : List R, θ.length = totalSize E.prob.ps → ((dataAt E.prob θ c).getD []).length = n) ∧
    (∀ θ0 θ : List R, θ0.length = totalSize E.prob.ps → θ.length = totalSize E.prob.ps →
      canonStep (mapChanges (E.maps c) false) n (csrOf (E.maps c) false) (θ ++ [1])
        ((dataAt E.prob θ0 c).getD []) = some ((dataAt E.prob θ c).getD [])) ∧
    Csr.Valid (csrOf (E.maps c) false) n (totalSize E.prob.ps + 1) := by
  obtain ⟨m, hm, rfl⟩ := hm
  have hcols := h.wf.cols c m hm
  have hm' : E.prob.maps c = some m := hm
  have hrows : (m.final false).rows = m.mapping.rows := rfl
  refine ⟨fun θ hθ => ?_, fun θ0 θ h0 hθ => ?_, ?_⟩
  · rw [← canonVal_dataAt h.prob.wf θ hθ c, hm', hc]
    exact canonVal_length m _ θ (by rw [hcols, hθ])
  · rw [← canonVal_dataAt h.prob.wf θ hθ c, ← canonVal_dataAt h.prob.wf θ0 h0 c, hm', hm, hc]
    exact canonStep_val m _ θ0 θ (by rw [hcols, h0]) (by rw [hθ, h0])
  · rw [hm]
    have := toCsr_valid (m.final false) (final_wf m _)
    rw [final_cols, hcols] at this
    exact this

/-- The number of parameters of the explicit solution. -/
theorem xtheta_length (n m : Nat) (A : Nat → Nat → R) (thmin thmax : List R) (hmin : thmin.length = n + m)
    (hmax : thmax.length = n + m) (q u : Nat → R) :
    (thetaUpdate n m (reduceMpqp n m A thmin thmax).thMask q u).length = (reduceMpqp n m A thmin thmax).F.length := by
  unfold thetaUpdate reduceMpqp
  dsimp only
  rw [List.length_map, ← sel_sel]
  · exact sel_length_eq _ _ _ (sel_length_eq _ _ _ (by simp))
  · simp [hmin, hmax]
  · rw [List.length_zipWith]
    rw [sel_length_eq _ _ (List.range (n + m)) (by simp), sel_length_eq _ (List.map _ (List.range (n + m))) (List.range (n + m)) (by simp)]
    simp

theorem thetaAt_length (h : EOK E) {θ0 : E.prob.Vec} {F : EFiles R} (hg : egen E θ0 = .ok F) (θ : List R) :
    (thetaAt E F θ).length = F.M.F.length := by
  obtain ⟨_, g2, _⟩ := egen_ok h hg
  unfold thetaAt
  rw [g2]
  exact xtheta_length _ _ _ _ _ (by simp) (by simp) _ _

/-! ### one call of `cpg_gradient` -/

/-- Concrete and expected state agree. -/
structure XInv (θ0 : E.prob.Vec) (F : EFiles R) (T : XTab R) (st : XSt E) (a : XAbs R) : Prop where
  agree : CAgree θ0 st.base a.u
  vgrad : st.vgrad = a.vgrad
  calls : ∃ xs, Explicit.exRun (exTab E T) (exCanon E F) xs = some st.ex ∧ regionOf xs = a.region ∧ givenDx xs = (fun _ => 0) ∧
    ∀ j w, .setD j w ∈ xs → j < E.exGen.nSol

theorem storedVars_names (h : EOK E) {θ0 : E.prob.Vec} {F : EFiles R} (hg : egen E θ0 = .ok F) :
    (E.vs.filter fun v => F.names.contains v.name) = storedVars E := by
  obtain ⟨_, _, _, _, _, g6, _⟩ := egen_ok h hg
  unfold storedVars
  apply List.filter_congr
  intro v hv
  have := g6 v hv
  rw [Bool.eq_iff_iff, List.contains_iff_mem, List.contains_iff_mem]
  exact this

theorem fn_snoc_one (l : List R) : fn (l ++ [1]) l.length = 1 := by
  unfold fn
  rw [List.getD, List.getElem?_append_right le_rfl]; simp

theorem fn_snoc_lt (l : List R) (j : Nat) (hj : j < l.length) : fn (l ++ [1]) j = fn l j := by
  unfold fn
  rw [List.getD, List.getElem?_append_left hj]; rfl

theorem xgrad_step (h : EOK E) (hall : ExAllStored E.exGen) {θ0 : E.prob.Vec} {F : EFiles R} (hg : egen E θ0 = .ok F) {T : XTab R}
    (hTK : T.K = F.M.F.length) (st : XSt E) (a : XAbs R)
    (inv : XInv θ0 F T st a) (region : Option Nat) (hask : Asked E T a region) :
    ∃ st' res, xgradient E F T st region = some (st', res) ∧
      XInv θ0 F T st' (astep (S := Unit) E F T a (.gradient region)) ∧
      (res = .ok () ↔ Fits (storedVars E) a.vgrad ∧ Full E.tps) ∧ (¬ Fits (storedVars E) a.vgrad → st' = st) ∧ st'.base = st.base ∧
      (Fits (storedVars E) a.vgrad → Full E.tps → (∀ p ∈ E.tps, ∀ k < slots p, slotIdx p k = unpos p.shape k) →
        ∀ gr : String → List Nat → R,
        (∀ v ∈ storedVars E, ∃ arr, a.vgrad v.name = some arr ∧ arr.shape = v.shape ∧ arr.val = gr v.name) →
        ∀ r, region.or a.region = some r → RightX E F T r gr st'.pgrad) := by
  unfold xgradient
  rw [storedVars_names h hg, inv.vgrad]
  by_cases hfit : Fits (storedVars E) a.vgrad
  swap
  · obtain ⟨e, he⟩ := vdelta_err a.vgrad (storedVars E) hfit
    rw [he]
    refine ⟨st, _, rfl, ?_, ⟨fun h => (by cases h), fun h => absurd h.1 hfit⟩, fun _ => rfl, rfl, fun h => absurd h hfit⟩
    have : astep (S := Unit) E F T a (.gradient region) = a := if_neg hfit
    rw [this]
    exact inv
  have hsn : ((storedVars E).map UVar.name).Nodup := h.varNames.sublist (List.Sublist.map _ List.filter_sublist)
  obtain ⟨fields, hf1, _, hf2⟩ := vdelta_ok a.vgrad (storedVars E) hsn hfit
  rw [hf1]
  dsimp only
  obtain ⟨r, hr, hh, hleaf, hlaws⟩ := hask hfit
  obtain ⟨xs, x1, x2, x3, x4⟩ := inv.calls
  set calls := xcalls E fields with hcalls
  have hqv := xrows h (c := .q) rfl h.q
  have huv := xrows h (c := .u) rfl h.u
  have hVq : (exCanon E F).qc = true → Csr.Valid (exCanon E F).q (exCanon E F).n (exTab E T).NP := fun _ => hqv.2.2
  have hVu : (exCanon E F).uc = true → Csr.Valid (exCanon E F).u (exCanon E F).m (exTab E T).NP := fun _ => huv.2.2
  have hreg : st.ex.region = a.region := by rw [← x2]; exact (exRun_inv _ _ hVq hVu xs st.ex x1).1
  rw [hreg, hr]
  dsimp only
  rw [hleaf]
  dsimp only
  rw [xaccess h hall T hh hlaws, if_neg (by simp)]
  -- the calls
  set ys := xs ++ calls.map fun c => ExOp.setD c.1 c.2 with hys
  obtain ⟨s1, hs1⟩ := setD_run (exTab E T) (exCanon E F) calls st.ex
  have hrun1 : Explicit.exRun (exTab E T) (exCanon E F) ys = some s1 := by
    unfold Explicit.exRun at x1 ⊢
    rw [hys, List.foldlM_append, x1]
    exact hs1
  have hregy : region.or (regionOf ys) = some r := by rw [hys, setD_region, x2]; exact hr
  have hgiven : givenDx ys = exDx E.exGen.size E.exGen.store.info (fun n k => fn ((fields.lookup n).getD []) k) := by
    rw [hys, setD_given, x3]
    rfl
  have hops : ∀ j w, .setD j w ∈ ys → j < (exTab E T).nSol := by
    intro j w hm
    rcases List.mem_append.1 hm with hm | hm
    · exact x4 j w hm
    · obtain ⟨c, hc, e⟩ := List.mem_map.1 hm
      cases e
      exact xcalls_bound h fields c hc
  obtain ⟨s, hs, hlen, _⟩ := exRun_gradient (exTab E T) (exCanon E F) hVq hVu ys s1 hrun1 region r hregy
  have hfold : (calls.map (fun c : Nat × R => ExOp.setD c.1 c.2) ++ [ExOp.gradient region]).foldlM (exStep (exTab E T) (exCanon E F)) st.ex
      = some s := by
    rw [← hs, exRun_snoc, hrun1, List.foldlM_append, hs1]
    rw [Option.bind_eq_bind, Option.bind_some, List.foldlM_cons, Option.bind_some]
    cases exStep (exTab E T) (exCanon E F) s1 (.gradient region) <;> rfl
  rw [hfold]
  dsimp only
  have hNP : (exTab E T).NP = totalSize E.prob.ps + 1 := rfl
  have hcols : ∀ p ∈ E.prob.tps, ∃ b, baseCol E.prob.ps p.name = some b ∧ b + slots p ≤ s.dp.length := by
    intro p hp
    obtain ⟨pre, post, e⟩ := List.append_of_mem hp
    obtain ⟨e1, e2⟩ := baseCol_tps E.prob h.wf.names h.wf.sizes pre post p e
    exact ⟨_, e1, by rw [hlen, hNP]; omega⟩
  obtain ⟨pg, res, a1, a2, a3, a4, _⟩ := assignGrads_ok E.prob.ps s.dp E.tps st.pgrad
    (by have := h.wf.names; rwa [ps_names] at this) hcols
  rw [a1]
  refine ⟨_, _, rfl, ?_, ?_, fun hn => absurd hfit hn, rfl, ?_⟩
  · have : astep (S := Unit) E F T a (.gradient region) = { a with region := region.or a.region } := if_pos hfit
    rw [this]
    refine ⟨inv.agree, rfl, ys ++ [.gradient region], hs, ?_, ?_, ?_⟩
    · rw [regionOf_snoc, hys, setD_region, x2]
      cases region <;> rfl
    · funext k
      rw [givenDx_snoc]
    · intro j w hm
      rcases List.mem_append.1 hm with hm | hm
      · exact hops j w hm
      · rw [List.mem_singleton] at hm
        cases hm
  · constructor
    · intro hr
      refine ⟨hfit, ?_⟩
      by_contra hn
      rw [a3 hn] at hr
      cases hr
    · exact fun hh => a2 hh.2
  · intro _ hfull hord gr hgr r' hr'
    cases hr'
    refine ⟨readGrad E.prob s.dp, ?_, ?_⟩
    · intro p hp
      obtain ⟨b, f, b1, b2, b3⟩ := a4 hfull p hp
      refine ⟨f, b2, fun idx hi => ?_⟩
      obtain ⟨b', b1', b2'⟩ := hcols p hp
      rw [b1] at b1'
      cases b1'
      have hlt := pos_lt p.shape idx hi
      have hs := hfull p hp
      have hfp : (E.prob.tps.find? fun q => q.name == p.name) = some p := find_param (P := E.prob) h.wf.names hp
      rw [b3 idx hi]
      simp only [readGrad, hfp, b1, Option.bind_some]
      rw [List.getElem?_eq_getElem (by omega)]
      rfl
    · intro t t' x x' hx hx'
      have ht := mem_vector_length h t
      have ht' := mem_vector_length h t'
      have hfe : ∀ (c : CId) (θ : List R), (fun i => (((dataAt E.prob θ c).getD [])[i]?).getD 0) = fn ((dataAt E.prob θ c).getD []) :=
        fun c θ => rfl
      have hthe : ∀ θ : List R, thetaAt E F θ = thetaUpdate (exCanon E F).n (exCanon E F).m (exCanon E F).mask
          (fn ((dataAt E.prob θ .q).getD [])) (fn ((dataAt E.prob θ .u).getD [])) := fun θ => rfl
      obtain ⟨s', hs', _, hadj⟩ := C43_adjoint (exTab E T) (exCanon E F) hVq hVu (xnRed h) ys hops s1 hrun1 region r hregy
        (vector E.prob t ++ [1]) (vector E.prob t' ++ [1]) ((dataAt E.prob θ0.1 .q).getD []) ((dataAt E.prob θ0.1 .u).getD [])
        _ _ _ _ (by rw [List.length_append, ht]; rfl) (by rw [List.length_append, ht']; rfl)
        (hqv.1 θ0.1 θ0.2).ge (huv.1 θ0.1 θ0.2).ge
        (hqv.2.1 θ0.1 _ θ0.2 ht) (hqv.2.1 θ0.1 _ θ0.2 ht') (huv.2.1 θ0.1 _ θ0.2 ht) (huv.2.1 θ0.1 _ θ0.2 ht')
        ((thetaAt_length h hg (vector E.prob t)).trans hTK.symm)
      rw [hs] at hs'
      cases hs'
      have hhp : (exTab E T).hp r = hh := by
        show T.hps.getD r 0 = hh
        rw [List.getD, hleaf]; rfl
      have hright : ∑ i ∈ range (exTab E T).nSol, givenDx ys i *
          (affLaw (exTab E T).K (feedback (exTab E T).K (exTab E T).nSol (exTab E T).fb ((exTab E T).hp r)) (fn (thetaAt E F (vector E.prob t'))) i -
           affLaw (exTab E T).K (feedback (exTab E T).K (exTab E T).nSol (exTab E T).fb ((exTab E T).hp r)) (fn (thetaAt E F (vector E.prob t))) i)
          = reqDot E gr fun k => x' k - x k := by
        have e1 : ∀ i ∈ range (exTab E T).nSol, givenDx ys i *
          (affLaw (exTab E T).K (feedback (exTab E T).K (exTab E T).nSol (exTab E T).fb ((exTab E T).hp r)) (fn (thetaAt E F (vector E.prob t'))) i -
           affLaw (exTab E T).K (feedback (exTab E T).K (exTab E T).nSol (exTab E T).fb ((exTab E T).hp r)) (fn (thetaAt E F (vector E.prob t))) i)
            = exDx E.exGen.size E.exGen.store.info (fun n k => fn ((fields.lookup n).getD []) k) i *
              (fun k => x' k - x k) (E.exGen.store.outInds.getD i 0) := by
          intro i hi
          have hi : i < E.exGen.store.outInds.length := mem_range.1 hi
          have hget : E.exGen.store.outInds[i]? = some (E.exGen.store.outInds.getD i 0) := by
            rw [List.getD, List.getElem?_eq_getElem hi]; rfl
          rw [hgiven, hhp]
          dsimp only
          rw [hx hh hleaf i _ hget, hx' hh hleaf i _ hget]
          rfl
        rw [sum_congr rfl e1]
        refine (C55_explicit_partial E.exGen.size (fun n => (E.exGen.offs.lookup n).getD 0) E.exGen.offs E.reqs h.reqNames
          (fun r hr => exmem_lookup h.exOK r hr) h.good (fun n k => fn ((fields.lookup n).getD []) k) fun k => x' k - x k).trans ?_
        unfold storedFunctional reqDot
        congr 1
        apply List.map_congr_left
        intro q hq
        obtain ⟨v, hv, hvn⟩ := List.mem_map.1 (h.known q hq)
        have hfv := find_var h hv
        rw [hvn] at hfv
        rw [hfv]
        dsimp only
        rw [← hvn, size_var h hv, offs_var h hv]
        apply sum_congr rfl
        intro i hi
        have hi := mem_range.1 hi
        have hvs : v ∈ storedVars E := by
          unfold storedVars
          rw [List.mem_filter]
          exact ⟨hv, List.contains_iff_mem.2 (List.mem_map.2 ⟨q, hq, hvn.symm⟩)⟩
        obtain ⟨arr, r1, r2, r3⟩ := hgr v hvs
        rw [hf2 v hvs arr r1 r2 i (by rw [size_prod]; exact hi), r3]
        rfl
      rw [← hright]
      refine Eq.trans ?_ hadj
      -- parameters
      rw [hNP, sum_range_succ]
      have e1 : fn (vector E.prob t' ++ [1]) (totalSize E.prob.ps) - fn (vector E.prob t ++ [1]) (totalSize E.prob.ps) = 0 := by
        have y1 := fn_snoc_one (vector E.prob t')
        have y2 := fn_snoc_one (vector E.prob t)
        rw [ht'] at y1
        rw [ht] at y2
        rw [y1, y2, sub_self]
      rw [e1, mul_zero, add_zero]
      have e2 : ∑ j ∈ range (totalSize E.prob.ps), fn s.dp j * (fn (vector E.prob t' ++ [1]) j - fn (vector E.prob t ++ [1]) j)
          = ∑ j ∈ range (totalSize E.prob.ps), fn s.dp j * (fn (vector E.prob t') j - fn (vector E.prob t) j) := by
        apply sum_congr rfl
        intro j hj
        have hj := mem_range.1 hj
        rw [fn_snoc_lt _ j (by rw [ht']; exact hj), fn_snoc_lt _ j (by rw [ht]; exact hj)]
      rw [e2, sum_params E.prob h.wf.names h.wf.sizes (fn s.dp)
        (fun m k => ((baseCol E.prob.ps m).map fun b => fn s.dp (b + k)).getD 0)
        (by
          intro p hp b hb k _
          rw [hb]; rfl) t t']
      unfold parDot
      congr 1
      apply List.map_congr_left
      intro p hp
      obtain ⟨b, b1, b2⟩ := hcols p hp
      rw [← hfull p hp]
      apply sum_congr rfl
      intro k hk
      have hk := mem_range.1 hk
      have hks : k < size p.shape := by rw [← hfull p hp]; exact hk
      have hfp : (E.prob.tps.find? fun q => q.name == p.name) = some p := find_param (P := E.prob) h.wf.names hp
      rw [hord p hp k hk, b1]
      unfold readGrad
      rw [hfp, Option.bind_some, b1, Option.bind_some, unpos_eq, (idxOf_spec p.shape k hks).2]
      rfl

/-! ### one call of `cpg_solve` -/

theorem thetaIn_eq (h : EOK E) {θ0 : E.prob.Vec} (F : EFiles R) {m : EMem E} (hm : ∀ c, m.canon c = dataAt E.prob m.θ.1 c) :
    thetaIn E F m = thetaAt E F m.θ.1 := by
  unfold thetaIn thetaAt problemAt
  dsimp only
  rw [hm, hm]

/-- After a successful solve the canonical parameters in memory are up to date. -/
theorem esolve_fresh {S : Type} (h : EOK E) {θ0 : E.prob.Vec} {F : EFiles R} {sol : List R → Nat → R} {time : R}
    {st : ESt E} (hinv : EInv (E.gen θ0) st.mem) {u : Option (List String)} {kw : List (String × S)} {st' : ESt E} {ret : Ret R}
    (he : esolve E θ0 F sol time st u kw = some (st', .ok ret)) (c : CId) : st'.mem.canon c = dataAt E.prob st'.mem.θ.1 c := by
  unfold esolve at he
  dsimp only at he
  split at he
  · cases he
  split at he
  · cases he
  have hi := einv_updates h θ0 F.b (updateActs E.prob.ps (u.getD (E.prob.ps.map UParam.name)) (E.prob.flat st.tvals)) st.mem hinv
  rw [csolve_some h F sol hi] at he
  dsimp only at he
  split at he
  · cases he
  · cases he
    show ((E.gen θ0).canonicalize _).canon c = _
    rw [canonicalize_fresh hi c]
    refine canonVal_dataAt h.prob.wf _ ?_ c
    exact (List.foldl (fun m a => eupdate E θ0 F.b a m) st.mem _).θ.2

/-- A solve with good arguments: what is delivered is the point PDAQP computes for the values transferred, moved into the bounds, and
the region returned is its leaf. -/
theorem xsolve_good {S : Type} (h : EOK E) {θ0 : E.prob.Vec} {F : EFiles R} (hg : egen E θ0 = .ok F) (T : XTab R) (sol : List R → Nat → R)
    (clock : Nat → R) {st : XSt E} {a : XAbs R} (inv : XInv θ0 F T st a) (u : Option (List String)) (kw : List (String × S))
    (hgood : EGood E a.u u) :
    ∃ st' ret, xsolve E θ0 F T sol clock st u kw
        = some (st', .ok (ret, some (T.leaf (thetaAt E F (limitVec E (vector E.prob (a.u.transfer u).sent)))))) ∧
      XInv θ0 F T st' (astep E F T a (.solve u kw)) ∧
      Delivered E (sol (thetaAt E F (limitVec E (vector E.prob (a.u.transfer u).sent)))) (clock st.n) st'.base.obj (.ok ret) := by
  obtain ⟨hb, _⟩ := egen_ok h hg
  obtain ⟨m, o, ret, e1, e2, e3, e4⟩ := esolve_good h hg sol (clock st.n) inv.agree.inv inv.agree.vals u kw hgood
  have hθ : m.θ.1 = limitVec E (vector E.prob (a.u.transfer u).sent) := by
    rw [e3]
    exact eupdates_limited h hb inv.agree u hgood.2
  have hfresh := esolve_fresh h inv.agree.inv e1
  have hth : thetaIn E F m = thetaAt E F (limitVec E (vector E.prob (a.u.transfer u).sent)) := by
    rw [← hθ]
    exact thetaIn_eq (θ0 := θ0) h F hfresh
  obtain ⟨xs, x1, x2, x3, x4⟩ := inv.calls
  have hstep : xsolve E θ0 F T sol clock st u kw = some ({ st with
        base := ⟨st.base.tvals, m, o⟩
        ex := { st.ex with region := some (T.leaf (thetaIn E F m)) }
        n := st.n + 1 }, .ok (ret, some (T.leaf (thetaIn E F m)))) := by
    unfold xsolve
    rw [e1]
    rfl
  rw [hstep, hth]
  refine ⟨_, _, rfl, ?_, ?_⟩
  · have : astep E F T a (.solve u kw) = { a with
        u := a.u.transfer u
        region := some (T.leaf (thetaAt E F (limitVec E (vector E.prob (a.u.transfer u).sent)))) } := if_pos hgood
    rw [this]
    refine ⟨⟨e2, hθ, inv.agree.vals⟩, inv.vgrad, xs ++ [.solve (T.leaf (thetaAt E F (limitVec E (vector E.prob (a.u.transfer u).sent))))],
      ?_, ?_, ?_, ?_⟩
    · rw [exRun_snoc, x1]
      rfl
    · rw [regionOf_snoc]
    · funext k
      rw [givenDx_snoc]
      exact congrFun x3 k
    · intro j w hm
      rcases List.mem_append.1 hm with hm | hm
      · exact x4 j w hm
      · rw [List.mem_singleton] at hm
        cases hm
  · rw [← hθ]
    exact e4

theorem xsolve_bad {S : Type} (h : EOK E) {θ0 : E.prob.Vec} (F : EFiles R) (T : XTab R) (sol : List R → Nat → R)
    (clock : Nat → R) {st : XSt E} {a : XAbs R} (inv : XInv θ0 F T st a) (u : Option (List String)) (kw : List (String × S))
    (hbad : ¬ EGood E a.u u) :
    ∃ e, xsolve E θ0 F T sol clock st u kw = some (st, .error e) := by
  obtain ⟨e, e1⟩ := esolve_bad h F sol (clock st.n) inv.agree.vals u kw hbad
  refine ⟨e, ?_⟩
  unfold xsolve
  rw [e1]

/-! ### histories -/

theorem xhistory {S : Type} (h : EOK E) (hall : ExAllStored E.exGen) {θ0 : E.prob.Vec} {F : EFiles R} (hg : egen E θ0 = .ok F) {T : XTab R}
    (hTK : T.K = F.M.F.length) (sol : List R → Nat → R) (clock : Nat → R) (ops : List (XOp R S)) :
    ∀ (st : XSt E) (a : XAbs R), XInv θ0 F T st a → AllAsked E F T a ops →
      ∃ st', xrun E θ0 F T sol clock st ops = some st' ∧ XInv θ0 F T st' (aafter E F T a ops) := by
  induction ops with
  | nil => intro st a inv _; exact ⟨st, rfl, inv⟩
  | cons op ops ih =>
    intro st a inv hask
    have cont : ∀ st1, xstep E θ0 F T sol clock st op = some st1 → XInv θ0 F T st1 (astep E F T a op) →
        ∃ st', xrun E θ0 F T sol clock st (op :: ops) = some st' ∧ XInv θ0 F T st' (aafter E F T a (op :: ops)) := by
      intro st1 h1 h2
      obtain ⟨st', k1, k2⟩ := ih st1 _ h2 (fun pre post r e => by
        have := hask (op :: pre) post r (by rw [e]; rfl)
        exact this)
      refine ⟨st', ?_, k2⟩
      unfold xrun at k1 ⊢
      rw [List.foldlM_cons, h1]
      exact k1
    cases op with
    | setVal m t =>
      refine cont _ rfl ⟨⟨inv.agree.inv, inv.agree.θ, ?_⟩, inv.vgrad, inv.calls⟩
      simp only [astep, inv.agree.vals]
    | setGrad m g =>
      refine cont _ rfl ⟨inv.agree, ?_, inv.calls⟩
      simp only [astep, inv.vgrad]
    | solve u kw =>
      by_cases hgd : EGood E a.u u
      · obtain ⟨st', ret, e1, e2, _⟩ := xsolve_good h hg T sol clock inv u kw hgd
        refine cont st' ?_ e2
        simp only [xstep, e1, Option.map_some]
      · obtain ⟨e, e1⟩ := xsolve_bad h F T sol clock inv u kw hgd
        refine cont st ?_ ?_
        · simp only [xstep, e1, Option.map_some]
        · have : astep E F T a (.solve u kw) = a := if_neg hgd
          rw [this]; exact inv
    | gradient r =>
      obtain ⟨st', res, e1, e2, _⟩ := xgrad_step h hall hg hTK st a inv r (hask [] ops r rfl)
      refine cont st' ?_ e2
      simp only [xstep, e1, Option.map_some]

theorem xinit_inv (h : EOK E) (a : UAbs R) (θ0 : E.prob.Vec) (hθ0 : θ0.1 = vector E.prob a.sent) (ha : Admissible E θ0.1) {F : EFiles R}
    (hg : egen E θ0 = .ok F) (T : XTab R) (before : PObj R) :
    XInv θ0 F T (xinit E θ0 a.vals before) ⟨a, fun _ => none, none⟩ := by
  have hs : Sound (E.gen θ0) := canonGen_sound _ _ _ _ h.wf θ0
  obtain ⟨hb, _⟩ := egen_ok h hg
  refine ⟨⟨?_, ?_, rfl⟩, rfl, [], rfl, rfl, rfl, fun j w hm => (by cases hm)⟩
  · intro c hc
    rcases hc with hc | hc
    · cases hc
    · exact hs.written c θ0 hc
  · show θ0.1 = _
    rw [← hθ0, limitVec_same h hb θ0.2 ha]

/-- **C71 (partial)** Differentiation in explicit mode as a whole. For every problem for which generation succeeds and every history
of assignments of parameter values and of variables' gradients, of calls of `cpg_solve` and of `cpg_gradient`, in which gradients are
asked for after a solve and for regions that exist: no access is outside of an array; a call of `cpg_gradient` succeeds if and only if
the gradients of all stored variables are given, and leaves in the attributes `gradient` of the parameters the gradient of the given
scalar function of the stored entries composed with the affine law of the region asked for: that of the argument, otherwise of the
last call that named one. A call with a missing gradient raises and changes nothing.
Missing: problems with variables that are not stored (C60), diagonal and sparse parameters (`ValueError`), values at generation out
of bounds, gradients of the duals, and what C39 excludes. -/
theorem C71_partial {S : Type} (E : EProb R) (h : EOK E) (hall : ExAllStored E.exGen) (a : UAbs R) (θ0 : E.prob.Vec)
    (hθ0 : θ0.1 = vector E.prob a.sent) (ha : Admissible E θ0.1) (F : EFiles R) (hg : egen E θ0 = .ok F) (T : XTab R)
    (hTK : T.K = F.M.F.length) (sol : List R → Nat → R) (clock : Nat → R) (before : PObj R) (ops : List (XOp R S))
    (hask : AllAsked E F T ⟨a, fun _ => none, none⟩ ops) :
    ∃ st, xrun E θ0 F T sol clock (xinit E θ0 a.vals before) ops = some st ∧
      ∀ region, Asked E T (aafter E F T ⟨a, fun _ => none, none⟩ ops) region →
        ∃ st' res, xgradient E F T st region = some (st', res) ∧ st'.base = st.base ∧
          (res = .ok () ↔ Fits (storedVars E) (aafter E F T ⟨a, fun _ => none, none⟩ ops).vgrad ∧ Full E.tps) ∧
          (¬ Fits (storedVars E) (aafter E F T ⟨a, fun _ => none, none⟩ ops).vgrad → st' = st) ∧
          (Full E.tps → (∀ p ∈ E.tps, ∀ k < slots p, slotIdx p k = unpos p.shape k) → ∀ gr : String → List Nat → R,
            (∀ v ∈ storedVars E, ∃ arr, (aafter E F T ⟨a, fun _ => none, none⟩ ops).vgrad v.name = some arr ∧ arr.shape = v.shape ∧
              arr.val = gr v.name) →
            ∃ r, region.or (aafter E F T ⟨a, fun _ => none, none⟩ ops).region = some r ∧ RightX E F T r gr st'.pgrad) := by
  obtain ⟨st, k1, k2⟩ := xhistory h hall hg hTK sol clock ops _ _ (xinit_inv h a θ0 hθ0 ha hg T before) hask
  refine ⟨st, k1, fun region hr => ?_⟩
  obtain ⟨st', res, e1, _, e3, e4, e5, e6⟩ := xgrad_step h hall hg hTK st _ k2 region hr
  refine ⟨st', res, e1, e5, e3, e4, fun hfull hord gr hgr => ?_⟩
  have hfit : Fits (storedVars E) (aafter E F T ⟨a, fun _ => none, none⟩ ops).vgrad := by
    intro v hv
    obtain ⟨arr, r1, r2, _⟩ := hgr v hv
    exact ⟨arr, r1, by rw [r2]⟩
  obtain ⟨r, hr1, _⟩ := hr hfit
  exact ⟨r, hr1, e6 hfit hfull hord gr hgr r hr1⟩

/-- A solve after any history: the point delivered is the one PDAQP computes for the values last transferred, moved into the bounds,
and the region returned is the leaf of this point; bad arguments raise and change nothing. -/
theorem C71_solve_partial {S : Type} (E : EProb R) (h : EOK E) (hall : ExAllStored E.exGen) (a : UAbs R) (θ0 : E.prob.Vec)
    (hθ0 : θ0.1 = vector E.prob a.sent) (ha : Admissible E θ0.1) (F : EFiles R) (hg : egen E θ0 = .ok F) (T : XTab R)
    (hTK : T.K = F.M.F.length) (sol : List R → Nat → R) (clock : Nat → R) (before : PObj R) (ops : List (XOp R S))
    (hask : AllAsked E F T ⟨a, fun _ => none, none⟩ ops) (u : Option (List String)) (kw : List (String × S)) :
    ∃ st st' res, xrun E θ0 F T sol clock (xinit E θ0 a.vals before) ops = some st ∧ xsolve E θ0 F T sol clock st u kw = some (st', res) ∧
      let b := aafter E F T ⟨a, fun _ => none, none⟩ ops
      let th := thetaAt E F (limitVec E (vector E.prob (b.u.transfer u).sent))
      ((EGood E b.u u ∧ ∃ ret, res = .ok (ret, some (T.leaf th)) ∧ Delivered E (sol th) (clock st.n) st'.base.obj (.ok ret)) ∨
        (¬ EGood E b.u u ∧ (∃ e, res = .error e) ∧ st' = st)) := by
  obtain ⟨st, k1, k2⟩ := xhistory h hall hg hTK sol clock ops _ _ (xinit_inv h a θ0 hθ0 ha hg T before) hask
  by_cases hgd : EGood E (aafter E F T ⟨a, fun _ => none, none⟩ ops).u u
  · obtain ⟨st', ret, e1, _, e3⟩ := xsolve_good h hg T sol clock k2 u kw hgd
    exact ⟨st, st', _, k1, e1, Or.inl ⟨hgd, ret, rfl, e3⟩⟩
  · obtain ⟨e, e1⟩ := xsolve_bad h F T sol clock k2 u kw hgd
    exact ⟨st, st, _, k1, e1, Or.inr ⟨hgd, ⟨e, rfl⟩, rfl⟩⟩

/-- What this means for the points delivered: between parameter values within the bounds whose points lie in the region, the change of
the given function of the stored entries is the inner product of the gradients of the parameters with the change of the parameters. -/
theorem C71_solution (E : EProb R) (h : EOK E) {θ0 : E.prob.Vec} {F : EFiles R} (hg : egen E θ0 = .ok F) {T : XTab R}
    {sol : List R → Nat → R} (hT : TableOK E F T sol) {r : Nat} {gr : String → List Nat → R}
    {pgrad : String → Option (List Nat → Option R)} (hR : RightX E F T r gr pgrad) :
    ∃ f : String → List Nat → R,
      (∀ p ∈ E.tps, ∃ g, pgrad p.name = some g ∧ ∀ idx, Flatten.InBounds p.shape idx → g idx = some (f p.name idx)) ∧
      ∀ t t' : String → List Nat → R, Admissible E (vector E.prob t) → Admissible E (vector E.prob t') →
        T.leaf (thetaAt E F (limitVec E (vector E.prob t))) = r → T.leaf (thetaAt E F (limitVec E (vector E.prob t'))) = r →
        parDot E.tps f (fun m idx => t' m idx - t m idx)
          = reqDot E gr fun k => sol (thetaAt E F (limitVec E (vector E.prob t'))) k - sol (thetaAt E F (limitVec E (vector E.prob t))) k := by
  obtain ⟨f, f1, f2⟩ := hR
  obtain ⟨hb, _⟩ := egen_ok h hg
  refine ⟨f, f1, fun t t' h1 h2 l1 l2 => ?_⟩
  rw [limitVec_same h hb (mem_vector_length h _) h1] at l1 ⊢
  rw [limitVec_same h hb (mem_vector_length h _) h2] at l2 ⊢
  have on : ∀ θ : List R, T.leaf (thetaAt E F θ) = r → OnLaw E F T r θ (sol (thetaAt E F θ)) := by
    intro θ hl h' hh i k hk
    obtain ⟨h0, a1, _, a3⟩ := hT.leaf (thetaAt E F θ) (by rw [hT.params]; exact thetaAt_length h hg θ)
    rw [hl, hh] at a1
    cases a1
    exact a3 i k hk
  exact f2 t t' _ _ (on _ l1) (on _ l2)

/-- Every region that a solve returns exists: gradients may be asked for after any solve. -/
theorem C71_region {S : Type} (E : EProb R) (h : EOK E) {θ0 : E.prob.Vec} {F : EFiles R} (hg : egen E θ0 = .ok F) {T : XTab R}
    {sol : List R → Nat → R} (hT : TableOK E F T sol) (a : XAbs R) (ha : ∀ r, a.region = some r → IsLeaf T r) (ops : List (XOp R S))
    (hr : ∀ r, .gradient (some r) ∈ ops → IsLeaf T r) (u : Option (List String)) (kw : List (String × S)) (hfirst : ops.head? = some (.solve u kw))
    (hgood : EGood E a.u u) : AllAsked E F T a ops ∧ ∃ r, (aafter E F T a ops).region = some r ∧ IsLeaf T r := by
  have leaf : ∀ θ : List R, IsLeaf T (T.leaf (thetaAt E F θ)) := by
    intro θ
    obtain ⟨h0, a1, a2, _⟩ := hT.leaf (thetaAt E F θ) (by rw [hT.params]; exact thetaAt_length h hg θ)
    exact ⟨h0, a1, a2⟩
  have keep : ∀ (ops : List (XOp R S)) (b : XAbs R), (∀ r, .gradient (some r) ∈ ops → IsLeaf T r) →
      (∃ r, b.region = some r ∧ IsLeaf T r) → ∃ r, (aafter E F T b ops).region = some r ∧ IsLeaf T r := by
    intro ops
    induction ops with
    | nil => intro b _ hb; exact hb
    | cons op ops ih =>
      intro b hr hb
      refine ih (astep E F T b op) (fun r hm => hr r (List.mem_cons_of_mem _ hm)) ?_
      cases op with
      | setVal m t => exact hb
      | setGrad m g => exact hb
      | solve u kw =>
        by_cases hgd : EGood E b.u u
        · have : astep E F T b (.solve u kw) = { b with
              u := b.u.transfer u
              region := some (T.leaf (thetaAt E F (limitVec E (vector E.prob (b.u.transfer u).sent)))) } := if_pos hgd
          rw [this]
          exact ⟨_, rfl, leaf _⟩
        · have : astep E F T b (.solve u kw) = b := if_neg hgd
          rw [this]
          exact hb
      | gradient r =>
        by_cases hf : Fits (storedVars E) b.vgrad
        · have : astep (S := S) E F T b (.gradient r) = { b with region := r.or b.region } := if_pos hf
          rw [this]
          cases r with
          | none => exact hb
          | some r => exact ⟨r, rfl, hr r (List.mem_cons_self ..)⟩
        · have : astep (S := S) E F T b (.gradient r) = b := if_neg hf
          rw [this]
          exact hb
  cases ops with
  | nil => cases hfirst
  | cons op ops =>
    cases hfirst
    have h1 : ∃ r, (astep E F T a (.solve u kw)).region = some r ∧ IsLeaf T r := by
      have : astep E F T a (.solve u kw) = { a with
          u := a.u.transfer u
          region := some (T.leaf (thetaAt E F (limitVec E (vector E.prob (a.u.transfer u).sent)))) } := if_pos hgood
      rw [this]
      exact ⟨_, rfl, leaf _⟩
    refine ⟨?_, keep ops _ (fun r hm => hr r (List.mem_cons_of_mem _ hm)) h1⟩
    intro pre post r e _
    cases pre with
    | nil => cases e
    | cons o pre =>
      have e' := List.cons.inj e
      have hm : .gradient r ∈ ops := by rw [e'.2]; simp
      rw [← e'.1]
      obtain ⟨r0, k1, k2⟩ := keep pre (astep E F T a (.solve u kw))
        (fun r hm => hr r (by rw [e'.2]; exact List.mem_cons_of_mem _ (List.mem_append_left _ hm))) h1
      cases r with
      | none => exact ⟨r0, k1, k2⟩
      | some r => exact ⟨r, rfl, hr r (List.mem_cons_of_mem _ hm)⟩

end

/-! ### a concrete problem -/

/-- The problem of C69's example with all variables stored, `x` in part. -/
def exX : EProb ℚ := { exE with reqs := [("x", [0, 2]), ("y", [])] }

theorem exX_ok : EOK exX := by
  refine ⟨exE_ok.wf, exE_ok.params, exE_ok.q, exE_ok.u, exE_ok.const, exE_ok.varNames, exE_ok.sym, by decide, by decide, ?_, by decide,
    exE_ok.slices⟩
  intro r hr
  simp only [exX, List.mem_cons, List.not_mem_nil, or_false] at hr
  rcases hr with rfl | rfl
  · exact ⟨by decide, by decide, fun h => (by cases h)⟩
  · exact ⟨by decide, by decide, fun h => (by decide)⟩

/-- PDAQP's tables: two laws of three rows; node 0 of the tree is no leaf, node 1 has the law `x₀ = -a / (1 + 10⁻⁶)`, node 2 the law
`x₀ = b`. -/
def exXT : XTab ℚ where
  K := 2
  nLaws := 2
  fb := fun k => if k = 0 then -1 / (1 + 1 / 10 ^ 6) else if k = 10 then 1 else 0
  hps := [5, 0, 1]
  leaf := fun th => if -(th.getD 0 0) / (1 + 1 / 10 ^ 6) ≤ th.getD 1 0 then 1 else 2

theorem exX_table (F : EFiles ℚ) (hF : F.M.F.length = 2) : TableOK exX F exXT exESol := by
  refine ⟨hF.symm, ?_⟩
  intro th hth
  have ho : exX.exGen.store.outInds = [1, 3, 0] := by decide +kernel
  have hn : exX.exGen.nSol = 3 := by decide +kernel
  obtain ⟨t0, t1, rfl⟩ : ∃ t0 t1, th = [t0, t1] := by
    match th, hth with
    | [t0, t1], _ => exact ⟨t0, t1, rfl⟩
  rw [ho, hn]
  have key : ∀ (h : Nat) (z : ℚ), affLaw 2 (feedback 2 3 exXT.fb h) (fn [t0, t1]) 0 = z →
      affLaw 2 (feedback 2 3 exXT.fb h) (fn [t0, t1]) 1 = 0 → affLaw 2 (feedback 2 3 exXT.fb h) (fn [t0, t1]) 2 = 0 →
      exESol [t0, t1] 1 = z →
      ∀ i k, ([1, 3, 0] : List Nat)[i]? = some k → exESol [t0, t1] k = affLaw exXT.K (feedback exXT.K 3 exXT.fb h) (fn [t0, t1]) i := by
    intro h z h0 h1 h2 hz i k hk
    have hK : exXT.K = 2 := rfl
    rw [hK]
    rcases i with _ | _ | _ | i
    · simp at hk; subst hk; rw [hz, h0]
    · simp at hk; subst hk; rw [h1]; rfl
    · simp at hk; subst hk; rw [h2]; rfl
    · simp at hk
  have hle : exXT.leaf [t0, t1] = if -t0 / (1 + 1 / 10 ^ 6) ≤ t1 then 1 else 2 := rfl
  have hso : exESol [t0, t1] 1 = min (-t0 / (1 + 1 / 10 ^ 6)) t1 := rfl
  rw [hle]
  by_cases hc : -t0 / (1 + 1 / 10 ^ 6) ≤ t1
  · rw [if_pos hc]
    refine ⟨0, rfl, by decide, key 0 (-t0 / (1 + 1 / 10 ^ 6)) ?_ ?_ ?_ (by rw [hso, min_eq_left hc])⟩ <;>
      simp [affLaw, feedback, exXT, Finset.sum_range_succ, fn] <;> ring
  · rw [if_neg hc]
    refine ⟨1, rfl, by decide, key 1 t1 ?_ ?_ ?_ (by rw [hso, min_eq_right (le_of_lt (not_le.1 hc))])⟩ <;>
      simp [affLaw, feedback, exXT, Finset.sum_range_succ, fn]

theorem exX_gen : ∃ F, egen exX exEθ = .ok F ∧ F.M.F.length = 2 := by
  have hok : (match egen exX exEθ with | .ok F => F.M.F.length == 2 | .error _ => false) = true := by decide +kernel
  cases hg : egen exX exEθ with
  | error e => rw [hg] at hok; cases hok
  | ok F => rw [hg] at hok; exact ⟨F, rfl, by simpa using hok⟩

/-- The hypotheses of C71 hold, for a history that begins with a solve and asks for the regions of the tree. -/
example : EOK exX ∧ ExAllStored exX.exGen ∧ exEθ.1 = vector exX.prob (fun _ _ => (0 : ℚ)) ∧ Full exX.tps ∧
    (∀ p ∈ exX.tps, ∀ k < slots p, slotIdx p k = unpos p.shape k) ∧
    ∃ F, egen exX exEθ = .ok F ∧ TableOK exX F exXT exESol := by
  obtain ⟨F, h1, h2⟩ := exX_gen
  exact ⟨exX_ok, by unfold ExAllStored; decide, by decide +kernel, by unfold Full; decide, by decide, F, h1, exX_table F h2⟩

/-- The history of C71's examples. -/
def exXRun (ops : List (XOp ℚ Int)) (region : Option Nat) : Option (List (Option ℚ)) :=
  match egen exX exEθ with
  | .error _ => none
  | .ok F => match xrun exX exEθ F exXT exESol (fun _ => 0) (xinit exX exEθ (fun _ => none) ⟨fun _ => none, fun _ => none, none, none⟩) ops with
    | none => none
    | some st => match xgradient exX F exXT st region with
      | some (st', .ok _) => some (["a", "b"].map fun p => match st'.pgrad p with
        | some g => g []
        | none => none)
      | _ => none

def exXOps : List (XOp ℚ Int) :=
  [.setVal "a" fun _ => 3, .setVal "b" fun _ => 4, .setGrad "y" (some ⟨[], fun _ => 7⟩),
   .setGrad "x" (some ⟨[3], fun i => if i = [0] then 2 else 9⟩)]

/-- In the first region the solution is `x₀ = -a / (1 + 10⁻⁶)`, in the second it is `b`. -/
example : exXRun (exXOps ++ [.solve none []]) none = some [some (-2000000 / 1000001), some 0] ∧
    exXRun (exXOps ++ [.solve none [], .setVal "b" fun _ => -4, .solve (some ["b"]) []]) none = some [some 0, some 2] ∧
    exXRun (exXOps ++ [.solve none [], .setVal "b" fun _ => -4, .solve (some ["b"]) []]) (some 1) = some [some (-2000000 / 1000001), some 0] := by
  decide +kernel

/-- **C71 fails** before the first solve: `pdaqp_active_region` is -1, the access is outside of `pdaqp_hp_list`. -/
theorem C71_fails_early : exXRun exXOps none = none := by decide +kernel

/-- **C71 fails** after a call with a region: the region given stays, so that the next call without one no longer refers to the
last solve. -/
theorem C71_fails_kept : exXRun (exXOps ++ [.setVal "b" fun _ => -4, .solve none [], .gradient (some 1)]) none
      = some [some (-2000000 / 1000001), some 0] ∧
    exXRun (exXOps ++ [.setVal "b" fun _ => -4, .solve none []]) none = some [some 0, some 2] := by
  decide +kernel

/-- What `cpg_solve` leaves in the variable `x`. -/
def exXVal (ops : List (XOp ℚ Int)) : Option (Option (List ℚ)) :=
  match egen exX exEθ with
  | .error _ => none
  | .ok F => (xrun exX exEθ F exXT exESol (fun _ => 0) (xinit exX exEθ (fun _ => none) ⟨fun _ => none, fun _ => none, none, none⟩) ops).map
      fun st => st.base.obj.prim "x"

/-- **C71 fails** for values out of bounds: the solution is the same for `a = 7` and `a = 8`, the gradient is not zero. -/
theorem C71_fails_limited : exXRun (exXOps ++ [.setVal "b" fun _ => 10, .setVal "a" fun _ => 7, .solve none []]) none
      = some [some (-2000000 / 1000001), some 0] ∧
    exXVal (exXOps ++ [.setVal "b" fun _ => 10, .setVal "a" fun _ => 7, .solve none []]) = some (some [-5000000 / 1000001, 0, 0]) ∧
    exXVal (exXOps ++ [.setVal "b" fun _ => 10, .setVal "a" fun _ => 8, .solve none []]) = some (some [-5000000 / 1000001, 0, 0]) := by
  decide +kernel

end Verif.Props
