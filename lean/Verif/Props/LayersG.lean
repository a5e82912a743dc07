import Verif.Props.GradPipe
import Verif.Props.Layers
import Verif.Spec.LayersG
/-! C73: differentiation of a solution passed as argument, and forward and backward calls of CVXPYlayers (one stage, OSQP). -/
namespace Verif.Props
open Verif.Model Verif.Model.Pipeline Verif.Model.Saved Verif.Model.Flatten Verif.Model.Factor Verif.Model.Grad Verif.Model.GradPipe
open Verif.Model.Layers Verif.Model.LayersG
open Verif.Spec Verif.Spec.Pipeline Verif.Spec.GradPipe Verif.Spec.Grad Verif.Spec.Factor Verif.Spec.Deltas Verif.Spec.Flatten
open Verif.Spec.Layers Verif.Spec.LayersG
open Verif.Lemmas Verif.Lemmas.Pipeline Verif.Lemmas.GradPipe Verif.Lemmas.Grad Finset

section
variable {R S : Type} [Field R] [LinearOrder R]

/-- Entries of an appended list. -/
theorem fn_append (a b : List R) (j : Nat) : fn (a ++ b) j = if j < a.length then fn a j else fn b (j - a.length) := by
  unfold fn
  rw [List.getD, List.getElem?_append]
  split <;> rfl

/-- The parameter vector changes by the change of the parameters. -/
theorem vector_shift (P : Prob R) (t t' s : String → List Nat → R) (j : Nat) :
    fn (vector P fun m idx => s m idx + (t' m idx - t m idx)) j - fn (vector P s) j = fn (vector P t') j - fn (vector P t) j := by
  unfold vector
  generalize P.tps = l
  induction l generalizing j with
  | nil => simp [fn]
  | cons p l ih =>
    have hlen : ∀ t : List Nat → R, (slotVec p t).length = slots p := fun t => by simp [slotVec]
    simp only [List.flatMap_cons, fn_append, hlen]
    split
    · rename_i hj
      have hget : ∀ t : List Nat → R, fn (slotVec p t) j = t (slotIdx p j) := by
        intro t
        unfold fn slotVec
        rw [List.getD, List.getElem?_map, List.getElem?_range hj]; rfl
      rw [hget, hget, hget, hget]
      ring
    · exact ih _

/-- Data are affine in the parameter vector. -/
theorem data_shift (P : Prob R) (c : CId) (θ1 θ1' θ2 θ2' : List R) (h1 : θ1'.length = θ1.length) (h2 : θ2.length = θ1.length)
    (h3 : θ2'.length = θ1.length) (h : ∀ j, fn θ1' j - fn θ1 j = fn θ2' j - fn θ2 j) (i : Nat) :
    fn ((dataAt P θ1' c).getD []) i - fn ((dataAt P θ1 c).getD []) i = fn ((dataAt P θ2' c).getD []) i - fn ((dataAt P θ2 c).getD []) i := by
  unfold dataAt
  cases P.maps c with
  | none => simp
  | some m =>
    simp only [Option.map_some, Option.getD_some, h1, h2, h3]
    generalize (if c.isUpper = true then nonzeroRows m.signed else List.range m.mapping.rows) = rows
    have hget : ∀ F : Nat → R, fn (rows.map F) i = if hi : i < rows.length then F rows[i] else 0 := by
      intro F
      unfold fn
      rw [List.getD, List.getElem?_map]
      split
      · rename_i hi
        rw [List.getElem?_eq_getElem hi]; rfl
      · rename_i hi
        rw [List.getElem?_eq_none (by omega)]; rfl
    rw [hget, hget, hget, hget]
    split
    · rw [← sum_sub_distrib, ← sum_sub_distrib]
      apply sum_congr rfl
      intro j _
      have hj : fn (θ1' ++ [1]) j - fn (θ1 ++ [1]) j = fn (θ2' ++ [1]) j - fn (θ2 ++ [1]) j := by
        rw [fn_append, fn_append, fn_append, fn_append, h1, h2, h3]
        split
        · exact h j
        · simp
      rw [← mul_sub, ← mul_sub, hj]
    · rfl

/-- The derivative at another parameter, with these matrices, in the same direction. -/
theorem derivative_shift (tol : R) (G : GProb R) (now t t' : String → List Nat → R) (s s' : (Nat → R) × (Nat → R))
    (hs : ∀ i < G.dims.n, s'.1 i = s.1 i) (hs' : ∀ k < G.dims.nu, s'.2 k = s.2 k) (x' y' : Nat → R)
    (hd : DerivativeWith tol G (vector G.prob now) (vector G.prob t) (vector G.prob t') s x' y') :
    IsDerivative tol G (vector G.prob now) (vector G.prob fun m idx => now m idx + (t' m idx - t m idx)) s' x' y' := by
  have hsh : ∀ c i, fn ((dataAt G.prob (vector G.prob fun m idx => now m idx + (t' m idx - t m idx)) c).getD []) i
      - fn ((dataAt G.prob (vector G.prob now) c).getD []) i
      = fn ((dataAt G.prob (vector G.prob t') c).getD []) i - fn ((dataAt G.prob (vector G.prob t) c).getD []) i :=
    fun c i => data_shift G.prob c _ _ _ _ (by rw [vector_len, vector_len]) (by rw [vector_len, vector_len])
      (by rw [vector_len, vector_len]) (fun j => vector_shift G.prob t t' now j) i
  have hM : ∀ (pat : CscL R) (c : CId) (r k : Nat),
      ent { pat with x := fn ((dataAt G.prob (vector G.prob fun m idx => now m idx + (t' m idx - t m idx)) c).getD []) } r k
        - ent { pat with x := fn ((dataAt G.prob (vector G.prob now) c).getD []) } r k
      = ent { pat with x := fn ((dataAt G.prob (vector G.prob t') c).getD []) } r k
        - ent { pat with x := fn ((dataAt G.prob (vector G.prob t) c).getD []) } r k := by
    intro pat c r k
    rw [← ent_sub, ← ent_sub]
    congr 2
    funext i
    exact hsh c i
  have hact : ∀ k < G.dims.nu, (Active tol s'.2 k ↔ Active tol s.2 k) := by
    intro k hk
    unfold Active
    rw [hs' k hk]
  unfold DerivativeWith at hd
  unfold IsDerivative
  constructor
  · intro i hi
    refine Eq.trans ?_ (hd.stationarity i hi)
    congr 1
    · congr 1
      · apply sum_congr rfl
        intro j hj
        rw [hs j (mem_range.1 hj)]
        congr 2
        exact hM G.patP .P i j
      · exact hsh .q i
    · apply sum_congr rfl
      intro k hk
      have hk := mem_range.1 hk
      have e : (ent (matA G (vector G.prob fun m idx => now m idx + (t' m idx - t m idx))) k i - ent (matA G (vector G.prob now)) k i)
          = ent (matA G (vector G.prob t')) k i - ent (matA G (vector G.prob t)) k i := hM G.patA .A k i
      by_cases ha : Active tol s.2 k
      · rw [if_pos ha, if_pos ((hact k hk).2 ha), hs' k hk, e]
      · rw [if_neg ha, if_neg (fun hc => ha ((hact k hk).1 hc))]
  · intro k hk ha
    refine Eq.trans ?_ ((hd.feasibility k hk ((hact k hk).1 ha)).trans (hsh .u k).symm)
    apply sum_congr rfl
    intro j hj
    rw [hs j (mem_range.1 hj)]
    congr 2
    exact hM G.patA .A k j

/-- What a solve does from every state that agrees with the user's view. -/
def SolveStep (lib : Lib R) (G : GProb R) (θ0 : G.prob.Vec) (sg : Stgs S) (big : R) (solver : SolverFn R S) (F : Files) (W : Ws R)
    (delta : Nat → R) (g : DCanon R) : Prop :=
  ∀ (st : GradPipe.St R S G) (a : GAbs R), GInv lib G θ0 W delta g st a → ∀ (u : Option (List String)) (kw : List (String × S)),
    Convex G (vector G.prob (gstep G.prob sg solver a (.solve u kw)).u.sent) →
    ∃ st' r, GradPipe.solve G θ0 sg big solver F st u kw = some (st', r) ∧
      GInv lib G θ0 W delta g st' (gstep G.prob sg solver a (.solve u kw)) ∧
      (Good G.prob sg a.u u kw → Solved G.prob big (solver a.n (dataAt G.prob (vector G.prob (a.u.transfer u).sent)) (settingFor sg kw))
        (constAt G.prob (vector G.prob (a.u.transfer u).sent)) st'.pipe.obj r) ∧
      (¬ Good G.prob sg a.u u kw → ∃ e, r = .error e)

/-- Code generation succeeds, the generated code solves, and the process agrees with the user's view after import. -/
theorem solve_steps {lib : Lib R} {G : GProb R} (h : GradOK lib G) (sg : Stgs S)
    (hd : "default_settings" ∉ sg.enabled) (big : R) (solver : SolverFn R S) (hsolver : SolverOK G.prob sg solver)
    (hsgn : ∀ n D s, SignOK lib G (fn ((solver n D s).duals 0))) (order : List CId → List CId) (horder : ∀ l, (order l).Perm l)
    (junk : CId → Option (List R)) (a : UAbs R) (θ0 : G.prob.Vec) (hθ0 : θ0.1 = vector G.prob a.sent) (store used : String → S)
    (pvals : String → Option (List R)) (before : PObj R) (n : Nat) (sol : (Nat → R) × (Nat → R)) (hsol : SignOK lib G sol.2)
    (W : Ws R) (delta : Nat → R) (g : DCanon R) (hconv0 : Convex G (vector G.prob a.sent)) :
    ∃ F, gen G.prob θ0 order = .ok F ∧ primInfo G.prob.vs = .ok F.pi ∧ SolveStep lib G θ0 sg big solver F W delta g ∧
      GInv lib G θ0 W delta g (GradPipe.init lib G θ0 ⟨a.vals, ⟨pvals,
        (canonGen G.prob.ps (G.prob.k.canonIds G.prob.quad) G.prob.quad G.prob.maps θ0).initMem
          (G.prob.k.solver G.prob.quad G.prob.lp) junk, store, used, none⟩, before, n⟩ sol W delta g)
        ⟨a, fun _ => none, sol, n⟩ := by
  have hp := h.prob
  have hs : Sound (canonGen G.prob.ps (G.prob.k.canonIds G.prob.quad) G.prob.quad G.prob.maps θ0) :=
    canonGen_sound _ _ G.prob.quad G.prob.maps hp.wf θ0
  have hg : Generated G.prob.k G.prob.quad G.prob.lp (fun p => mapChanges (G.prob.maps p) p.isUpper)
      (canonGen G.prob.ps (G.prob.k.canonIds G.prob.quad) G.prob.quad G.prob.maps θ0) := ⟨hp.possible, rfl, rfl, hs⟩
  obtain ⟨toks, pus', roots, never, g1, hf, ht⟩ := genBlock_ok _ (G.prob.k.solver G.prob.quad G.prob.lp) order horder hg.static
  obtain ⟨pi, hpi, -⟩ := C17_primal_values (R := R) G.prob.k G.prob.vs hp.varNames hp.sym
  obtain ⟨ids, ds, hids, hds, hlen, htab⟩ := dual_table hp
  have hgen : gen G.prob θ0 order = .ok ⟨toks, pi, ds⟩ := by
    unfold gen
    simp only [hpi, hids, hds, g1]
  refine ⟨⟨toks, pi, ds⟩, hgen, hpi, ?_, ?_⟩
  · intro st b inv u kw hcv
    exact gsolve_step h θ0 sg hd big solver hsolver hsgn hpi hids hds hlen htab hf (horder roots) ht W delta g st b inv u kw hcv
  · refine ⟨⟨inv_init _ hs _ junk, hθ0, rfl⟩, rfl, fun p => rfl, rfl, rfl, hsol, by rw [← hθ0] at hconv0; exact hconv0, by rw [← hθ0] at hconv0; exact hconv0, ⟨[], ?_, fun c hc => (by cases hc),
      fun c hc => (by cases hc), fun _ => rfl, fun _ => rfl⟩, rfl, by simp [GradPipe.init]⟩
    unfold GradPipe.init
    rw [withVals_P h θ0.1 θ0.2, withVals_A h θ0.1 θ0.2]
    rfl

theorem gputV_inv {lib : Lib R} {G : GProb R} {θ0 : G.prob.Vec} {W : Ws R} {delta : Nat → R} {g : DCanon R} (names : List String)
    (l : List (String × (List Nat → R))) : ∀ (st : GradPipe.St R S G) (a : GAbs R), GInv lib G θ0 W delta g st a →
      GInv lib G θ0 W delta g { st with pipe := { st.pipe with tvals := (putVals names st.pipe.tvals l).1 } } (gputV a (known names l)) := by
  induction l with
  | nil => intro st a inv; exact inv
  | cons e l ih =>
    obtain ⟨n, t⟩ := e
    intro st a inv
    by_cases hn : names.contains n = true
    · have h1 : putVals names st.pipe.tvals ((n, t) :: l) = putVals names (fun m => if m = n then some t else st.pipe.tvals m) l := if_pos hn
      have h2 : known names ((n, t) :: l) = (n, t) :: known names l := by
        unfold known
        rw [List.takeWhile_cons, if_pos hn]
      rw [h1, h2]
      obtain ⟨cs, k⟩ := inv.calls
      exact ih { st with pipe := { st.pipe with tvals := fun m => if m = n then some t else st.pipe.tvals m } }
        { a with u := { a.u with vals := fun m => if m = n then some t else a.u.vals m } }
        ⟨⟨inv.agree.inv, inv.agree.θ, by simp only [inv.agree.vals]⟩, inv.n, inv.canon, inv.vgrad, inv.sol, inv.sign, inv.convex, inv.convex0,
          ⟨cs, k⟩, inv.dx, inv.dp⟩
    · have h1 : putVals names st.pipe.tvals ((n, t) :: l) = (st.pipe.tvals, false) := if_neg hn
      have h2 : known names ((n, t) :: l) = [] := by
        unfold known
        rw [List.takeWhile_cons, if_neg hn]
      rw [h1, h2]
      exact inv

theorem gputG_inv {lib : Lib R} {G : GProb R} {θ0 : G.prob.Vec} {W : Ws R} {delta : Nat → R} {g : DCanon R} (names : List String)
    (l : List (String × Backward.Arr R)) : ∀ (st : GradPipe.St R S G) (a : GAbs R), GInv lib G θ0 W delta g st a →
      GInv lib G θ0 W delta g { st with vgrad := (putGrads names st.vgrad l).1 } (gputG a (known names l)) := by
  induction l with
  | nil => intro st a inv; exact inv
  | cons e l ih =>
    obtain ⟨n, t⟩ := e
    intro st a inv
    by_cases hn : names.contains n = true
    · have h1 : putGrads names st.vgrad ((n, t) :: l) = putGrads names (fun m => if m = n then some t else st.vgrad m) l := if_pos hn
      have h2 : known names ((n, t) :: l) = (n, t) :: known names l := by
        unfold known
        rw [List.takeWhile_cons, if_pos hn]
      rw [h1, h2]
      obtain ⟨cs, k⟩ := inv.calls
      exact ih { st with vgrad := fun m => if m = n then some t else st.vgrad m }
        { a with vgrad := fun m => if m = n then some t else a.vgrad m }
        ⟨inv.agree, inv.n, inv.canon, by simp only [inv.vgrad], inv.sol, inv.sign, inv.convex, inv.convex0, ⟨cs, k⟩, inv.dx, inv.dp⟩
    · have h1 : putGrads names st.vgrad ((n, t) :: l) = (st.vgrad, false) := if_neg hn
      have h2 : known names ((n, t) :: l) = [] := by
        unfold known
        rw [List.takeWhile_cons, if_neg hn]
      rw [h1, h2]
      exact inv

/-- A gradient with a solution passed. -/
theorem gradAt_step [IsStrictOrderedRing R] {lib : Lib R} {G : GProb R} (h : GradOK lib G) (θ0 : G.prob.Vec) (F : Files)
    (hpi : primInfo G.prob.vs = .ok F.pi) (W : Ws R) (delta : Nat → R) (g : DCanon R) (st : GradPipe.St R S G) (a : GAbs R)
    (inv : GInv lib G θ0 W delta g st a) (x y : List R) (hx : x.length = G.dims.n) (hy : y.length = G.dims.nu)
    (s : (Nat → R) × (Nat → R)) (hs1 : ∀ i < G.dims.n, fn x i = s.1 i) (hs2 : ∀ i < G.dims.nu, fn y i = s.2 i) (hsg : SignOK lib G s.2) :
    ∃ st' r, gradientAt lib G θ0 F st (some x) (some y) = some (st', r) ∧ GInv lib G θ0 W delta g st' (takeSol G s a) ∧
      (r = .ok () ↔ Fits G.prob.vs a.vgrad ∧ Full G.prob.tps) ∧ (¬ Fits G.prob.vs a.vgrad → st' = st) ∧
      (Fits G.prob.vs a.vgrad → Full G.prob.tps → (∀ p ∈ G.prob.tps, ∀ k < slots p, slotIdx p k = unpos p.shape k) → ∀ gr : String → List Nat → R,
        (∀ v ∈ G.prob.vs, ∃ arr, a.vgrad v.name = some arr ∧ arr.shape = v.shape ∧ arr.val = gr v.name) →
        RightGradients lib G (useSol G s a) gr st') := by
  have hu : gradientAt lib G θ0 F st (some x) (some y) = match vdelta G.prob.vs st.vgrad with
      | .error e => some (st, .error (toPyErr e))
      | .ok _ => gradient lib G θ0 F { st with sol := (overwrite G.dims.n x st.sol.1, overwrite G.dims.nu y st.sol.2) } := if_pos ⟨hx, hy⟩
  rw [hu]
  by_cases hfit : Fits G.prob.vs a.vgrad
  swap
  · obtain ⟨e, he⟩ := vdelta_err a.vgrad G.prob.vs hfit
    rw [← inv.vgrad] at he
    rw [he]
    have ht : takeSol G s a = a := if_neg hfit
    rw [ht]
    exact ⟨st, _, rfl, inv, ⟨fun h => (by cases h), fun h => absurd h.1 hfit⟩, fun _ => rfl, fun h => absurd h hfit⟩
  obtain ⟨fields, hf1, _, _⟩ := vdelta_ok a.vgrad G.prob.vs h.prob.varNames hfit
  rw [← inv.vgrad] at hf1
  rw [hf1]
  dsimp only
  have ht : takeSol G s a = useSol G s a := if_pos hfit
  rw [ht]
  have i1 : GInv lib G θ0 W delta g { st with sol := (overwrite G.dims.n x st.sol.1, overwrite G.dims.nu y st.sol.2) } (useSol G s a) := by
    obtain ⟨cs, k⟩ := inv.calls
    refine ⟨inv.agree, inv.n, inv.canon, inv.vgrad, ?_, ?_, inv.convex, inv.convex0, ⟨cs, k⟩, inv.dx, inv.dp⟩
    · show (overwrite G.dims.n x st.sol.1, overwrite G.dims.nu y st.sol.2) = _
      unfold overwrite useSol
      rw [inv.sol]
      dsimp only
      congr 1
      · funext i
        split
        · exact hs1 i ‹_›
        · rfl
      · funext i
        split
        · exact hs2 i ‹_›
        · rfl
    · intro k h1 h2
      show -lib.tol ≤ if k < G.dims.nu then s.2 k else a.sol.2 k
      rw [if_pos h2]
      exact hsg k h1 h2
  obtain ⟨st', r, k1, k2, k3, _, k5⟩ := grad_step h θ0 F hpi W delta g _ _ i1
  exact ⟨st', r, k1, k2, k3, fun hn => absurd hfit hn, k5⟩

/-- In the user's terms. -/
theorem right_shift [IsStrictOrderedRing R] {lib : Lib R} {G : GProb R} (a : GAbs R) (s : (Nat → R) × (Nat → R)) (gr : String → List Nat → R)
    (st' : GradPipe.St R S G) (hr : RightGradients lib G (useSol G s a) gr st') (t : String → List Nat → R) (ps : List String) :
    RightFor lib G (vector G.prob a.u.sent) t s gr st'.ws.delta ps (ps.map st'.pgrad) := by
  obtain ⟨f, f1, f2⟩ := hr
  refine ⟨by rw [List.length_map], f, ?_, ?_⟩
  · intro p hp i hi
    obtain ⟨e, e1, e2⟩ := f1 p hp
    exact ⟨e, by rw [List.getElem?_map, hi, Option.map_some, e1], e2⟩
  · intro t' x' y' hd
    have hm1 : ∀ i < G.dims.n, (useSol G s a).sol.1 i = s.1 i := fun i hi => if_pos hi
    have hm2 : ∀ k < G.dims.nu, (useSol G s a).sol.2 k = s.2 k := fun k hk => if_pos hk
    have := f2 _ x' y' (derivative_shift lib.tol G a.u.sent t t' s (useSol G s a).sol hm1 hm2 x' y' hd)
    rw [this]
    congr 1
    · unfold parDot
      congr 1
      apply List.map_congr_left
      intro p _
      apply sum_congr rfl
      intro k _
      dsimp only
      congr 1
      show a.u.sent _ _ + _ - a.u.sent _ _ = _
      ring
    · congr 2
      apply sum_congr rfl
      intro k hk
      have hk := mem_range.1 hk
      have hact : Active lib.tol (useSol G s a).sol.2 k ↔ Active lib.tol s.2 k := by
        unfold Active
        rw [hm2 k hk]
      by_cases ha : Active lib.tol s.2 k
      · rw [if_pos ha, if_pos (hact.2 ha)]
      · rw [if_neg ha, if_neg (fun hc => ha (hact.1 hc))]

/-- State and view agree. -/
structure GLInv (lib : Lib R) (G : GProb R) (θ0 : G.prob.Vec) (W : Ws R) (delta : Nat → R) (g : DCanon R) (s : GLSt R S G)
    (a : GLAbs R) : Prop where
  g : GInv lib G θ0 W delta g s.st a.g
  past : s.infos = a.past.map fun p => (p.ctx, solInfo G p.sol)
  sign : ∀ p ∈ a.past, SignOK lib G p.sol.2

theorem solInfo_fn (G : GProb R) (s : (Nat → R) × (Nat → R)) : (solInfo G s).1.length = G.dims.n ∧ (solInfo G s).2.length = G.dims.nu ∧
    (∀ i < G.dims.n, fn (solInfo G s).1 i = s.1 i) ∧ ∀ i < G.dims.nu, fn (solInfo G s).2 i = s.2 i := by
  refine ⟨by simp [solInfo], by simp [solInfo], fun i hi => ?_, fun i hi => ?_⟩ <;>
  · unfold solInfo fn
    dsimp only
    rw [List.getD, List.getElem?_map, List.getElem?_range hi]; rfl

/-- One forward call. -/
theorem gforward_step [IsStrictOrderedRing R] {lib : Lib R} {G : GProb R} {θ0 : G.prob.Vec} {sg : Stgs S} {big : R} {solver : SolverFn R S} {F : Files} {W : Ws R}
    {delta : Nat → R} {g : DCanon R} (hstep : SolveStep lib G θ0 sg big solver F W delta g) {s : GLSt R S G} {a : GLAbs R}
    (inv : GLInv lib G θ0 W delta g s a) (ctx : Ctx) (vals : List (List Nat → R)) (u : Option (List String)) (kw : List (String × S))
    (hcv : Convex G (vector G.prob (glastep G sg solver a (.forward ctx vals u kw)).g.u.sent)) :
    ∃ s' res, LayersG.forward G θ0 sg big solver F s ctx vals u kw = some (s', res) ∧
      GLInv lib G θ0 W delta g s' (glastep G sg solver a (.forward ctx vals u kw)) ∧
      (AllNamed (G.prob.tps.map (·.name)) ((ctx.params.zip vals).map Prod.fst) → AllNamed (G.prob.vs.map UVar.name) ctx.vars →
        ∀ x1, x1 = gputV a.g (known (G.prob.tps.map (·.name)) (ctx.params.zip vals)) → Good G.prob sg x1.u u kw →
        ∃ o ret, Solved G.prob big (solver x1.n (dataAt G.prob (vector G.prob (x1.u.transfer u).sent)) (settingFor sg kw))
            (constAt G.prob (vector G.prob (x1.u.transfer u).sent)) o (.ok ret) ∧ res = .ok (ctx.vars.map o.prim) ∧
          (glastep G sg solver a (.forward ctx vals u kw)).past = a.past ++ [⟨ctx, (x1.u.transfer u).sent,
            (fn (solver x1.n (dataAt G.prob (vector G.prob (x1.u.transfer u).sent)) (settingFor sg kw)).sol,
              fn ((solver x1.n (dataAt G.prob (vector G.prob (x1.u.transfer u).sent)) (settingFor sg kw)).duals 0))⟩]) := by
  have i1 := gputV_inv (G.prob.tps.map (·.name)) (ctx.params.zip vals) s.st a.g inv.g
  have hf := putVals_found (G.prob.tps.map (·.name)) (ctx.params.zip vals) s.st.pipe.tvals
  have hst : glastep G sg solver a (.forward ctx vals u kw)
      = glafwd G sg solver a (gputV a.g (known (G.prob.tps.map (·.name)) (ctx.params.zip vals))) ctx vals u kw := rfl
  rw [hst] at hcv ⊢
  unfold LayersG.forward
  generalize gputV a.g (known (G.prob.tps.map (·.name)) (ctx.params.zip vals)) = x1 at i1 hcv ⊢
  generalize putVals (G.prob.tps.map (·.name)) s.st.pipe.tvals (ctx.params.zip vals) = pv at i1 hf ⊢
  obtain ⟨tv, found⟩ := pv
  dsimp only at i1 hf ⊢
  by_cases hn : AllNamed (G.prob.tps.map (·.name)) ((ctx.params.zip vals).map Prod.fst)
  swap
  · have hff : found = false := by
      cases found with
      | false => rfl
      | true => exact absurd (hf.1 rfl) hn
    rw [hff]
    refine ⟨_, _, rfl, ?_, fun h => absurd h hn⟩
    have : glafwd G sg solver a x1 ctx vals u kw = { a with g := x1 } := if_neg hn
    rw [this]
    exact ⟨i1, inv.past, inv.sign⟩
  · have hff := hf.2 hn
    rw [hff]
    have ha : glafwd G sg solver a x1 ctx vals u kw = ⟨gstep G.prob sg solver x1 (.solve u kw), by
        classical
        exact if Good G.prob sg x1.u u kw ∧ AllNamed (G.prob.vs.map UVar.name) ctx.vars then
          a.past ++ [⟨ctx, (gstep G.prob sg solver x1 (.solve u kw)).u.sent, (gstep G.prob sg solver x1 (.solve u kw)).sol⟩] else a.past⟩ := if_pos hn
    rw [ha] at hcv ⊢
    obtain ⟨st', r, e1, e2, e3, e4⟩ := hstep _ x1 i1 u kw hcv
    rw [if_pos rfl, e1]
    by_cases hgd : Good G.prob sg x1.u u kw
    · obtain rfl := (e3 hgd).returned
      dsimp only
      by_cases hv : AllNamed (G.prob.vs.map UVar.name) ctx.vars
      · rw [if_pos ((all_contains _ _).2 hv), if_pos ⟨hgd, hv⟩]
        refine ⟨_, _, rfl, ⟨e2, ?_, ?_⟩, fun _ _ x hx _ => by
          subst hx
          exact ⟨st'.pipe.obj, _, e3 hgd, rfl, by rw [gstep_good _ _ _ _ _ _ hgd]⟩⟩
        · rw [List.map_append, inv.past]
          dsimp only
          rw [e2.sol]
          rfl
        · intro p hp
          rcases List.mem_append.1 hp with hp | hp
          · exact inv.sign p hp
          · rw [List.mem_singleton] at hp
            subst hp
            exact e2.sign
      · rw [if_neg (fun hc => hv ((all_contains _ _).1 hc)), if_neg (fun hc => hv hc.2)]
        exact ⟨_, _, rfl, ⟨e2, inv.past, inv.sign⟩, fun _ hv' => absurd hv' hv⟩
    · obtain ⟨e, rfl⟩ := e4 hgd
      rw [if_neg (fun hc => hgd hc.1)]
      exact ⟨_, _, rfl, ⟨e2, inv.past, inv.sign⟩, fun _ _ x hx hgd' => absurd (by rw [← hx]; exact hgd') hgd⟩

/-- One backward call. -/
theorem gbackward_step [IsStrictOrderedRing R] {lib : Lib R} {G : GProb R} (h : GradOK lib G) {θ0 : G.prob.Vec} {sg : Stgs S}
    {solver : SolverFn R S} {F : Files} (hpi : primInfo G.prob.vs = .ok F.pi) {W : Ws R} {delta : Nat → R} {g : DCanon R} {s : GLSt R S G}
    {a : GLAbs R} (inv : GLInv lib G θ0 W delta g s a) (k : Nat) (dvars : List (Backward.Arr R)) :
    ∃ s' res, LayersG.backward lib G θ0 F s k dvars = some (s', res) ∧
      GLInv lib G θ0 W delta g s' (glastep G sg solver a (.backward k dvars)) ∧
      (∀ p, a.past[k]? = some p → AllNamed (G.prob.vs.map UVar.name) ((p.ctx.vars.zip dvars).map Prod.fst) →
        AllNamed (G.prob.tps.map (·.name)) p.ctx.params → Full G.prob.tps →
        (∀ p ∈ G.prob.tps, ∀ k < slots p, slotIdx p k = unpos p.shape k) →
        ∀ gr : String → List Nat → R, (∀ v ∈ G.prob.vs, ∃ arr,
          (gputG a.g (known (G.prob.vs.map UVar.name) (p.ctx.vars.zip dvars))).vgrad v.name = some arr ∧ arr.shape = v.shape ∧
            arr.val = gr v.name) →
        ∃ gs, res = .ok gs ∧ ∀ t, RightFor lib G (vector G.prob a.g.u.sent) t p.sol gr s'.st.ws.delta p.ctx.params gs) := by
  unfold LayersG.backward
  rw [inv.past, List.getElem?_map]
  cases hk : a.past[k]? with
  | none =>
    refine ⟨s, _, rfl, ?_, fun p hc => (by cases hc)⟩
    have : glastep G sg solver a (.backward k dvars) = a := by
      show (match a.past[k]? with
        | none => a
        | some p => glabwd G a (gputG a.g (known (G.prob.vs.map UVar.name) (p.ctx.vars.zip dvars))) p dvars) = a
      rw [hk]
    rw [this]
    exact inv
  | some p =>
    have i1 := gputG_inv (G.prob.vs.map UVar.name) (p.ctx.vars.zip dvars) s.st a.g inv.g
    have hf := putGrads_found (G.prob.vs.map UVar.name) (p.ctx.vars.zip dvars) s.st.vgrad
    have hst : glastep G sg solver a (.backward k dvars)
        = glabwd G a (gputG a.g (known (G.prob.vs.map UVar.name) (p.ctx.vars.zip dvars))) p dvars := by
      show (match a.past[k]? with
        | none => a
        | some p => glabwd G a (gputG a.g (known (G.prob.vs.map UVar.name) (p.ctx.vars.zip dvars))) p dvars) = _
      rw [hk]
    rw [hst, Option.map_some]
    dsimp only
    have hsent : (gputG a.g (known (G.prob.vs.map UVar.name) (p.ctx.vars.zip dvars))).u = a.g.u := by
      generalize known (G.prob.vs.map UVar.name) (p.ctx.vars.zip dvars) = l
      generalize a.g = b
      induction l generalizing b with
      | nil => rfl
      | cons e l ih => exact ih _
    generalize hx1 : gputG a.g (known (G.prob.vs.map UVar.name) (p.ctx.vars.zip dvars)) = x1 at i1 hsent ⊢
    generalize putGrads (G.prob.vs.map UVar.name) s.st.vgrad (p.ctx.vars.zip dvars) = pv at i1 hf ⊢
    obtain ⟨gr', found⟩ := pv
    dsimp only at i1 hf ⊢
    by_cases hn : AllNamed (G.prob.vs.map UVar.name) ((p.ctx.vars.zip dvars).map Prod.fst)
    swap
    · have hff : found = false := by
        cases found with
        | false => rfl
        | true => exact absurd (hf.1 rfl) hn
      rw [hff]
      refine ⟨_, _, rfl, ?_, fun p' hc hn' => ?_⟩
      · have : glabwd G a x1 p dvars = { a with g := x1 } := if_neg hn
        rw [this]
        exact ⟨i1, rfl, inv.sign⟩
      · cases hc
        exact absurd hn' hn
    · have hff := hf.2 hn
      rw [hff, if_pos rfl]
      have ha : glabwd G a x1 p dvars = { a with g := takeSol G p.sol x1 } := if_pos hn
      obtain ⟨l1, l2, l3, l4⟩ := solInfo_fn G p.sol
      obtain ⟨st', res, e1, e2, e3, _, e5⟩ := gradAt_step h θ0 F hpi W delta g _ x1 i1 _ _ l1 l2 p.sol l3 l4
        (inv.sign p (List.mem_of_getElem? hk))
      rw [e1, ha]
      cases res with
      | error e =>
        dsimp only
        refine ⟨_, _, rfl, ⟨e2, rfl, inv.sign⟩, fun p' hc _ hp hfull hord gr hgr => ?_⟩
        cases hc
        rw [hx1] at hgr
        have hfit : Fits G.prob.vs x1.vgrad := fun v hv => by
          obtain ⟨arr, r1, r2, _⟩ := hgr v hv
          exact ⟨arr, r1, by rw [r2]⟩
        cases e3.2 ⟨hfit, hfull⟩
      | ok _ =>
        dsimp only
        by_cases hp : AllNamed (G.prob.tps.map (·.name)) p.ctx.params
        · rw [if_pos ((all_contains _ _).2 hp)]
          refine ⟨_, _, rfl, ⟨e2, rfl, inv.sign⟩, fun p' hc _ _ hfull hord gr hgr => ?_⟩
          cases hc
          rw [hx1] at hgr
          have hfit : Fits G.prob.vs x1.vgrad := fun v hv => by
            obtain ⟨arr, r1, r2, _⟩ := hgr v hv
            exact ⟨arr, r1, by rw [r2]⟩
          have hr := e5 hfit hfull hord gr hgr
          refine ⟨_, rfl, fun t => ?_⟩
          have := right_shift x1 p.sol gr st' hr t p.ctx.params
          rw [hsent] at this
          exact this
        · rw [if_neg (fun hc => hp ((all_contains _ _).1 hc))]
          refine ⟨_, _, rfl, ⟨e2, rfl, inv.sign⟩, fun p' hc _ hp' => ?_⟩
          cases hc
          exact absurd hp' hp

/-- All interleavings. -/
theorem glhistory [IsStrictOrderedRing R] {lib : Lib R} {G : GProb R} (h : GradOK lib G) {θ0 : G.prob.Vec} {sg : Stgs S} {big : R}
    {solver : SolverFn R S} {F : Files} (hpi : primInfo G.prob.vs = .ok F.pi) {W : Ws R} {delta : Nat → R} {g : DCanon R}
    (hstep : SolveStep lib G θ0 sg big solver F W delta g) (ops : List (GLOp R S)) : ∀ (s : GLSt R S G) (a : GLAbs R),
      (∀ k, Convex G (vector G.prob (glafter G sg solver a (ops.take k)).g.u.sent)) →
      (∀ sp sd, GLOp.gradientAt sp sd ∈ ops → ∀ x y, Passed G sp sd x y → SignOK lib G (fn y)) → GLInv lib G θ0 W delta g s a →
      ∃ s', glrun lib G θ0 sg big solver F s ops = some s' ∧ GLInv lib G θ0 W delta g s' (glafter G sg solver a ops) := by
  induction ops with
  | nil => intro s a _ _ inv; exact ⟨s, rfl, inv⟩
  | cons op ops ih =>
    intro s a hconv hsgn inv
    have cont : ∀ s1, glstep lib G θ0 sg big solver F s op = some s1 → GLInv lib G θ0 W delta g s1 (glastep G sg solver a op) →
        ∃ s', glrun lib G θ0 sg big solver F s (op :: ops) = some s' ∧
          GLInv lib G θ0 W delta g s' (glafter G sg solver a (op :: ops)) := by
      intro s1 h1 h2
      obtain ⟨s', k1, k2⟩ := ih s1 _ (fun k => hconv (k + 1)) (fun sp sd hm => hsgn sp sd (List.mem_cons_of_mem _ hm)) h2
      refine ⟨s', ?_, k2⟩
      unfold glrun at k1 ⊢
      rw [List.foldlM_cons, h1]
      exact k1
    cases op with
    | user op =>
      have hb := inv.g
      cases op with
      | setVal m t =>
        refine cont _ rfl ⟨?_, inv.past, inv.sign⟩
        obtain ⟨cs, k⟩ := hb.calls
        exact ⟨⟨hb.agree.inv, hb.agree.θ, by simp only [hb.agree.vals]; rfl⟩, hb.n, hb.canon, hb.vgrad, hb.sol, hb.sign, hb.convex, hb.convex0, ⟨cs, k⟩,
          hb.dx, hb.dp⟩
      | setGrad m v =>
        refine cont _ rfl ⟨?_, inv.past, inv.sign⟩
        obtain ⟨cs, k⟩ := hb.calls
        exact ⟨⟨hb.agree.inv, hb.agree.θ, hb.agree.vals⟩, hb.n, hb.canon, by simp only [hb.vgrad]; rfl, hb.sol, hb.sign, hb.convex, hb.convex0, ⟨cs, k⟩,
          hb.dx, hb.dp⟩
      | solve u kw =>
        obtain ⟨st1, r, s1, s2, _⟩ := hstep s.st a.g hb u kw (hconv 1)
        refine cont { s with st := st1 } ?_ ⟨s2, inv.past, inv.sign⟩
        simp only [glstep, GradPipe.step, s1, Option.map_some]
      | gradient =>
        obtain ⟨st1, r, s1, s2, _⟩ := grad_step h θ0 F hpi W delta g s.st a.g hb
        refine cont { s with st := st1 } ?_ ⟨s2, inv.past, inv.sign⟩
        simp only [glstep, GradPipe.step, s1, Option.map_some]
    | gradientAt sp sd =>
      by_cases hp : Passed G sp sd (sp.getD []) (sd.getD [])
      · obtain ⟨e1, e2, e3, e4⟩ := hp
        obtain ⟨st1, r, s1, s2, _⟩ := gradAt_step h θ0 F hpi W delta g s.st a.g inv.g (sp.getD []) (sd.getD []) e3 e4
          (fn (sp.getD []), fn (sd.getD [])) (fun _ _ => rfl) (fun _ _ => rfl) (hsgn sp sd List.mem_cons_self _ _ ⟨e1, e2, e3, e4⟩)
        refine cont { s with st := st1 } ?_ ⟨?_, inv.past, inv.sign⟩
        · simp only [glstep]
          rw [← e1, ← e2] at s1
          rw [s1]; rfl
        · have : glaat G a.g sp sd = takeSol G (fn (sp.getD []), fn (sd.getD [])) a.g := if_pos ⟨e1, e2, e3, e4⟩
          show GInv lib G θ0 W delta g st1 (glaat G a.g sp sd)
          rw [this]
          exact s2
      · have ha : glastep G sg solver a (.gradientAt sp sd) = a := by
          have : glaat G a.g sp sd = a.g := if_neg hp
          show { a with g := glaat G a.g sp sd } = a
          rw [this]
        have plain : gradientAt lib G θ0 F s.st sp sd = gradient lib G θ0 F s.st →
            ∃ s', glrun lib G θ0 sg big solver F s (.gradientAt sp sd :: ops) = some s' ∧
              GLInv lib G θ0 W delta g s' (glafter G sg solver a (.gradientAt sp sd :: ops)) := by
          intro hpl
          obtain ⟨st1, r, s1, s2, _⟩ := grad_step h θ0 F hpi W delta g s.st a.g inv.g
          refine cont { s with st := st1 } ?_ (by rw [ha]; exact ⟨s2, inv.past, inv.sign⟩)
          simp only [glstep]
          rw [hpl, s1]; rfl
        cases sp with
        | none => exact plain rfl
        | some x =>
          cases sd with
          | none => exact plain rfl
          | some y =>
            refine cont s ?_ (by rw [ha]; exact inv)
            have : gradientAt lib G θ0 F s.st (some x) (some y) = some (s.st, .error .typeError) :=
              if_neg fun hc => hp ⟨rfl, rfl, hc.1, hc.2⟩
            simp only [glstep]
            rw [this]; rfl
    | forward ctx vals u kw =>
      obtain ⟨s', res, e1, e2, _⟩ := gforward_step hstep inv ctx vals u kw (hconv 1)
      refine cont s' ?_ e2
      simp only [glstep, e1, Option.map_some]
    | backward k dvars =>
      obtain ⟨s', res, e1, e2, _⟩ := gbackward_step (sg := sg) (solver := solver) h hpi inv k dvars
      refine cont s' ?_ e2
      simp only [glstep, e1, Option.map_some]

/-- The gradients assigned in a backward call are its own, for the variables it names once. -/
theorem gputG_get (a : GAbs R) (n : String) (g : Backward.Arr R) (l : List (String × Backward.Arr R)) (hnd : (l.map Prod.fst).Nodup)
    (hm : (n, g) ∈ l) : (gputG a l).vgrad n = some g := by
  induction l generalizing a with
  | nil => cases hm
  | cons e l ih =>
    rw [List.map_cons, List.nodup_cons] at hnd
    have keep : ∀ (l : List (String × Backward.Arr R)) (b : GAbs R), n ∉ l.map Prod.fst → (gputG b l).vgrad n = b.vgrad n := by
      intro l
      induction l with
      | nil => intro b _; rfl
      | cons e l ih =>
        intro b hn
        rw [List.map_cons, List.mem_cons, not_or] at hn
        refine (ih _ hn.2).trans ?_
        exact if_neg hn.1
    rcases List.mem_cons.1 hm with rfl | hm
    · refine (keep l _ hnd.1).trans ?_
      exact if_pos rfl
    · exact ih _ hnd.2 hm

/-- A process after import: the generated workspaces, whatever the parts are that are written before they are read. -/
structure GImport (lib : Lib R) (G : GProb R) (S : Type) where
  big : R
  junk : CId → Option (List R)
  a : UAbs R
  θ0 : G.prob.Vec
  hθ0 : θ0.1 = vector G.prob a.sent
  store : String → S
  used : String → S
  pvals : String → Option (List R)
  before : PObj R
  n : Nat
  sol : (Nat → R) × (Nat → R)
  hsol : SignOK lib G sol.2
  W : Ws R
  delta : Nat → R
  g : DCanon R

def GImport.init {lib : Lib R} {G : GProb R} (I : GImport lib G S) : GLSt R S G :=
  ⟨GradPipe.init lib G I.θ0 ⟨I.a.vals, ⟨I.pvals, (canonGen G.prob.ps (G.prob.k.canonIds G.prob.quad) G.prob.quad G.prob.maps I.θ0).initMem
    (G.prob.k.solver G.prob.quad G.prob.lp) I.junk, I.store, I.used, none⟩, I.before, I.n⟩ I.sol I.W I.delta I.g, []⟩

def GImport.abs {lib : Lib R} {G : GProb R} (I : GImport lib G S) : GLAbs R := ⟨⟨I.a, fun _ => none, I.sol, I.n⟩, []⟩

/-- What is assumed of a history: the problem is convex at the parameters transferred, and solutions passed to `cpg_gradient` by the
user have multipliers with the right sign. -/
def GHist (lib : Lib R) (G : GProb R) (sg : Stgs S) (solver : SolverFn R S) (a : GLAbs R) (ops : List (GLOp R S)) : Prop :=
  (∀ k, Convex G (vector G.prob (glafter G sg solver a (ops.take k)).g.u.sent)) ∧
  ∀ sp sd, GLOp.gradientAt sp sd ∈ ops → ∀ x y, Passed G sp sd x y → SignOK lib G (fn y)

/-- The history of a process. -/
theorem gl_start [IsStrictOrderedRing R] {lib : Lib R} {G : GProb R} (h : GradOK lib G) (sg : Stgs S)
    (hd : "default_settings" ∉ sg.enabled) (solver : SolverFn R S) (hsolver : SolverOK G.prob sg solver)
    (hsgn : ∀ n D s, SignOK lib G (fn ((solver n D s).duals 0))) (order : List CId → List CId) (horder : ∀ l, (order l).Perm l)
    (I : GImport lib G S) (ops : List (GLOp R S)) (hh : GHist lib G sg solver I.abs ops) :
    ∃ F s, gen G.prob I.θ0 order = .ok F ∧ primInfo G.prob.vs = .ok F.pi ∧ SolveStep lib G I.θ0 sg I.big solver F I.W I.delta I.g ∧
      glrun lib G I.θ0 sg I.big solver F I.init ops = some s ∧ GLInv lib G I.θ0 I.W I.delta I.g s (glafter G sg solver I.abs ops) := by
  obtain ⟨F, f1, f2, f3, f4⟩ := solve_steps h sg hd I.big solver hsolver hsgn order horder I.junk I.a I.θ0 I.hθ0 I.store I.used I.pvals
    I.before I.n I.sol I.hsol I.W I.delta I.g (hh.1 0)
  obtain ⟨s, k1, k2⟩ := glhistory h f2 f3 ops I.init I.abs hh.1 hh.2 ⟨f4, rfl, fun p hp => (by cases hp)⟩
  exact ⟨F, s, f1, f2, f3, k1, k2⟩

/-- **C73** What a backward call computes, for every interleaving of forward and backward calls of CVXPYlayers with each other and
with operations of the user: the backward call of any earlier forward call returns the gradients of the parameters for the solution of
that forward call and for the gradients passed to it, but with the matrices `P` and `A` of the problem solved last. -/
theorem C73_mixed [IsStrictOrderedRing R] {lib : Lib R} {G : GProb R} (h : GradOK lib G) (sg : Stgs S)
    (hd : "default_settings" ∉ sg.enabled) (solver : SolverFn R S) (hsolver : SolverOK G.prob sg solver)
    (hsgn : ∀ n D s, SignOK lib G (fn ((solver n D s).duals 0))) (order : List CId → List CId) (horder : ∀ l, (order l).Perm l)
    (I : GImport lib G S) (ops : List (GLOp R S)) (hh : GHist lib G sg solver I.abs ops) (hfull : Full G.prob.tps)
    (hord : ∀ p ∈ G.prob.tps, ∀ k < slots p, slotIdx p k = unpos p.shape k) :
    ∃ F s, gen G.prob I.θ0 order = .ok F ∧ glrun lib G I.θ0 sg I.big solver F I.init ops = some s ∧
      ∀ k p, (glafter G sg solver I.abs ops).past[k]? = some p → p.ctx.vars.Nodup → AllNamed (G.prob.vs.map UVar.name) p.ctx.vars →
        AllNamed (G.prob.tps.map (·.name)) p.ctx.params → AllNamed p.ctx.vars (G.prob.vs.map UVar.name) →
        ∀ gr : String → List Nat → R, ∀ dvars : List (Backward.Arr R), dvars.length = p.ctx.vars.length →
        (∀ v ∈ G.prob.vs, ∀ i : Nat, p.ctx.vars[i]? = some v.name → ∃ arr, dvars[i]? = some arr ∧ arr.shape = v.shape ∧ arr.val = gr v.name) →
        ∃ s' gs, LayersG.backward lib G I.θ0 F s k dvars = some (s', .ok gs) ∧
          RightFor lib G (vector G.prob (glafter G sg solver I.abs ops).g.u.sent) p.sent p.sol gr s'.st.ws.delta p.ctx.params gs := by
  obtain ⟨F, s, f1, f2, f3, k1, k2⟩ := gl_start h sg hd solver hsolver hsgn order horder I ops hh
  refine ⟨F, s, f1, k1, fun k p hk hnd hv hp hst gr dvars hl hdv => ?_⟩
  obtain ⟨s', res, e1, _, e3⟩ := gbackward_step (sg := sg) (solver := solver) h f2 k2 k dvars
  have hmap : (p.ctx.vars.zip dvars).map Prod.fst = p.ctx.vars := List.map_fst_zip (by omega)
  obtain ⟨gs, rfl, e4⟩ := e3 p hk (by rw [hmap]; exact hv) hp hfull hord gr (by
    rw [known_all _ _ (by rw [hmap]; exact hv)]
    intro v hvs
    have hvc : v.name ∈ p.ctx.vars := hst v.name (List.mem_map_of_mem hvs)
    obtain ⟨i, hi⟩ := List.mem_iff_getElem?.1 hvc
    obtain ⟨arr, r1, r2, r3⟩ := hdv v hvs i hi
    refine ⟨arr, gputG_get _ _ _ _ (by rw [hmap]; exact hnd) ?_, r2, r3⟩
    rw [List.mem_iff_getElem?]
    exact ⟨i, by rw [List.getElem?_zip_eq_some]; exact ⟨hi, r1⟩⟩)
  exact ⟨s', gs, e1, e4 p.sent⟩

/-- The same matrices. -/
def SameMatrices (G : GProb R) (θ θ' : List R) : Prop := matP G θ = matP G θ' ∧ matA G θ = matA G θ'

/-- **C73 (partial)** The backward call of any earlier forward call returns the gradients of the parameters for that forward call,
if the problem solved last has the same matrices `P` and `A`. Missing: other matrices, see `C73_fails`; contexts that lack a variable
(C56); what C70 excludes. -/
theorem C73_partial [IsStrictOrderedRing R] {lib : Lib R} {G : GProb R} (h : GradOK lib G) (sg : Stgs S)
    (hd : "default_settings" ∉ sg.enabled) (solver : SolverFn R S) (hsolver : SolverOK G.prob sg solver)
    (hsgn : ∀ n D s, SignOK lib G (fn ((solver n D s).duals 0))) (order : List CId → List CId) (horder : ∀ l, (order l).Perm l)
    (I : GImport lib G S) (ops : List (GLOp R S)) (hh : GHist lib G sg solver I.abs ops) (hfull : Full G.prob.tps)
    (hord : ∀ p ∈ G.prob.tps, ∀ k < slots p, slotIdx p k = unpos p.shape k) :
    ∃ F s, gen G.prob I.θ0 order = .ok F ∧ glrun lib G I.θ0 sg I.big solver F I.init ops = some s ∧
      ∀ k p, (glafter G sg solver I.abs ops).past[k]? = some p →
        SameMatrices G (vector G.prob (glafter G sg solver I.abs ops).g.u.sent) (vector G.prob p.sent) →
        p.ctx.vars.Nodup → AllNamed (G.prob.vs.map UVar.name) p.ctx.vars →
        AllNamed (G.prob.tps.map (·.name)) p.ctx.params → AllNamed p.ctx.vars (G.prob.vs.map UVar.name) →
        ∀ gr : String → List Nat → R, ∀ dvars : List (Backward.Arr R), dvars.length = p.ctx.vars.length →
        (∀ v ∈ G.prob.vs, ∀ i : Nat, p.ctx.vars[i]? = some v.name → ∃ arr, dvars[i]? = some arr ∧ arr.shape = v.shape ∧ arr.val = gr v.name) →
        ∃ s' gs, LayersG.backward lib G I.θ0 F s k dvars = some (s', .ok gs) ∧
          RightFor lib G (vector G.prob p.sent) p.sent p.sol gr s'.st.ws.delta p.ctx.params gs := by
  obtain ⟨F, s, f1, f2, f3⟩ := C73_mixed h sg hd solver hsolver hsgn order horder I ops hh hfull hord
  refine ⟨F, s, f1, f2, fun k p hk hm hnd hv hp hst gr dvars hl hdv => ?_⟩
  obtain ⟨s', gs, e1, e2, f, e3, e4⟩ := f3 k p hk hnd hv hp hst gr dvars hl hdv
  refine ⟨s', gs, e1, e2, f, e3, fun t' x' y' hder => e4 t' x' y' ?_⟩
  unfold DerivativeWith at hder ⊢
  rw [hm.1, hm.2]
  exact hder

/-- Problems whose matrices do not depend on parameters meet the condition on matrices of `C73_partial`, whatever the history. -/
theorem C73_constant {lib : Lib R} {G : GProb R} (h : GradOK lib G) (hP : mapChanges (G.prob.maps .P) true = false)
    (hA : mapChanges (G.prob.maps .A) true = false) (t t' : String → List Nat → R) : SameMatrices G (vector G.prob t) (vector G.prob t') := by
  have hs := canonGen_sound G.prob.ps (G.prob.k.canonIds G.prob.quad) G.prob.quad G.prob.maps h.prob.wf ⟨vector G.prob t, vector_len _ _⟩
  have hfix : ∀ p, mapChanges (G.prob.maps p) p.isUpper = false →
      canonVal (G.prob.maps p) p.isUpper (vector G.prob t) = canonVal (G.prob.maps p) p.isUpper (vector G.prob t') := by
    intro p hno
    refine hs.const p ⟨vector G.prob t, vector_len _ _⟩ ⟨vector G.prob t', vector_len _ _⟩ ?_
    show (changesOf _ _).getD p = false
    unfold changesOf Changes.getD
    dsimp only
    rw [hno]
    split <;> rfl
  constructor
  · rw [← withVals_P h _ (vector_len _ t), ← withVals_P h _ (vector_len _ t')]
    exact congrArg _ (hfix .P hP)
  · rw [← withVals_A h _ (vector_len _ t), ← withVals_A h _ (vector_len _ t')]
    exact congrArg _ (hfix .A hA)

/-- What a forward call does after any history: it returns the values that the solver's result for the parameters of this call means,
and this result is recorded for the backward call. -/
theorem C73_forward [IsStrictOrderedRing R] {lib : Lib R} {G : GProb R} (h : GradOK lib G) (sg : Stgs S)
    (hd : "default_settings" ∉ sg.enabled) (solver : SolverFn R S) (hsolver : SolverOK G.prob sg solver)
    (hsgn : ∀ n D s, SignOK lib G (fn ((solver n D s).duals 0))) (order : List CId → List CId) (horder : ∀ l, (order l).Perm l)
    (I : GImport lib G S) (ops : List (GLOp R S)) (hh : GHist lib G sg solver I.abs ops) (ctx : Ctx) (t : String → List Nat → R)
    (hp : ∀ n, n ∈ ctx.params ↔ n ∈ G.prob.tps.map (·.name)) (hv : AllNamed (G.prob.vs.map UVar.name) ctx.vars)
    (kw : List (String × S)) (hkw : ∀ kv ∈ kw, (sg.translate.lookup kv.1).getD kv.1 ∈ sg.enabled ∧
      sg.accepts ((sg.translate.lookup kv.1).getD kv.1) kv.2 = true) (hcv : Convex G (vector G.prob t)) :
    let vals := ctx.params.map t
    let out := solver (glafter G sg solver I.abs ops).g.n (dataAt G.prob (vector G.prob t)) (settingFor sg kw)
    ∃ F s s' o ret sent, gen G.prob I.θ0 order = .ok F ∧ glrun lib G I.θ0 sg I.big solver F I.init ops = some s ∧
      LayersG.forward G I.θ0 sg I.big solver F s ctx vals none kw = some (s', .ok (ctx.vars.map o.prim)) ∧
      Solved G.prob I.big out (constAt G.prob (vector G.prob t)) o (.ok ret) ∧ (∀ p ∈ G.prob.tps, sent p.name = t p.name) ∧
      (glafter G sg solver I.abs (ops ++ [.forward ctx vals none kw])).past
        = (glafter G sg solver I.abs ops).past ++ [⟨ctx, sent, (fn out.sol, fn (out.duals 0))⟩] := by
  intro vals out
  obtain ⟨F, s, f1, f2, f3, k1, k2⟩ := gl_start h sg hd solver hsolver hsgn order horder I ops hh
  have hmap : (ctx.params.zip vals).map Prod.fst = ctx.params := List.map_fst_zip (by simp [vals])
  have hn : AllNamed (G.prob.tps.map (·.name)) ((ctx.params.zip vals).map Prod.fst) := by
    rw [hmap]; exact fun n hm => (hp n).1 hm
  have hsnoc : glafter G sg solver I.abs (ops ++ [.forward ctx vals none kw])
      = glastep G sg solver (glafter G sg solver I.abs ops) (.forward ctx vals none kw) := by
    unfold glafter
    rw [List.foldl_append]; rfl
  rw [hsnoc]
  subst out
  generalize glafter G sg solver I.abs ops = b at k2 ⊢
  have hnn : (gputV b.g (known (G.prob.tps.map (·.name)) (ctx.params.zip vals))).n = b.g.n := by
    generalize known (G.prob.tps.map (·.name)) (ctx.params.zip vals) = l
    generalize b.g = c
    induction l generalizing c with
    | nil => rfl
    | cons e l ih => exact ih _
  have hget : ∀ n ∈ G.prob.tps.map (·.name), (gputV b.g (known (G.prob.tps.map (·.name)) (ctx.params.zip vals))).u.vals n = some (t n) := by
    intro n hm
    rw [known_all _ _ hn]
    have hm := (hp n).2 hm
    have key : ∀ (l : List String) (x : GAbs R), (n ∈ l ∨ x.u.vals n = some (t n)) → (gputV x (l.zip (l.map t))).u.vals n = some (t n) := by
      intro l
      induction l with
      | nil => intro x hx; rcases hx with hx | hx; cases hx; exact hx
      | cons m l ih =>
        intro x hx
        refine ih { x with u := { x.u with vals := fun m' => if m' = m then some (t m) else x.u.vals m' } } ?_
        by_cases hnm : n = m
        · subst hnm
          exact .inr (if_pos rfl)
        · rcases hx with hx | hx
          · rcases List.mem_cons.1 hx with hx | hx
            · exact absurd hx hnm
            · exact .inl hx
          · exact .inr ((if_neg hnm).trans hx)
    exact key ctx.params b.g (.inl hm)
  generalize hx1 : gputV b.g (known (G.prob.tps.map (·.name)) (ctx.params.zip vals)) = x1 at hnn hget
  have hgood : Good G.prob sg x1.u none kw :=
    ⟨fun L hL => (by cases hL), hkw, fun p hpm => ⟨_, hget p.name (List.mem_map_of_mem hpm)⟩⟩
  have hsent : ∀ p ∈ G.prob.tps, (x1.u.transfer none).sent p.name = t p.name := by
    intro p hpm
    have hnone : ∀ L, (none : Option (List String)) = some L → p.name ∈ L := fun L hL => by cases hL
    show (if (∀ L, (none : Option (List String)) = some L → p.name ∈ L) then (x1.u.vals p.name).getD (fun _ => 0)
      else x1.u.sent p.name) = t p.name
    rw [if_pos hnone, hget p.name (List.mem_map_of_mem hpm)]
    rfl
  have hvec : vector G.prob (x1.u.transfer none).sent = vector G.prob t := vector_congr G.prob _ _ hsent
  have hst : glastep G sg solver b (.forward ctx vals none kw) = glafwd G sg solver b x1 ctx vals none kw := by rw [← hx1]; rfl
  obtain ⟨s', res, e1, _, e3⟩ := gforward_step f3 k2 ctx vals none kw (by
    rw [hst]
    have : (glafwd G sg solver b x1 ctx vals none kw).g = gstep G.prob sg solver x1 (.solve none kw) := by
      unfold glafwd
      rw [if_pos hn]
    rw [this, gstep_good _ _ _ _ _ _ hgood]
    show Convex G (vector G.prob (x1.u.transfer none).sent)
    rw [hvec]
    exact hcv)
  obtain ⟨o, ret, r1, r2, r3⟩ := e3 hn hv x1 hx1.symm hgood
  rw [hvec, hnn] at r1 r3
  exact ⟨F, s, s', o, ret, _, f1, k1, by rw [e1, r2], r1, hsent, r3⟩

/-- A gradient with a solution passed by the user, after any history: it is the gradient for this solution, with the parameters last
transferred. -/
theorem C73_passed [IsStrictOrderedRing R] {lib : Lib R} {G : GProb R} (h : GradOK lib G) (sg : Stgs S)
    (hd : "default_settings" ∉ sg.enabled) (solver : SolverFn R S) (hsolver : SolverOK G.prob sg solver)
    (hsgn : ∀ n D s, SignOK lib G (fn ((solver n D s).duals 0))) (order : List CId → List CId) (horder : ∀ l, (order l).Perm l)
    (I : GImport lib G S) (ops : List (GLOp R S)) (hh : GHist lib G sg solver I.abs ops) (hfull : Full G.prob.tps)
    (hord : ∀ p ∈ G.prob.tps, ∀ k < slots p, slotIdx p k = unpos p.shape k) (x y : List R) (hx : x.length = G.dims.n)
    (hy : y.length = G.dims.nu) (hsy : SignOK lib G (fn y)) (gr : String → List Nat → R)
    (hgr : ∀ v ∈ G.prob.vs, ∃ arr, (glafter G sg solver I.abs ops).g.vgrad v.name = some arr ∧ arr.shape = v.shape ∧ arr.val = gr v.name) :
    ∃ F s st', gen G.prob I.θ0 order = .ok F ∧ glrun lib G I.θ0 sg I.big solver F I.init ops = some s ∧
      gradientAt lib G I.θ0 F s.st (some x) (some y) = some (st', .ok ()) ∧
      RightFor lib G (vector G.prob (glafter G sg solver I.abs ops).g.u.sent) (glafter G sg solver I.abs ops).g.u.sent (fn x, fn y) gr
        st'.ws.delta (G.prob.tps.map (·.name)) ((G.prob.tps.map (·.name)).map st'.pgrad) := by
  obtain ⟨F, s, f1, f2, f3, k1, k2⟩ := gl_start h sg hd solver hsolver hsgn order horder I ops hh
  obtain ⟨st', r, e1, e2, e3, _, e5⟩ := gradAt_step h I.θ0 F f2 I.W I.delta I.g s.st _ k2.g x y hx hy (fn x, fn y) (fun _ _ => rfl)
    (fun _ _ => rfl) hsy
  have hfit : Fits G.prob.vs (glafter G sg solver I.abs ops).g.vgrad := fun v hv => by
    obtain ⟨arr, r1, r2, _⟩ := hgr v hv
    exact ⟨arr, r1, by rw [r2]⟩
  have hr := e3.2 ⟨hfit, hfull⟩
  subst hr
  exact ⟨F, s, st', f1, k1, e1, right_shift _ _ gr st' (e5 hfit hfull hord gr hgr) _ _⟩

end

/-! ### Concrete cases: minimize `½ b x² + a x` without constraints. -/

/-- Columns: `a`, `b`, constant. -/
def exLGMaps : CId → Option (RawMap ℚ)
  | .P => some ⟨⟨1, 3, [(0, 1, 1)]⟩, fun _ => 1⟩
  | .A => some ⟨⟨0, 3, []⟩, fun _ => 1⟩
  | .q => some ⟨⟨1, 3, [(0, 0, 1)]⟩, fun _ => 1⟩
  | .l => some ⟨⟨0, 3, []⟩, fun _ => 1⟩
  | .u => some ⟨⟨0, 3, []⟩, fun _ => 1⟩
  | .d => some ⟨⟨1, 3, []⟩, fun _ => 1⟩
  | _ => none

def exLG : GProb ℚ where
  prob :=
    { k := .osqp
      quad := true
      lp := false
      tps := [⟨"a", [], .plain⟩, ⟨"b", [], .plain⟩]
      maps := exLGMaps
      vs := [⟨"x", [], false, 0⟩]
      cons := []
      idMaps := [[], []]
      con := []
      nEq := 0
      isMax := false }
  dims := ⟨1, 0, 0, 1, 0⟩
  patP := oneM
  patA := ⟨fun _ => 0, fun _ => 0, fun _ => 0, 0⟩

/-- A factorization routine for one variable and no constraints. -/
def fac1 (K : CscL ℚ) : Fac ℚ :=
  { L := ⟨fun _ => 0, fun _ => 0, fun _ => 0, 0⟩
    D := fun _ => ent K 0 0
    Dinv := fun _ => 1 / ent K 0 0 }

/-- Without constraints no square root is taken. -/
def exLGLib : Lib ℚ := ⟨fac1, fun _ => 0, 1 / 1000000, 1 / 1000000000000⟩

/-- The exact solution. -/
def exLGSolver : SolverFn ℚ Int := fun _ D _ =>
  let b := fn ((D .P).getD []) 0
  let a := fn ((D .q).getD []) 0
  { sol := [-(a / b)]
    duals := fun _ => []
    obj := -(a / b * a / 2)
    status := "solved"
    time := 0 }

/-- Generation with `a = b = 1`, then `ops`, then a last call; its results by parameter. -/
def exLGRun (ops : List (GLOp ℚ Int)) (last : Files → GLSt ℚ Int exLG → Option (List (Option (List Nat → Option ℚ)))) :
    Option (List (Option ℚ)) :=
  match gen exLG.prob ⟨[1, 1], rfl⟩ id with
  | .error _ => none
  | .ok F =>
    let zero : Ws ℚ := ⟨⟨⟨fun _ => 0, fun _ => 0, fun _ => 0, 0⟩, fun _ => true⟩, fun _ => 0, fun _ => 0, fun _ => 0, fun _ => 0⟩
    let pipe : Pipeline.St ℚ Int exLG.prob := ⟨fun _ => none, ⟨fun _ => none, (canonGen exLG.prob.ps
      (exLG.prob.k.canonIds exLG.prob.quad) exLG.prob.quad exLG.prob.maps ⟨[1, 1], rfl⟩).initMem
      (exLG.prob.k.solver exLG.prob.quad exLG.prob.lp) (fun _ => none), fun _ => 0, fun _ => 0, none⟩,
      ⟨fun _ => none, fun _ => none, none, none⟩, 0⟩
    match glrun exLGLib exLG ⟨[1, 1], rfl⟩ exStgs (10 ^ 30) exLGSolver F
      ⟨GradPipe.init exLGLib exLG ⟨[1, 1], rfl⟩ pipe (fun _ => 0, fun _ => 0) zero (fun _ => 0) ⟨fun _ => 0, fun _ => 0, fun _ => 0, fun _ => 0, fun _ => 0⟩, []⟩ ops with
    | none => none
    | some s => (last F s).map fun gs => gs.map fun g => match g with
      | some g => g []
      | none => none

def exLGBack (k : Nat) (F : Files) (s : GLSt ℚ Int exLG) : Option (List (Option (List Nat → Option ℚ))) :=
  match LayersG.backward exLGLib exLG ⟨[1, 1], rfl⟩ F s k [⟨[], fun _ => 1⟩] with
  | some (_, .ok gs) => some gs
  | _ => none

def exLGCtx : Ctx := ⟨["b", "a"], ["x"]⟩

/-- Forward calls with `a = 2`, `b = 1` and with `a = 2`, `b = 2`. -/
def exLGOps : List (GLOp ℚ Int) :=
  [.forward exLGCtx [fun _ => 1, fun _ => 2] none [], .forward exLGCtx [fun _ => 2, fun _ => 2] none []]

/-- Equal to the given numbers up to 1/100000. -/
def exNear (res : Option (List (Option ℚ))) (l : List ℚ) : Bool :=
  match res with
  | some res => res.length == l.length && (res.zip l).all fun e => match e.1 with
    | some x => decide (-1 / 100000 < x - e.2 ∧ x - e.2 < 1 / 100000)
    | none => false
  | none => false

/-- **C73 fails** if the matrices of the problem solved last are others: the solution is `x = -a / b`, with derivatives `a / b²` and
`-1 / b`, that is 2 and -1 for the first forward call. After the second one its backward call returns 1 and -1/2. -/
theorem C73_fails : exNear (exLGRun (exLGOps.take 1) (exLGBack 0)) [2, -1] ∧ exNear (exLGRun exLGOps (exLGBack 0)) [1, -1 / 2] := by
  decide +kernel

/-- The call `cpg_gradient(prob)` of the user, after the gradient one was assigned to the variable. -/
def exLGGrad (F : Files) (s : GLSt ℚ Int exLG) : Option (List (Option (List Nat → Option ℚ))) :=
  match gradient exLGLib exLG ⟨[1, 1], rfl⟩ F { s.st with vgrad := fun _ => some ⟨[], fun _ => 1⟩ } with
  | some (st, .ok _) => some (["b", "a"].map st.pgrad)
  | _ => none

/-- **Passing a solution has a lasting effect**: `cpg_gradient(prob)` after a call with a solution passed, or after a backward call,
differentiates that solution, not the one of the last solve. Here the user solves with `a = 4`, `b = 2`; the derivatives are
1 and -1/2. After the backward call of a forward call with `a = 2`, `b = 2` the first one is 1/2; after the solution 5 was passed
it is -5/2. -/
theorem C73_fails_kept :
    let before : List (GLOp ℚ Int) := [.forward exLGCtx [fun _ => 2, fun _ => 2] none [], .user (.setVal "a" fun _ => 4),
      .user (.solve none []), .user (.setGrad "x" (some ⟨[], fun _ => 1⟩))]
    exNear (exLGRun before exLGGrad) [1, -1 / 2] ∧
    exNear (exLGRun (before ++ [.backward 0 [⟨[], fun _ => 1⟩]]) exLGGrad) [1 / 2, -1 / 2] ∧
    exNear (exLGRun (before ++ [.gradientAt (some [5]) (some [])]) exLGGrad) [-5 / 2, -1 / 2] := by
  decide +kernel

/-- Backward calls in any order, if the matrices agree. -/
example :
    let ops : List (GLOp ℚ Int) := [.forward exLGCtx [fun _ => 2, fun _ => 2] none [], .forward exLGCtx [fun _ => 2, fun _ => 4] none []]
    exNear (exLGRun ops (exLGBack 0)) [1 / 2, -1 / 2] ∧ exNear (exLGRun (ops ++ [.backward 0 [⟨[], fun _ => 3⟩]]) (exLGBack 1)) [1, -1 / 2] ∧
    exNear (exLGRun (ops ++ [.backward 1 [⟨[], fun _ => 3⟩], .user (.solve none [])]) (exLGBack 0)) [1 / 2, -1 / 2] := by
  decide +kernel

/-! ### The hypotheses are met: two forward calls of C70's example (minimize `½ λ x²` subject to `x = a`) with the same `λ`. -/

noncomputable def exGImport (W : Ws ℝ) (delta : Nat → ℝ) (g : DCanon ℝ) (before : PObj ℝ) : GImport exLib (exGrad false) Int where
  big := 10 ^ 30
  junk := fun _ => none
  a := exGradAbs.u
  θ0 := ⟨[1, 1], rfl⟩
  hθ0 := rfl
  store := fun _ => 0
  used := fun _ => 0
  pvals := fun _ => none
  before := before
  n := 0
  sol := (fun _ => 0, fun _ => 0)
  hsol := fun k h1 h2 => absurd h2 (Nat.not_lt.2 h1)
  W := W
  delta := delta
  g := g

def exGCtx : Ctx := ⟨["lam", "a"], ["x"]⟩

def exGFwd (l a : ℝ) : GLOp ℝ Int := .forward exGCtx [fun _ => l, fun _ => a] none []

theorem exG_fwd (b : GLAbs ℝ) (l a : ℝ) : ∃ sent sol,
    (glastep (exGrad false) exStgs exGradSolver b (exGFwd l a)).past = b.past ++ [⟨exGCtx, sent, sol⟩] ∧
    (glastep (exGrad false) exStgs exGradSolver b (exGFwd l a)).g.u.sent = sent ∧ vector (exGrad false).prob sent = [a, l] := by
  have hn : AllNamed ((exGrad false).prob.tps.map (·.name)) ((exGCtx.params.zip [fun _ : List Nat => l, fun _ => a]).map Prod.fst) := by
    intro m hm
    simp only [exGCtx, List.zip_cons_cons, List.map_cons, List.mem_cons, List.not_mem_nil, or_false, List.zip_nil_right, List.map_nil] at hm
    rcases hm with rfl | rfl <;> simp [exGrad, exLam]
  have hv : AllNamed ((exGrad false).prob.vs.map UVar.name) exGCtx.vars := by
    intro m hm
    simp only [exGCtx, List.mem_cons, List.not_mem_nil, or_false] at hm
    subst hm
    simp [exGrad]
  have hst : glastep (exGrad false) exStgs exGradSolver b (exGFwd l a) = glafwd (exGrad false) exStgs exGradSolver b
      (gputV b.g (known ((exGrad false).prob.tps.map (·.name)) (exGCtx.params.zip [fun _ => l, fun _ => a]))) exGCtx
        [fun _ => l, fun _ => a] none [] := rfl
  rw [known_all _ _ hn] at hst
  generalize hx1 : gputV b.g (exGCtx.params.zip [fun _ => l, fun _ => a]) = x1 at hst
  have v1 : x1.u.vals "lam" = some fun _ => l := by rw [← hx1]; rfl
  have v2 : x1.u.vals "a" = some fun _ => a := by rw [← hx1]; rfl
  have hgood : Good (exGrad false).prob exStgs x1.u none [] := by
    refine ⟨fun L h => (by cases h), fun kv h => (by cases h), ?_⟩
    intro p hp
    simp only [exGrad, List.mem_cons, List.not_mem_nil, or_false] at hp
    rcases hp with rfl | rfl
    · exact ⟨_, v2⟩
    · exact ⟨_, v1⟩
  have hsent : ∀ n t, x1.u.vals n = some t → (x1.u.transfer none).sent n = t := by
    intro n t ht
    show (if (∀ L, (none : Option (List String)) = some L → n ∈ L) then (x1.u.vals n).getD (fun _ => 0) else x1.u.sent n) = t
    rw [if_pos (fun L hL => by cases hL), ht]
    rfl
  rw [hst]
  unfold glafwd
  rw [if_pos hn, if_pos ⟨hgood, hv⟩, gstep_good _ _ _ _ _ _ hgood]
  refine ⟨_, _, rfl, rfl, ?_⟩
  simp [vector, exGrad, exLam, slotVec, slots, hsent _ _ v1, hsent _ _ v2]

theorem exG_same (a l a' : ℝ) : SameMatrices (exGrad false) [a, l] [a', l] := by
  obtain ⟨h1, h2, -⟩ := exGrad_data false a l [] [a, l] rfl rfl
  obtain ⟨h1', h2', -⟩ := exGrad_data false a' l [] [a', l] rfl rfl
  unfold SameMatrices matP matA
  rw [h1, h2, h1', h2']
  exact ⟨rfl, rfl⟩

example (W : Ws ℝ) (delta : Nat → ℝ) (g : DCanon ℝ) (before : PObj ℝ) :
    let I := exGImport W delta g before
    let ops := [exGFwd 2 3, exGFwd 2 4]
    GHist exLib (exGrad false) exStgs exGradSolver I.abs ops ∧
    ∃ (F : Files) (s s' : GLSt ℝ Int (exGrad false)) (gs : List (Option (List Nat → Option ℝ))) (p : Past ℝ), gen (exGrad false).prob I.θ0 id = .ok F ∧
      glrun exLib (exGrad false) I.θ0 exStgs I.big exGradSolver F I.init ops = some s ∧
      LayersG.backward exLib (exGrad false) I.θ0 F s 0 [⟨[], fun _ => 1⟩] = some (s', .ok gs) ∧ p.ctx = exGCtx ∧
      vector (exGrad false).prob p.sent = [3, 2] ∧
      RightFor exLib (exGrad false) [3, 2] p.sent p.sol (fun _ _ => 1) s'.st.ws.delta ["lam", "a"] gs := by
  intro I ops
  have h0 : I.abs.past = [] := rfl
  obtain ⟨t1, s1, p1, e1, v1⟩ := exG_fwd I.abs 2 3
  obtain ⟨t2, s2, p2, e2, v2⟩ := exG_fwd (glastep (exGrad false) exStgs exGradSolver I.abs (exGFwd 2 3)) 2 4
  have hh : GHist exLib (exGrad false) exStgs exGradSolver I.abs ops := by
    refine ⟨fun k => ?_, ?_⟩
    · apply exGrad_convex
      match k with
      | 0 =>
        show (0 : ℝ) ≤ (vector (exGrad false).prob fun _ _ => 1).getD 1 0
        simp [vector, exGrad, exLam, slotVec, slots]
      | 1 =>
        show (0 : ℝ) ≤ (vector (exGrad false).prob (glastep (exGrad false) exStgs exGradSolver I.abs (exGFwd 2 3)).g.u.sent).getD 1 0
        rw [e1, v1]
        simp
      | k + 2 =>
        have : ops.take (k + 2) = ops := List.take_of_length_le (Nat.le_add_left 2 k)
        rw [this]
        show (0 : ℝ) ≤ (vector (exGrad false).prob (glastep (exGrad false) exStgs exGradSolver
          (glastep (exGrad false) exStgs exGradSolver I.abs (exGFwd 2 3)) (exGFwd 2 4)).g.u.sent).getD 1 0
        rw [e2, v2]
        simp
    · intro sp sd hm
      simp only [ops, exGFwd, List.mem_cons, List.not_mem_nil, or_false] at hm
      rcases hm with h | h <;> cases h
  refine ⟨hh, ?_⟩
  obtain ⟨F, s, f1, f2, f3⟩ := C73_partial (exGrad_ok false) exStgs (by decide) exGradSolver (exGradSolver_ok false)
    (fun _ _ _ k h1 h2 => absurd h2 (Nat.not_lt.2 h1)) id (fun l => List.Perm.refl l) I ops hh (by
      intro p hp
      simp only [exGrad, List.mem_cons, List.not_mem_nil, or_false] at hp
      rcases hp with rfl | rfl <;> rfl) (by
      intro p hp k hk
      simp only [exGrad, List.mem_cons, List.not_mem_nil, or_false] at hp
      rcases hp with rfl | rfl <;> rfl)
  have hpast : (glafter (exGrad false) exStgs exGradSolver I.abs ops).past = [⟨exGCtx, t1, s1⟩, ⟨exGCtx, t2, s2⟩] := by
    show (glastep (exGrad false) exStgs exGradSolver (glastep (exGrad false) exStgs exGradSolver I.abs (exGFwd 2 3)) (exGFwd 2 4)).past = _
    rw [p2, p1, h0]
    rfl
  have hlast : (glafter (exGrad false) exStgs exGradSolver I.abs ops).g.u.sent = t2 := e2
  obtain ⟨s', gs, k1, k2⟩ := f3 0 ⟨exGCtx, t1, s1⟩ (by rw [hpast]; rfl) (by rw [hlast, v2, v1]; exact exG_same 4 2 3) (show exGCtx.vars.Nodup by decide)
    (by
      intro m hm
      simp only [exGCtx, List.mem_cons, List.not_mem_nil, or_false] at hm
      subst hm
      simp [exGrad])
    (by
      intro m hm
      simp only [exGCtx, List.mem_cons, List.not_mem_nil, or_false] at hm
      rcases hm with rfl | rfl <;> simp [exGrad, exLam])
    (by
      intro m hm
      simpa [exGrad, exGCtx] using hm)
    (fun _ _ => 1) [⟨[], fun _ => 1⟩] rfl (by
      intro v hv i hi
      simp only [exGrad, List.mem_cons, List.not_mem_nil, or_false] at hv
      subst hv
      match i, hi with
      | 0, _ => exact ⟨_, rfl, rfl, rfl⟩
      | i + 1, hi => simp [exGCtx] at hi)
  rw [v1] at k2
  exact ⟨F, s, s', gs, _, f1, f2, k1, rfl, v1, k2⟩

end Verif.Props
