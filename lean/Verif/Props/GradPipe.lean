import Verif.Lemmas.GradPipe
import Verif.Lemmas.Defaults
import Verif.Props.GradSign
/-!
C70: differentiation in Python as a whole (one stage, OSQP).
-/
namespace Verif.Props
open Verif.Model Verif.Model.Pipeline Verif.Model.Saved Verif.Model.Flatten Verif.Model.Factor Verif.Model.Grad Verif.Model.GradPipe
open Verif.Spec Verif.Spec.Pipeline Verif.Spec.GradPipe Verif.Spec.Grad Verif.Spec.Factor Verif.Spec.Deltas Verif.Spec.Flatten
open Verif.Lemmas Verif.Lemmas.Pipeline Verif.Lemmas.GradPipe Verif.Lemmas.Grad Finset

section
variable {R S : Type} [Field R] [LinearOrder R]

/-- A canonical parameter exists and has the given number of entries. -/
def HasRows (G : GProb R) (c : CId) (n : Nat) : Prop := ∃ m, G.prob.maps c = some m ∧ (m.final c.isUpper).rows = n

/-- Problems for which one-stage differentiation is meant: a QP for OSQP with diagonal `P`, equality constraints first, and libraries that do what they are meant to. -/
structure GradOK (lib : Lib R) (G : GProb R) : Prop where
  prob : ProbOK G.prob
  osqp : G.prob.k = .osqp
  blocks : Blocks G.prob.vs G.dims.n
  sym : ∀ v ∈ G.prob.vs, v.sym = false
  q : HasRows G .q G.dims.n
  l : HasRows G .l G.dims.nl
  u : HasRows G .u G.dims.nu
  P : HasRows G .P G.dims.nnzP
  A : HasRows G .A G.dims.nnzA
  nl : G.dims.nl ≤ G.dims.nu
  data : QpData G.dims.n (G.dims.n + G.dims.nu) G.patP G.patA
  diag : ∀ r, ∀ c < G.dims.n, Occupied G.patP r c → r = c
  P0 : G.patP.p 0 = 0 ∧ G.patP.p G.dims.n = G.dims.nnzP
  A0 : G.patA.p 0 = 0 ∧ G.patA.p G.dims.n = G.dims.nnzA
  bounds : ∀ θ : List R, θ.length = totalSize G.prob.ps → ∀ k < G.dims.nl, vec G θ .l k = vec G θ .u k
  eps : 0 < lib.eps
  sqrt : ∀ x, 0 < x → lib.sqrt x * lib.sqrt x = x
  qdldl : QdldlOK G.dims.n (G.dims.n + G.dims.nu) lib.qdldl

/-- The canonical problem is convex at the parameter vector `θ`. -/
def Convex (G : GProb R) (θ : List R) : Prop := Psd G.dims.n (symUp (ent (matP G θ)))

/-- Multipliers of inequality constraints are not negative (up to the tolerance of the code). -/
def SignOK (lib : Lib R) (G : GProb R) (y : Nat → R) : Prop := ∀ k, G.dims.nl ≤ k → k < G.dims.nu → -lib.tol ≤ y k

/-- Concrete and expected state agree. `P0`, `A0`: matrices at generation. -/
structure GInv (lib : Lib R) (G : GProb R) (θ0 : G.prob.Vec) (W : Ws R) (delta : Nat → R) (g : DCanon R)
    (st : GradPipe.St R S G) (a : GAbs R) : Prop where
  agree : Agree θ0 st.pipe a.u
  n : st.pipe.n = a.n
  canon : ∀ p, st.pipe.py.mem.canon p = canonVal (G.prob.maps p) p.isUpper st.pipe.py.mem.θ.1
  vgrad : st.vgrad = a.vgrad
  sol : st.sol = a.sol
  sign : SignOK lib G a.sol.2
  convex : Convex G st.pipe.py.mem.θ.1
  convex0 : Convex G θ0.1
  calls : ∃ cs, st.ws = runGrad lib.qdldl lib.sqrt lib.eps lib.tol G.dims.n G.N (matP G θ0.1) (matA G θ0.1)
      (genState lib.eps G.dims.n G.N (matP G θ0.1) (matA G θ0.1) W delta g) cs ∧
    CallsOK G.dims.n (matP G θ0.1) (matA G θ0.1) cs ∧ (∀ c ∈ cs, SignOK lib G c.y) ∧
    ((G.qmaps.Pc && st.og .P) = false → (current (matP G θ0.1) (matA G θ0.1) (cs.map Call.f)).1 = matP G st.pipe.py.mem.θ.1) ∧
    ((G.qmaps.Ac && st.og .A) = false → (current (matP G θ0.1) (matA G θ0.1) (cs.map Call.f)).2 = matA G st.pipe.py.mem.θ.1)
  dx : st.dx = List.replicate G.dims.n 0
  dp : st.dp.length = G.NP

theorem withVals_P {lib : Lib R} {G : GProb R} (h : GradOK lib G) (θ : List R) (hθ : θ.length = totalSize G.prob.ps) :
    withVals G.patP (canonVal (G.prob.maps .P) true θ) = matP G θ := by
  unfold withVals matP
  rw [← canonVal_dataAt h.prob.wf θ hθ .P]
  rfl

theorem withVals_A {lib : Lib R} {G : GProb R} (h : GradOK lib G) (θ : List R) (hθ : θ.length = totalSize G.prob.ps) :
    withVals G.patA (canonVal (G.prob.maps .A) true θ) = matA G θ := by
  unfold withVals matA
  rw [← canonVal_dataAt h.prob.wf θ hθ .A]
  rfl

/-- Values of a canonical parameter, and the step between values at two parameter vectors. -/
theorem hasRows_val {lib : Lib R} {G : GProb R} (h : GradOK lib G) {c : CId} {n : Nat} (hc : HasRows G c n) :
    (∀ θ : List R, θ.length = totalSize G.prob.ps → ((dataAt G.prob θ c).getD []).length = n) ∧
    (∀ θ0 θ : List R, θ0.length = totalSize G.prob.ps → θ.length = totalSize G.prob.ps →
      canonStep (mapChanges (G.prob.maps c) c.isUpper) n (csrOf (G.prob.maps c) c.isUpper) (θ ++ [1])
        ((dataAt G.prob θ0 c).getD []) = some ((dataAt G.prob θ c).getD [])) ∧
    Csr.Valid (csrOf (G.prob.maps c) c.isUpper) n (totalSize G.prob.ps + 1) := by
  obtain ⟨m, hm, rfl⟩ := hc
  have hcols := h.prob.wf.cols c m hm
  refine ⟨fun θ hθ => ?_, fun θ0 θ h0 hθ => ?_, ?_⟩
  · rw [← canonVal_dataAt h.prob.wf θ hθ c, hm]
    exact canonVal_length m _ θ (by rw [hcols, hθ])
  · rw [← canonVal_dataAt h.prob.wf θ hθ c, ← canonVal_dataAt h.prob.wf θ0 h0 c, hm]
    exact canonStep_val m _ θ0 θ (by rw [hcols, h0]) (by rw [hθ, h0])
  · rw [hm]
    have := toCsr_valid (m.final c.isUpper) (final_wf m _)
    rw [final_cols, hcols] at this
    exact this

/-- The values of the five canonical parameters at a parameter vector. -/
def valsAt (G : GProb R) (θ : List R) : CanonVals R where
  q := (dataAt G.prob θ .q).getD []
  l := (dataAt G.prob θ .l).getD []
  u := (dataAt G.prob θ .u).getD []
  P := (dataAt G.prob θ .P).getD []
  A := (dataAt G.prob θ .A).getD []

theorem valsAt_step {lib : Lib R} {G : GProb R} (h : GradOK lib G) (θ0 θ : List R)
    (h0 : θ0.length = totalSize G.prob.ps) (hθ : θ.length = totalSize G.prob.ps) :
    canonAll G.dims G.qmaps (θ ++ [1]) (valsAt G θ0) = some (valsAt G θ) := by
  have eq := (hasRows_val h h.q).2.1 θ0 θ h0 hθ
  have el := (hasRows_val h h.l).2.1 θ0 θ h0 hθ
  have eu := (hasRows_val h h.u).2.1 θ0 θ h0 hθ
  have eP := (hasRows_val h h.P).2.1 θ0 θ h0 hθ
  have eA := (hasRows_val h h.A).2.1 θ0 θ h0 hθ
  unfold canonAll
  simp only [GProb.qmaps, valsAt]
  simp only [CId.isUpper] at eq el eu eP eA
  rw [eq, el, eu, eP, eA]
  rfl

theorem maps_ok {lib : Lib R} {G : GProb R} (h : GradOK lib G) : MapsOK G.NP G.dims G.qmaps where
  q _ := (hasRows_val h h.q).2.2
  l _ := (hasRows_val h h.l).2.2
  u _ := (hasRows_val h h.u).2.2
  P _ := (hasRows_val h h.P).2.2
  A _ := (hasRows_val h h.A).2.2

theorem valsAt_room {lib : Lib R} {G : GProb R} (h : GradOK lib G) (θ : List R) (hθ : θ.length = totalSize G.prob.ps) :
    Room G.dims (valsAt G θ) where
  q := ((hasRows_val h h.q).1 θ hθ).ge
  l := ((hasRows_val h h.l).1 θ hθ).ge
  u := ((hasRows_val h h.u).1 θ hθ).ge
  P := ((hasRows_val h h.P).1 θ hθ).ge
  A := ((hasRows_val h h.A).1 θ hθ).ge

theorem setup_ok {lib : Lib R} {G : GProb R} (h : GradOK lib G) (θ : List R) (hc : Convex G θ) :
    GradSetup lib.eps G.dims.n G.N (matP G θ) (matA G θ) := by
  have ho : ∀ r c, Occupied (matP G θ) r c → Occupied G.patP r c := by
    rintro r c ⟨v, k, h1, h2, h3, _⟩
    exact ⟨_, k, h1, h2, h3, rfl⟩
  have hoA : ∀ r c, Occupied (matA G θ) r c → Occupied G.patA r c := by
    rintro r c ⟨v, k, h1, h2, h3, _⟩
    exact ⟨_, k, h1, h2, h3, rfl⟩
  refine ⟨⟨h.data.nN, ⟨h.data.vP.mono, h.data.vP.inj⟩, ⟨h.data.vA.mono, h.data.vA.inj⟩,
    fun r c hc o => h.data.Prow r c hc (ho r c o), fun r c hc o => h.data.Arow r c hc (hoA r c o)⟩, ?_, ?_, hc, h.eps⟩
  · intro r c hc o; exact (h.diag r c hc (ho r c o)).le
  · intro r c hc o hlt; exact absurd (h.diag r c hc (ho r c o)) (by omega)

/-- Matrices with the positions of `P` are diagonal. -/
theorem ent_diag {lib : Lib R} {G : GProb R} (h : GradOK lib G) (x : Nat → R) (r c : Nat) (hc : c < G.dims.n) (hne : r ≠ c) :
    ent { G.patP with x := x } r c = 0 := by
  unfold ent
  apply sum_eq_zero
  intro k hk
  rw [if_neg]
  intro e
  exact hne (h.diag r c hc ⟨_, k, (mem_Ico.1 hk).1, (mem_Ico.1 hk).2, e, rfl⟩)

theorem ent_symm {lib : Lib R} {G : GProb R} (h : GradOK lib G) (x : Nat → R) (r c : Nat) (hr : r < G.dims.n) (hc : c < G.dims.n) :
    ent { G.patP with x := x } r c = ent { G.patP with x := x } c r := by
  by_cases e : r = c
  · rw [e]
  · rw [ent_diag h x r c hc e, ent_diag h x c r hr (Ne.symm e)]

omit [LinearOrder R] in
theorem ent_sub (M : CscL R) (x y : Nat → R) (r c : Nat) :
    ent { M with x := fun k => x k - y k } r c = ent { M with x := x } r c - ent { M with x := y } r c := by
  unfold ent
  rw [← sum_sub_distrib]
  apply sum_congr rfl
  intro k _
  split <;> simp

/-- What a successful call leaves in the attributes `gradient` of the parameters: arrays `f` whose inner product with every
direction of the parameters is the derivative, in that direction, of the scalar function of the variables whose gradient is
`gr`; up to `eps` times the last correction of the iterative refinement. -/
def RightGradients (lib : Lib R) (G : GProb R) (a : GAbs R) (gr : String → List Nat → R) (st' : GradPipe.St R S G) : Prop :=
  ∃ f : String → List Nat → R,
    (∀ p ∈ G.prob.tps, ∃ h, st'.pgrad p.name = some h ∧ ∀ idx, InBounds p.shape idx → h idx = some (f p.name idx)) ∧
    ∀ (t' : String → List Nat → R) (x' y' : Nat → R),
      IsDerivative lib.tol G (vector G.prob a.u.sent) (vector G.prob t') a.sol x' y' →
      varDot G.prob.vs gr x' = parDot G.prob.tps f (fun m idx => t' m idx - a.u.sent m idx) +
        lib.eps * (∑ i ∈ range G.dims.n, st'.ws.delta i * x' i -
          ∑ k ∈ range G.dims.nu, if Active lib.tol a.sol.2 k then st'.ws.delta (G.dims.n + k) * y' k else 0)

omit [LinearOrder R] in
theorem vector_len [DecidableEq R] (P : Prob R) (t : String → List Nat → R) : (vector P t).length = totalSize P.ps := by
  unfold vector totalSize Prob.ps
  rw [List.length_flatMap, List.map_map]
  congr 1
  apply List.map_congr_left
  intro p _
  simp [slotVec, slots_eq, TParam.toU]

/-- The entry of `cpg_dp` that belongs to an entry of a parameter. -/
def readGrad (P : Prob R) (dp : List R) (m : String) (idx : List Nat) : R :=
  ((P.tps.find? fun p => p.name == m).bind fun p => (baseCol P.ps p.name).bind fun b => dp[b + pos p.shape idx]?).getD 0

theorem grad_step [IsStrictOrderedRing R] {lib : Lib R} {G : GProb R} (h : GradOK lib G) (θ0 : G.prob.Vec) (F : Files)
    (hpi : primInfo G.prob.vs = .ok F.pi) (W : Ws R) (delta : Nat → R) (g : DCanon R) (st : GradPipe.St R S G) (a : GAbs R)
    (inv : GInv lib G θ0 W delta g st a) :
    ∃ st' r, gradient lib G θ0 F st = some (st', r) ∧ GInv lib G θ0 W delta g st' a ∧
      (r = .ok () ↔ Fits G.prob.vs a.vgrad ∧ Full G.prob.tps) ∧ (¬ Fits G.prob.vs a.vgrad → st' = st) ∧
      (Fits G.prob.vs a.vgrad → Full G.prob.tps → (∀ p ∈ G.prob.tps, ∀ k < slots p, slotIdx p k = unpos p.shape k) → ∀ gr : String → List Nat → R,
        (∀ v ∈ G.prob.vs, ∃ arr, a.vgrad v.name = some arr ∧ arr.shape = v.shape ∧ arr.val = gr v.name) →
        RightGradients lib G a gr st') := by
  unfold gradient
  dsimp only
  rw [inv.vgrad]
  by_cases hfit : Fits G.prob.vs a.vgrad
  swap
  · obtain ⟨e, he⟩ := vdelta_err a.vgrad G.prob.vs hfit
    rw [he]
    exact ⟨st, _, rfl, inv, ⟨fun h => (by cases h), fun h => absurd h.1 hfit⟩, fun _ => rfl, fun h => absurd h hfit⟩
  obtain ⟨fields, hf1, _, hf2⟩ := vdelta_ok a.vgrad G.prob.vs h.prob.varNames hfit
  rw [hf1]
  dsimp only
  obtain ⟨d, hd1, hd2, dx, hd3, hd4⟩ := C55_python G.prob.vs G.dims.n F.pi [] h.blocks h.sym hpi (fun o ho => (by cases ho))
    (fun n k => fn ((fields.lookup n).getD []) k)
  rw [List.nil_append] at hd1
  have hd1' : (Deltas.pyCalls G.prob.vs fun n k => fn ((fields.lookup n).getD []) k).foldlM (Deltas.step F.pi G.dims.n) ⟨st.dx, []⟩
      = some d := by
    rw [inv.dx]; exact hd1
  rw [hd1']
  dsimp only
  rw [hd3, Option.getD_some, withVals_P h θ0.1 θ0.2, withVals_A h θ0.1 θ0.2]
  obtain ⟨cs, c1, c2, c3, c4, c5⟩ := inv.calls
  set θ := st.pipe.py.mem.θ with hθdef
  set c : Grad.Call R := { f := refresh G st, x := st.sol.1, y := st.sol.2, dx := fn dx } with hc
  set ws := gradCall lib.qdldl lib.sqrt lib.eps lib.tol G.dims.n G.N (matP G θ0.1) (matA G θ0.1) (refresh G st) st.sol.1 st.sol.2
    (fn dx) st.ws with hws
  have hrun : ws = runGrad lib.qdldl lib.sqrt lib.eps lib.tol G.dims.n G.N (matP G θ0.1) (matA G θ0.1)
      (genState lib.eps G.dims.n G.N (matP G θ0.1) (matA G θ0.1) W delta g) (cs ++ [c]) := by
    unfold runGrad at c1 ⊢
    rw [List.foldl_append, ← c1]
    rfl
  -- refreshed matrices
  have rP : (refresh G st).P = if G.qmaps.Pc && st.og .P then some (matP G θ.1) else none := by
    unfold refresh
    dsimp only
    rw [inv.canon .P]
    show (if _ then some (withVals G.patP (canonVal (G.prob.maps .P) true θ.1)) else none) = _
    rw [withVals_P h θ.1 θ.2]
  have rA : (refresh G st).A = if G.qmaps.Ac && st.og .A then some (matA G θ.1) else none := by
    unfold refresh
    dsimp only
    rw [inv.canon .A]
    show (if _ then some (withVals G.patA (canonVal (G.prob.maps .A) true θ.1)) else none) = _
    rw [withVals_A h θ.1 θ.2]
  have hcur : current (matP G θ0.1) (matA G θ0.1) ((cs ++ [c]).map Call.f) = (matP G θ.1, matA G θ.1) := by
    rw [current_snoc]
    show ((refresh G st).P.getD _, (refresh G st).A.getD _) = _
    rw [rP, rA]
    congr 1
    · cases hb : (G.qmaps.Pc && st.og .P) with
      | true => rfl
      | false => exact c4 hb
    · cases hb : (G.qmaps.Ac && st.og .A) with
      | true => rfl
      | false => exact c5 hb
  have hok : CallsOK G.dims.n (matP G θ0.1) (matA G θ0.1) (cs ++ [c]) := by
    intro e he
    rcases List.mem_append.1 he with he | he
    · exact c2 e he
    · rw [List.mem_singleton] at he
      subst he
      refine ⟨⟨fun P' hP' => ?_, fun A' hA' => ?_⟩, fun P' hP' => ?_⟩
      · have hP' : (refresh G st).P = some P' := hP'
        rw [rP] at hP'
        split at hP'
        · cases hP'; exact ⟨rfl, rfl⟩
        · cases hP'
      · have hA' : (refresh G st).A = some A' := hA'
        rw [rA] at hA'
        split at hA'
        · cases hA'; exact ⟨rfl, rfl⟩
        · cases hA'
      · have hP' : (refresh G st).P = some P' := hP'
        rw [rP] at hP'
        split at hP'
        · cases hP'; exact inv.convex
        · cases hP'
  have hsign : ∀ e ∈ cs ++ [c], SignOK lib G e.y := by
    intro e he
    rcases List.mem_append.1 he with he | he
    · exact c3 e he
    · rw [List.mem_singleton] at he
      subst he
      show SignOK lib G st.sol.2
      rw [inv.sol]; exact inv.sign
  -- user parameters
  have hv0 := valsAt_step h θ0.1 θ0.1 θ0.2 θ0.2
  obtain ⟨dp, u1, u2, _⟩ := C27_adjoint_of_canonicalization (maps_ok h) ws.g st.dp (θ0.1 ++ [1]) (θ0.1 ++ [1]) (valsAt G θ0.1) _ _
    inv.dp (by rw [List.length_append, θ0.2]; rfl) (by rw [List.length_append, θ0.2]; rfl) (valsAt_room h θ0.1 θ0.2) hv0 hv0
  rw [u1]
  dsimp only
  have hcols : ∀ p ∈ G.prob.tps, ∃ b, baseCol G.prob.ps p.name = some b ∧ b + slots p ≤ dp.length := by
    intro p hp
    obtain ⟨pre, post, e⟩ := List.append_of_mem hp
    obtain ⟨e1, e2⟩ := baseCol_tps G.prob h.prob.wf.names h.prob.wf.sizes pre post p e
    exact ⟨_, e1, by rw [u2]; unfold GProb.NP; omega⟩
  obtain ⟨pg, r, a1, a2, a3, a4, _⟩ := assignGrads_ok G.prob.ps dp G.prob.tps st.pgrad
    (by rw [← ps_names]; exact h.prob.wf.names) hcols
  rw [a1]
  refine ⟨_, _, rfl, ?_, ?_, fun hn => absurd hfit hn, ?_⟩
  · refine ⟨inv.agree, inv.n, inv.canon, rfl, inv.sol, inv.sign, inv.convex, inv.convex0, ⟨cs ++ [c], hrun, hok, hsign, fun _ => ?_, fun _ => ?_⟩, hd2, u2⟩
    · rw [hcur]
    · rw [hcur]
  · constructor
    · intro hr
      refine ⟨hfit, ?_⟩
      by_contra hn
      rw [a3 hn] at hr
      cases hr
    · exact fun hh => a2 hh.2
  · intro _ hfull hord gr hgr
    refine ⟨readGrad G.prob dp, ?_, ?_⟩
    · intro p hp
      obtain ⟨b, f, b1, b2, b3⟩ := a4 hfull p hp
      refine ⟨f, b2, fun idx hi => ?_⟩
      obtain ⟨b', b1', b2'⟩ := hcols p hp
      rw [b1] at b1'
      cases b1'
      have hlt := Verif.Lemmas.Flatten.pos_lt p.shape idx hi
      have hs := hfull p hp
      rw [b3 idx hi]
      simp only [readGrad, find_param h.prob.wf.names hp, b1, Option.bind_some]
      rw [List.getElem?_eq_getElem (by omega)]
      rfl
    · intro t' x' y' hder
      have hθ : θ.1 = vector G.prob a.u.sent := inv.agree.θ
      have hθ' : (vector G.prob t').length = totalSize G.prob.ps := vector_len _ _
      have hN : G.N - G.dims.n = G.dims.nu := by unfold GProb.N; omega
      have hlin : Linearised G.dims.n (G.N - G.dims.n) (ent (matP G θ.1)) (ent (matA G θ.1))
          (ent { matP G θ0.1 with x := fun k => fn (valsAt G (vector G.prob t')).P k - fn (valsAt G θ.1).P k })
          (ent { matA G θ0.1 with x := fun k => fn (valsAt G (vector G.prob t')).A k - fn (valsAt G θ.1).A k })
          (Active lib.tol c.y) (fun i => fn (valsAt G (vector G.prob t')).q i - fn (valsAt G θ.1).q i)
          (fun i => fn (valsAt G (vector G.prob t')).u i - fn (valsAt G θ.1).u i) c.x c.y x' y' := by
        rw [hN]
        have e1 : ent { matP G θ0.1 with x := fun k => fn (valsAt G (vector G.prob t')).P k - fn (valsAt G θ.1).P k }
            = fun r c => ent (matP G (vector G.prob t')) r c - ent (matP G θ.1) r c := by
          funext r c
          exact ent_sub G.patP _ _ r c
        have e2 : ent { matA G θ0.1 with x := fun k => fn (valsAt G (vector G.prob t')).A k - fn (valsAt G θ.1).A k }
            = fun r c => ent (matA G (vector G.prob t')) r c - ent (matA G θ.1) r c := by
          funext r c
          exact ent_sub G.patA _ _ r c
        rw [e1, e2]
        have hder' := hder
        unfold IsDerivative at hder'
        rw [← hθ, ← inv.sol] at hder'
        exact hder'
      obtain ⟨dp', v1, v2, v3⟩ := C27_end_to_end (n := G.dims.n) (N := G.N) h.qdldl h.sqrt (setup_ok h θ0.1 inv.convex0) W delta g cs c hok (maps_ok h) rfl hN.symm h.nl
        h.P0 h.A0 st.dp (θ.1 ++ [1]) (vector G.prob t' ++ [1]) (valsAt G θ0.1) (valsAt G θ.1) (valsAt G (vector G.prob t')) inv.dp
        (by rw [List.length_append, θ.2]; rfl) (by rw [List.length_append, hθ']; rfl) (valsAt_room h θ0.1 θ0.2)
        (valsAt_step h θ0.1 θ.1 θ0.2 θ.2) (valsAt_step h θ0.1 _ θ0.2 hθ')
        (fun k hk => ⟨h.bounds θ.1 θ.2 k hk, h.bounds _ hθ' k hk⟩)
        (by rw [hcur]; exact fun r hr t ht => ent_symm h _ r t hr ht)
        (fun r hr t ht => ent_symm h _ r t hr ht) x' y'
        (fun k hk hk' e he => hsign e he k hk' (by rw [hN] at hk; exact hk))
        (by rw [hcur]; exact hlin)
      rw [← hrun] at v1 v3
      rw [u1] at v1
      cases v1
      dsimp only at v3 ⊢
      rw [hN] at v3
      have hvar : varDot G.prob.vs gr x' = ∑ i ∈ range G.dims.n, c.dx i * x' i := by
        show _ = ∑ i ∈ range G.dims.n, dx.getD i 0 * x' i
        rw [hd4.2 x']
        unfold varDot functional
        congr 1
        apply List.map_congr_left
        intro v hv
        apply sum_congr rfl
        intro k hk
        obtain ⟨arr, r1, r2, r3⟩ := hgr v hv
        dsimp only
        rw [hf2 v hv arr r1 r2 k (by rw [size_prod]; exact mem_range.1 hk), r3]
      have hpar : parDot G.prob.tps (readGrad G.prob dp) (fun m idx => t' m idx - a.u.sent m idx)
          = ∑ j ∈ range G.NP, fn dp j * (fn (vector G.prob t' ++ [1]) j - fn (θ.1 ++ [1]) j) := by
        unfold GProb.NP
        rw [sum_range_succ]
        have e1 : fn (vector G.prob t' ++ [1]) (totalSize G.prob.ps) - fn (θ.1 ++ [1]) (totalSize G.prob.ps) = 0 := by
          have x1 : ∀ l : List R, l.length = totalSize G.prob.ps → fn (l ++ [1]) (totalSize G.prob.ps) = 1 := by
            intro l hl
            unfold fn
            rw [← hl, List.getD, List.getElem?_append_right le_rfl]; simp
          rw [x1 _ hθ', x1 _ θ.2, sub_self]
        rw [e1, mul_zero, add_zero]
        have e2 : ∑ j ∈ range (totalSize G.prob.ps), fn dp j * (fn (vector G.prob t' ++ [1]) j - fn (θ.1 ++ [1]) j)
            = ∑ j ∈ range (totalSize G.prob.ps), fn dp j * (fn (vector G.prob t') j - fn (vector G.prob a.u.sent) j) := by
          apply sum_congr rfl
          intro j hj
          have hj := mem_range.1 hj
          have x1 : ∀ l : List R, l.length = totalSize G.prob.ps → fn (l ++ [1]) j = fn l j := by
            intro l hl
            unfold fn
            rw [List.getD, List.getElem?_append_left (by omega)]; rfl
          rw [x1 _ hθ', x1 _ θ.2, hθ]
        rw [e2, sum_params G.prob h.prob.wf.names h.prob.wf.sizes (fn dp)
          (fun m k => ((baseCol G.prob.ps m).map fun b => fn dp (b + k)).getD 0)
          (by
            intro p hp b hb k _
            rw [hb]; rfl) a.u.sent t']
        unfold parDot
        congr 1
        apply List.map_congr_left
        intro p hp
        obtain ⟨b, b1, b2⟩ := hcols p hp
        rw [← hfull p hp]
        apply sum_congr rfl
        intro k hk
        have hk := mem_range.1 hk
        have hks : k < size p.shape := by rw [← hfull p hp]; exact hk
        rw [hord p hp k hk, b1]
        unfold readGrad
        rw [find_param h.prob.wf.names hp, Option.bind_some, b1, Option.bind_some, unpos_eq,
          (Verif.Lemmas.Flatten.idxOf_spec p.shape k hks).2]
        rfl
      have hy : c.y = a.sol.2 := by rw [hc]; exact congrArg Prod.snd inv.sol
      rw [hvar, v3, hpar, hy]

theorem gstep_good (P : Prob R) (sg : Stgs S) (solver : SolverFn R S) (a : GAbs R) (u : Option (List String)) (kw : List (String × S))
    (hgood : Pipeline.Good P sg a.u u kw) : gstep P sg solver a (.solve u kw) =
      { a with
        u := a.u.transfer u
        sol := (fn (solver a.n (dataAt P (vector P (a.u.transfer u).sent)) (settingFor sg kw)).sol,
          fn ((solver a.n (dataAt P (vector P (a.u.transfer u).sent)) (settingFor sg kw)).duals 0))
        n := a.n + 1 } := by
  exact if_pos hgood

theorem gstep_bad (P : Prob R) (sg : Stgs S) (solver : SolverFn R S) (a : GAbs R) (u : Option (List String)) (kw : List (String × S))
    (hbad : ¬ Pipeline.Good P sg a.u u kw) : gstep P sg solver a (.solve u kw) = a := by
  exact if_neg hbad

/-- One solve. -/
theorem gsolve_step {lib : Lib R} {G : GProb R} (h : GradOK lib G) (θ0 : G.prob.Vec) (sg : Stgs S)
    (hd : "default_settings" ∉ sg.enabled) (big : R) (solver : SolverFn R S) (hsolver : SolverOK G.prob sg solver)
    (hsgn : ∀ n D s, SignOK lib G (fn ((solver n D s).duals 0))) {toks : List Tok} {pi : PrimInfo} {ds : List DualEntry}
    (hpi : primInfo G.prob.vs = .ok pi) {ids : List Nat} (hids : dualIds G.prob.idMaps = .ok ids)
    (hds : dualInfo G.prob.k.dualSplit G.prob.nEq G.prob.con ids = .ok ds) (hlen : ds.length = G.prob.cons.length)
    (htab : ∀ u c : Nat, G.prob.cons[u]? = some c → ∃ (m : Nat) (cc : CCon), G.prob.con[m]? = some cc ∧
        follow G.prob.idMaps c = .ok cc.id ∧ ds[u]? = some { name := s!"d{u}"
                                                             vec := dualVec G.prob.k.dualSplit G.prob.nEq m
                                                             offset := dualStart G.prob.k.dualSplit G.prob.nEq G.prob.con m
                                                             size := cc.size : DualEntry })
    {roots never order : List CId}
    (hf : StaticFacts (G.prob.k.solver G.prob.quad G.prob.lp)
      (canonGen G.prob.ps (G.prob.k.canonIds G.prob.quad) G.prob.quad G.prob.maps θ0).quad
      (canonGen G.prob.ps (G.prob.k.canonIds G.prob.quad) G.prob.quad G.prob.maps θ0).changes roots never)
    (hperm : order.Perm roots)
    (ht : ∀ s, execText evMem (doCall (canonGen G.prob.ps (G.prob.k.canonIds G.prob.quad) G.prob.quad G.prob.maps θ0)
          (G.prob.k.solver G.prob.quad G.prob.lp)) toks s
        = some (Verif.Spec.run (fireOf evMem) (doCall (canonGen G.prob.ps (G.prob.k.canonIds G.prob.quad) G.prob.quad G.prob.maps θ0)
            (G.prob.k.solver G.prob.quad G.prob.lp))
            (norm (canonGen G.prob.ps (G.prob.k.canonIds G.prob.quad) G.prob.quad G.prob.maps θ0).quad
              (G.prob.k.solver G.prob.quad G.prob.lp).pus) never genFuel (some order) s))
    (W : Ws R) (delta : Nat → R) (g : DCanon R) (st : GradPipe.St R S G) (a : GAbs R)
    (inv : GInv lib G θ0 W delta g st a) (u : Option (List String)) (kw : List (String × S))
    (hcv : Convex G (vector G.prob (gstep G.prob sg solver a (.solve u kw)).u.sent)) :
    ∃ st' r, GradPipe.solve G θ0 sg big solver ⟨toks, pi, ds⟩ st u kw = some (st', r) ∧
      GInv lib G θ0 W delta g st' (gstep G.prob sg solver a (.solve u kw)) ∧
      (Good G.prob sg a.u u kw → Solved G.prob big (solver a.n (dataAt G.prob (vector G.prob (a.u.transfer u).sent)) (settingFor sg kw))
        (constAt G.prob (vector G.prob (a.u.transfer u).sent)) st'.pipe.obj r) ∧
      (¬ Good G.prob sg a.u u kw → ∃ e, r = .error e) := by
  have hp := h.prob
  have hag := inv.agree
  obtain ⟨py, r, p1, p2⟩ := pySolve_ok hp.possible hp.wf θ0 sg hd hf hperm ht
    { st.pipe.py with vals := G.prob.flat st.pipe.tvals } (absOf G.prob a.u) u kw (agree_sim hp hag)
  rcases p2 with ⟨q1, q2, q3, q4⟩ | ⟨q1, q2, q3, _, _, e, q4⟩
  · have hgood : Good G.prob sg a.u u kw := (good_iff hp sg a.u u kw).1 ⟨q1, q2⟩
    have hvec := transfer_vector hp a.u u hgood.2.2
    have hθlen : (vector G.prob (a.u.transfer u).sent).length = totalSize G.prob.ps := vector_len _ _
    cases r with
    | error e => exact q4.elim
    | ok obs =>
      obtain ⟨r1, r2, r3⟩ := q4
      rw [hvec] at r1 r2
      have hout : solver st.pipe.n obs.obs.data obs.settings
          = solver a.n (dataAt G.prob (vector G.prob (a.u.transfer u).sent)) (settingFor sg kw) := by
        rw [inv.n]
        exact hsolver.local' _ _ _ _ _ (fun p hp' => by rw [r1 p hp']; exact canonVal_dataAt hp.wf _ hθlen p) r3
      obtain ⟨c1, c2⟩ := const_read hp _ hθlen
      have hoff : obs.obs.offset = some [constAt G.prob (vector G.prob (a.u.transfer u).sent)] := by
        rw [r2]; exact (canonVal_dataAt hp.wf _ hθlen _).trans c1
      obtain ⟨res, o, ret, w1, w2, w3⟩ := arrives hp big ⟨toks, pi, ds⟩ hpi ids hids hds hlen htab
        (solver a.n (dataAt G.prob (vector G.prob (a.u.transfer u).sent)) (settingFor sg kw)) (hsolver.sol _ _ _)
        (hsolver.duals _ _ _) _ c2 st.pipe.obj
      have hsolve : Pipeline.solve G.prob θ0 sg big solver ⟨toks, pi, ds⟩ st.pipe u kw
          = some (⟨st.pipe.tvals, py, o, st.pipe.n + 1⟩, .ok ret) := by
        unfold Pipeline.solve
        rw [p1]
        dsimp only
        rw [hout, hoff, w1]
        dsimp only
        rw [w2]
      obtain ⟨m1, m2⟩ := pySolve_mem hp.wf θ0 sg hf hperm ht
        { st.pipe.py with vals := G.prob.flat st.pipe.tvals } py u kw obs hag.inv p1
      unfold GradPipe.solve
      dsimp only
      rw [hsolve]
      dsimp only
      rw [p1]
      dsimp only
      refine ⟨_, _, rfl, ?_, fun _ => w3, fun hb => absurd hgood hb⟩
      rw [gstep_good G.prob sg solver a u kw hgood, hout]
      have hs := canonGen_sound G.prob.ps (G.prob.k.canonIds G.prob.quad) G.prob.quad G.prob.maps hp.wf θ0
      have hkeep : ∀ p, p.isUpper = true →
          ((updateActs G.prob.ps (u.getD (G.prob.ps.map UParam.name)) (G.prob.flat st.pipe.tvals)).any fun a =>
            ((canonGen G.prob.ps (G.prob.k.canonIds G.prob.quad) G.prob.quad G.prob.maps θ0).outdated a).contains p) = false →
          canonVal (G.prob.maps p) p.isUpper py.mem.θ.1 = canonVal (G.prob.maps p) p.isUpper st.pipe.py.mem.θ.1 := by
        intro p _ hno
        have := foldl_marks _ hs p (updateActs G.prob.ps (u.getD (G.prob.ps.map UParam.name)) (G.prob.flat st.pipe.tvals))
          st.pipe.py.mem.θ (by
            intro b hb hm
            have : ((updateActs G.prob.ps (u.getD (G.prob.ps.map UParam.name)) (G.prob.flat st.pipe.tvals)).any fun a =>
              ((canonGen G.prob.ps (G.prob.k.canonIds G.prob.quad) G.prob.quad G.prob.maps θ0).outdated a).contains p) = true :=
              List.any_eq_true.2 ⟨b, hb, List.contains_iff_mem.2 hm⟩
            rw [hno] at this
            cases this)
        rw [← m1] at this
        exact this
      have hfix : ∀ p, mapChanges (G.prob.maps p) p.isUpper = false →
          canonVal (G.prob.maps p) p.isUpper py.mem.θ.1 = canonVal (G.prob.maps p) p.isUpper st.pipe.py.mem.θ.1 := by
        intro p hno
        refine hs.const p py.mem.θ st.pipe.py.mem.θ ?_
        show (changesOf _ _).getD p = false
        unfold changesOf Changes.getD
        dsimp only
        rw [hno]
        split <;> rfl
      obtain ⟨cs, k1, k2, k3, k4, k5⟩ := inv.calls
      refine ⟨⟨q3.inv, by rw [q3.θ, hvec], hag.vals⟩, by simp only [inv.n], m2, inv.vgrad, rfl, hsgn _ _ _, ?_, inv.convex0,
        ⟨cs, k1, k2, k3, ?_, ?_⟩, inv.dx, inv.dp⟩
      · show Convex G py.mem.θ.1
        rw [q3.θ, hvec]
        rw [gstep_good G.prob sg solver a u kw hgood] at hcv
        exact hcv
      · intro hb
        have same : canonVal (G.prob.maps .P) true py.mem.θ.1 = canonVal (G.prob.maps .P) true st.pipe.py.mem.θ.1 ∧
            (G.qmaps.Pc && st.og .P) = false := by
          dsimp only at hb
          rw [Bool.and_eq_false_iff, Bool.or_eq_false_iff] at hb
          rcases hb with hb | ⟨hb1, hb2⟩
          · exact ⟨hfix .P hb, by rw [hb]; rfl⟩
          · refine ⟨hkeep .P rfl ?_, by rw [hb1, Bool.and_false]⟩
            simpa [CId.isUpper] using hb2
        rw [k4 same.2]
        rw [← withVals_P h _ st.pipe.py.mem.θ.2, ← withVals_P h _ py.mem.θ.2, same.1]
      · intro hb
        have same : canonVal (G.prob.maps .A) true py.mem.θ.1 = canonVal (G.prob.maps .A) true st.pipe.py.mem.θ.1 ∧
            (G.qmaps.Ac && st.og .A) = false := by
          dsimp only at hb
          rw [Bool.and_eq_false_iff, Bool.or_eq_false_iff] at hb
          rcases hb with hb | ⟨hb1, hb2⟩
          · exact ⟨hfix .A hb, by rw [hb]; rfl⟩
          · refine ⟨hkeep .A rfl ?_, by rw [hb1, Bool.and_false]⟩
            simpa [CId.isUpper] using hb2
        rw [k5 same.2]
        rw [← withVals_A h _ st.pipe.py.mem.θ.2, ← withVals_A h _ py.mem.θ.2, same.1]
  · subst q4
    have hbad : ¬ Good G.prob sg a.u u kw := fun hgood => q1 ((good_iff hp sg a.u u kw).2 hgood)
    have hsolve : Pipeline.solve G.prob θ0 sg big solver ⟨toks, pi, ds⟩ st.pipe u kw
        = some ({ st.pipe with py := py }, .error e) := by
      unfold Pipeline.solve
      rw [p1]
    unfold GradPipe.solve
    dsimp only
    rw [hsolve]
    dsimp only
    rw [p1]
    dsimp only
    refine ⟨_, _, rfl, ?_, fun hgood => absurd hgood hbad, fun _ => ⟨e, rfl⟩⟩
    rw [gstep_bad G.prob sg solver a u kw hbad]
    have q3 : py.mem = st.pipe.py.mem := q3
    obtain ⟨cs, k1, k2, k3, k4, k5⟩ := inv.calls
    exact ⟨⟨q2.inv, by rw [q2.θ, absOf_vector hp], hag.vals⟩, inv.n, by rw [q3]; exact inv.canon, inv.vgrad, inv.sol, inv.sign, by rw [q3]; exact inv.convex, inv.convex0,
      ⟨cs, k1, k2, k3, by rw [q3]; exact k4, by rw [q3]; exact k5⟩, inv.dx, inv.dp⟩

/-- All histories. -/
theorem grad_history [IsStrictOrderedRing R] {lib : Lib R} {G : GProb R} (h : GradOK lib G) (sg : Stgs S)
    (hd : "default_settings" ∉ sg.enabled) (big : R) (solver : SolverFn R S) (hsolver : SolverOK G.prob sg solver)
    (hsgn : ∀ n D s, SignOK lib G (fn ((solver n D s).duals 0))) (order : List CId → List CId) (horder : ∀ l, (order l).Perm l)
    (junk : CId → Option (List R)) (a : UAbs R) (θ0 : G.prob.Vec) (hθ0 : θ0.1 = vector G.prob a.sent) (store used : String → S)
    (pvals : String → Option (List R)) (before : PObj R) (n : Nat) (sol : (Nat → R) × (Nat → R)) (hsol : SignOK lib G sol.2)
    (W : Ws R) (delta : Nat → R) (g : DCanon R) (ops : List (GradPipe.Op R S))
    (hconv : ∀ k, Convex G (vector G.prob (gafter G.prob sg solver ⟨a, fun _ => none, sol, n⟩ (ops.take k)).u.sent)) :
    ∃ F st, gen G.prob θ0 order = .ok F ∧ primInfo G.prob.vs = .ok F.pi ∧
      GradPipe.run lib G θ0 sg big solver F (GradPipe.init lib G θ0 ⟨a.vals, ⟨pvals,
        (canonGen G.prob.ps (G.prob.k.canonIds G.prob.quad) G.prob.quad G.prob.maps θ0).initMem
          (G.prob.k.solver G.prob.quad G.prob.lp) junk, store, used, none⟩, before, n⟩ sol W delta g) ops = some st ∧
      GInv lib G θ0 W delta g st (gafter G.prob sg solver ⟨a, fun _ => none, sol, n⟩ ops) := by
  have hp := h.prob
  have hs : Sound (canonGen G.prob.ps (G.prob.k.canonIds G.prob.quad) G.prob.quad G.prob.maps θ0) :=
    canonGen_sound _ _ G.prob.quad G.prob.maps hp.wf θ0
  have hg : Generated G.prob.k G.prob.quad G.prob.lp (fun p => mapChanges (G.prob.maps p) p.isUpper)
      (canonGen G.prob.ps (G.prob.k.canonIds G.prob.quad) G.prob.quad G.prob.maps θ0) := ⟨hp.possible, rfl, rfl, hs⟩
  obtain ⟨toks, pus', roots, never, g1, hf, ht⟩ := genBlock_ok _ (G.prob.k.solver G.prob.quad G.prob.lp) order horder hg.static
  obtain ⟨pi, hpi, -⟩ := C17_primal_values (R := R) G.prob.k G.prob.vs hp.varNames hp.sym
  obtain ⟨ids, ds, hids, hds, hlen, htab⟩ := dual_table hp
  have hgen : gen G.prob θ0 order = .ok ⟨toks, pi, ds⟩ := by
    unfold gen
    simp only [hpi, hids, hds, g1]
  refine ⟨⟨toks, pi, ds⟩, ?_⟩
  have hconv0 : Convex G (vector G.prob a.sent) := hconv 0
  suffices key : ∀ (ops : List (GradPipe.Op R S)) (st : GradPipe.St R S G) (b : GAbs R),
      (∀ k, Convex G (vector G.prob (gafter G.prob sg solver b (ops.take k)).u.sent)) → GInv lib G θ0 W delta g st b →
      ∃ st', GradPipe.run lib G θ0 sg big solver ⟨toks, pi, ds⟩ st ops = some st' ∧
        GInv lib G θ0 W delta g st' (gafter G.prob sg solver b ops) by
    have hinit : GInv lib G θ0 W delta g (GradPipe.init lib G θ0 ⟨a.vals, ⟨pvals,
        (canonGen G.prob.ps (G.prob.k.canonIds G.prob.quad) G.prob.quad G.prob.maps θ0).initMem
          (G.prob.k.solver G.prob.quad G.prob.lp) junk, store, used, none⟩, before, n⟩ sol W delta g)
        ⟨a, fun _ => none, sol, n⟩ := by
      refine ⟨⟨inv_init _ hs _ junk, hθ0, rfl⟩, rfl, fun p => rfl, rfl, rfl, hsol, by rw [← hθ0] at hconv0; exact hconv0, by rw [← hθ0] at hconv0; exact hconv0, ⟨[], ?_, fun c hc => (by cases hc),
        fun c hc => (by cases hc), fun _ => rfl, fun _ => rfl⟩, rfl, by simp [GradPipe.init]⟩
      unfold GradPipe.init
      rw [withVals_P h θ0.1 θ0.2, withVals_A h θ0.1 θ0.2]
      rfl
    obtain ⟨st', k1, k2⟩ := key ops _ _ hconv hinit
    exact ⟨st', hgen, hpi, k1, k2⟩
  clear hconv
  intro ops
  induction ops with
  | nil => intro st b _ hb; exact ⟨st, rfl, hb⟩
  | cons op ops ih =>
    intro st b hconv hb
    have cont : ∀ st1, GradPipe.step lib G θ0 sg big solver ⟨toks, pi, ds⟩ st op = some st1 →
        GInv lib G θ0 W delta g st1 (gstep G.prob sg solver b op) →
        ∃ st', GradPipe.run lib G θ0 sg big solver ⟨toks, pi, ds⟩ st (op :: ops) = some st' ∧
          GInv lib G θ0 W delta g st' (gafter G.prob sg solver b (op :: ops)) := by
      intro st1 h1 h2
      obtain ⟨st', k1, k2⟩ := ih st1 _ (fun k => hconv (k + 1)) h2
      refine ⟨st', ?_, k2⟩
      unfold GradPipe.run at k1 ⊢
      rw [List.foldlM_cons, h1]
      exact k1
    cases op with
    | setVal m t =>
      refine cont _ rfl ?_
      obtain ⟨cs, k⟩ := hb.calls
      exact ⟨⟨hb.agree.inv, hb.agree.θ, by simp only [gstep, hb.agree.vals]⟩, hb.n, hb.canon, hb.vgrad, hb.sol, hb.sign, hb.convex, hb.convex0, ⟨cs, k⟩,
        hb.dx, hb.dp⟩
    | setGrad m v =>
      refine cont _ rfl ?_
      obtain ⟨cs, k⟩ := hb.calls
      exact ⟨⟨hb.agree.inv, hb.agree.θ, hb.agree.vals⟩, hb.n, hb.canon, by simp only [gstep, hb.vgrad], hb.sol, hb.sign, hb.convex, hb.convex0, ⟨cs, k⟩,
        hb.dx, hb.dp⟩
    | solve u kw =>
      obtain ⟨st1, r, s1, s2, _⟩ := gsolve_step h θ0 sg hd big solver hsolver hsgn hpi hids hds hlen htab hf (horder roots) ht W delta g
        st b hb u kw (hconv 1)
      refine cont st1 ?_ s2
      show (GradPipe.solve G θ0 sg big solver ⟨toks, pi, ds⟩ st u kw).map Prod.fst = _
      rw [s1]; rfl
    | gradient =>
      obtain ⟨st1, r, s1, s2, _⟩ := grad_step h θ0 ⟨toks, pi, ds⟩ hpi W delta g st b hb
      refine cont st1 ?_ s2
      show (gradient lib G θ0 ⟨toks, pi, ds⟩ st).map Prod.fst = _
      rw [s1]; rfl

/-- **C70 (partial)** For every convex QP without diagonal or sparse parameters and with diagonal `P` (`GradOK`), and for every
history of assignments to parameters and to gradients of variables, of solves with any arguments and of gradient
computations, whether they raise or not: if now every variable has a gradient of its shape, `cpg_gradient` succeeds and
assigns to each parameter an array such that the inner product with every direction of the parameters is the derivative of
the function of the variables with the given gradients in this direction, at the instance solved last and along the active
constraints of its solution, up to `eps` times the last correction of the iterative refinement. In particular neither parameter
values assigned since the last solve nor gradients computed before matter. Missing, each with a counterexample: diagonal and
sparse parameters (`C70_fails`), symmetric variables (C55), entries of `P` off the diagonal (C29), constraints with two different
bounds (C35), a wrong sign of multipliers (C35). -/
theorem C70_partial [IsStrictOrderedRing R] {lib : Lib R} {G : GProb R} (h : GradOK lib G) (sg : Stgs S)
    (hd : "default_settings" ∉ sg.enabled) (big : R) (solver : SolverFn R S) (hsolver : SolverOK G.prob sg solver)
    (hsgn : ∀ n D s, SignOK lib G (fn ((solver n D s).duals 0))) (order : List CId → List CId) (horder : ∀ l, (order l).Perm l)
    (junk : CId → Option (List R)) (a : UAbs R) (θ0 : G.prob.Vec) (hθ0 : θ0.1 = vector G.prob a.sent) (store used : String → S)
    (pvals : String → Option (List R)) (before : PObj R) (n : Nat) (sol : (Nat → R) × (Nat → R)) (hsol : SignOK lib G sol.2)
    (W : Ws R) (delta : Nat → R) (g : DCanon R) (ops : List (GradPipe.Op R S))
    (hconv : ∀ k, Convex G (vector G.prob (gafter G.prob sg solver ⟨a, fun _ => none, sol, n⟩ (ops.take k)).u.sent))
    (hplain : ∀ p ∈ G.prob.tps, p.attr = .plain)
    (gr : String → List Nat → R) (hgr : ∀ v ∈ G.prob.vs, ∃ arr,
      (gafter G.prob sg solver ⟨a, fun _ => none, sol, n⟩ ops).vgrad v.name = some arr ∧ arr.shape = v.shape ∧ arr.val = gr v.name) :
    ∃ F st st', gen G.prob θ0 order = .ok F ∧
      GradPipe.run lib G θ0 sg big solver F (GradPipe.init lib G θ0 ⟨a.vals, ⟨pvals,
        (canonGen G.prob.ps (G.prob.k.canonIds G.prob.quad) G.prob.quad G.prob.maps θ0).initMem
          (G.prob.k.solver G.prob.quad G.prob.lp) junk, store, used, none⟩, before, n⟩ sol W delta g) ops = some st ∧
      gradient lib G θ0 F st = some (st', .ok ()) ∧
      RightGradients lib G (gafter G.prob sg solver ⟨a, fun _ => none, sol, n⟩ ops) gr st' := by
  obtain ⟨F, st, h1, h2, h3, h4⟩ := grad_history h sg hd big solver hsolver hsgn order horder junk a θ0 hθ0 store used pvals before n
    sol hsol W delta g ops hconv
  obtain ⟨st', r, k1, _, k2, _, k3⟩ := grad_step h θ0 F h2 W delta g st _ h4
  have hfit : Fits G.prob.vs (gafter G.prob sg solver ⟨a, fun _ => none, sol, n⟩ ops).vgrad := by
    intro v hv
    obtain ⟨arr, r1, r2, _⟩ := hgr v hv
    exact ⟨arr, r1, by rw [r2]⟩
  have hfull : Full G.prob.tps := by
    intro p hp
    unfold slots
    rw [hplain p hp]
    exact (size_prod _).symm
  have hr := k2.2 ⟨hfit, hfull⟩
  subst hr
  refine ⟨F, st, st', h1, h3, k1, k3 hfit hfull ?_ gr hgr⟩
  intro p hp k _
  unfold slotIdx
  rw [hplain p hp]

/-- **C70** When `cpg_gradient` succeeds: after every history, it raises exactly if some variable has no gradient or one of a
wrong size, or some parameter is diagonal or sparse; in the first case nothing changes. -/
theorem C70_accepts [IsStrictOrderedRing R] {lib : Lib R} {G : GProb R} (h : GradOK lib G) (sg : Stgs S)
    (hd : "default_settings" ∉ sg.enabled) (big : R) (solver : SolverFn R S) (hsolver : SolverOK G.prob sg solver)
    (hsgn : ∀ n D s, SignOK lib G (fn ((solver n D s).duals 0))) (order : List CId → List CId) (horder : ∀ l, (order l).Perm l)
    (junk : CId → Option (List R)) (a : UAbs R) (θ0 : G.prob.Vec) (hθ0 : θ0.1 = vector G.prob a.sent) (store used : String → S)
    (pvals : String → Option (List R)) (before : PObj R) (n : Nat) (sol : (Nat → R) × (Nat → R)) (hsol : SignOK lib G sol.2)
    (W : Ws R) (delta : Nat → R) (g : DCanon R) (ops : List (GradPipe.Op R S))
    (hconv : ∀ k, Convex G (vector G.prob (gafter G.prob sg solver ⟨a, fun _ => none, sol, n⟩ (ops.take k)).u.sent)) :
    ∃ F st st' r, gen G.prob θ0 order = .ok F ∧
      GradPipe.run lib G θ0 sg big solver F (GradPipe.init lib G θ0 ⟨a.vals, ⟨pvals,
        (canonGen G.prob.ps (G.prob.k.canonIds G.prob.quad) G.prob.quad G.prob.maps θ0).initMem
          (G.prob.k.solver G.prob.quad G.prob.lp) junk, store, used, none⟩, before, n⟩ sol W delta g) ops = some st ∧
      gradient lib G θ0 F st = some (st', r) ∧
      (r = .ok () ↔ Fits G.prob.vs (gafter G.prob sg solver ⟨a, fun _ => none, sol, n⟩ ops).vgrad ∧ Full G.prob.tps) ∧
      (¬ Fits G.prob.vs (gafter G.prob sg solver ⟨a, fun _ => none, sol, n⟩ ops).vgrad → st' = st) := by
  obtain ⟨F, st, h1, h2, h3, h4⟩ := grad_history h sg hd big solver hsolver hsgn order horder junk a θ0 hθ0 store used pvals before n
    sol hsol W delta g ops hconv
  obtain ⟨st', r, k1, _, k2, k3, _⟩ := grad_step h θ0 F h2 W delta g st _ h4
  exact ⟨F, st, st', r, h1, h3, k1, k2, k3⟩

/-- **C70 fails** for every problem with a diagonal parameter with at least two rows, and for every problem with a sparse
parameter that does not have all entries: every call of `cpg_gradient` raises, whatever was done before. -/
theorem C70_fails [IsStrictOrderedRing R] {lib : Lib R} {G : GProb R} (h : GradOK lib G)
    (hbad : (∃ p ∈ G.prob.tps, ∃ m, p.attr = .diag ∧ p.shape = [m, m] ∧ 2 ≤ m) ∨
      ∃ p ∈ G.prob.tps, ∃ c, p.attr = .sparse c ∧ c.length ≠ size p.shape) (sg : Stgs S)
    (hd : "default_settings" ∉ sg.enabled) (big : R) (solver : SolverFn R S) (hsolver : SolverOK G.prob sg solver)
    (hsgn : ∀ n D s, SignOK lib G (fn ((solver n D s).duals 0))) (order : List CId → List CId) (horder : ∀ l, (order l).Perm l)
    (junk : CId → Option (List R)) (a : UAbs R) (θ0 : G.prob.Vec) (hθ0 : θ0.1 = vector G.prob a.sent) (store used : String → S)
    (pvals : String → Option (List R)) (before : PObj R) (n : Nat) (sol : (Nat → R) × (Nat → R)) (hsol : SignOK lib G sol.2)
    (W : Ws R) (delta : Nat → R) (g : DCanon R) (ops : List (GradPipe.Op R S))
    (hconv : ∀ k, Convex G (vector G.prob (gafter G.prob sg solver ⟨a, fun _ => none, sol, n⟩ (ops.take k)).u.sent)) :
    ∃ F st st' e, gen G.prob θ0 order = .ok F ∧
      GradPipe.run lib G θ0 sg big solver F (GradPipe.init lib G θ0 ⟨a.vals, ⟨pvals,
        (canonGen G.prob.ps (G.prob.k.canonIds G.prob.quad) G.prob.quad G.prob.maps θ0).initMem
          (G.prob.k.solver G.prob.quad G.prob.lp) junk, store, used, none⟩, before, n⟩ sol W delta g) ops = some st ∧
      gradient lib G θ0 F st = some (st', .error e) := by
  obtain ⟨F, st, st', r, h1, h2, h3, h4, _⟩ := C70_accepts h sg hd big solver hsolver hsgn order horder junk a θ0 hθ0 store used pvals
    before n sol hsol W delta g ops hconv
  cases r with
  | error e => exact ⟨F, st, st', e, h1, h2, h3⟩
  | ok _ =>
    have hfull := (h4.1 rfl).2
    exfalso
    rcases hbad with ⟨p, hp, m, e1, e2, e3⟩ | ⟨p, hp, c, e1, e2⟩
    · have := hfull p hp
      unfold slots at this
      rw [e1, e2] at this
      simp only [List.headD_cons, size, Nat.mul_one] at this
      have : m * 2 ≤ m * m := Nat.mul_le_mul_left m e3
      omega
    · have := hfull p hp
      unfold slots at this
      rw [e1] at this
      exact e2 this

end

/-! ### Concrete cases: minimize `½ λ x²` subject to `x = a`, with a scalar or with a diagonal matrix in place of `λ`. -/

def exLam (diag : Bool) : TParam := if diag then ⟨"lam", [2, 2], .diag⟩ else ⟨"lam", [], .plain⟩

/-- Columns: `a`, `λ` (one or two entries), constant. -/
noncomputable def exGradMaps (diag : Bool) : CId → Option (RawMap ℝ)
  | .P => some ⟨⟨1, if diag then 4 else 3, [(0, 1, 1)]⟩, fun _ => 1⟩
  | .A => some ⟨⟨1, if diag then 4 else 3, [(0, if diag then 3 else 2, 1)]⟩, fun _ => 1⟩
  | .q => some ⟨⟨1, if diag then 4 else 3, []⟩, fun _ => 1⟩
  | .l => some ⟨⟨1, if diag then 4 else 3, [(0, 0, 1)]⟩, fun _ => 1⟩
  | .u => some ⟨⟨1, if diag then 4 else 3, [(0, 0, 1)]⟩, fun _ => 1⟩
  | .d => some ⟨⟨1, if diag then 4 else 3, []⟩, fun _ => 1⟩
  | _ => none

noncomputable def exGrad (diag : Bool) : GProb ℝ where
  prob :=
    { k := .osqp
      quad := true
      lp := false
      tps := [⟨"a", [], .plain⟩, exLam diag]
      maps := exGradMaps diag
      vs := [⟨"x", [], false, 0⟩]
      cons := [4]
      idMaps := [firstMap id [4], [(4, 10)]]
      con := [⟨10, 1⟩]
      nEq := 1
      isMax := false }
  dims := ⟨1, 1, 1, 1, 1⟩
  patP := oneM
  patA := oneM

noncomputable def exLib : Lib ℝ := ⟨fac2, Real.sqrt, 1 / 1000000, 1 / 1000000000000⟩

theorem one_nonzero (c j : Nat) (h : j < c) :
    nonzeroRows (RawMap.signed (⟨⟨1, c, [(0, j, 1)]⟩, fun _ => 1⟩ : RawMap ℝ)) = [0] := by
  have h0 : (0 : Nat) ∈ nonzeroRows (RawMap.signed (⟨⟨1, c, [(0, j, 1)]⟩, fun _ => 1⟩ : RawMap ℝ)) := by
    unfold RawMap.signed
    rw [mem_nonzeroRows_ofDense]
    exact ⟨Nat.one_pos, j, h, by simp [Sp.at]⟩
  unfold nonzeroRows at h0 ⊢
  have hr : (RawMap.signed (⟨⟨1, c, [(0, j, 1)]⟩, fun _ => 1⟩ : RawMap ℝ)).rows = 1 := rfl
  rw [hr] at h0 ⊢
  rw [List.filter_eq_self.2]
  · rfl
  · intro i hi
    have : i = 0 := by simpa using hi
    subst this
    exact (List.mem_filter.1 h0).2

theorem exGrad_data (diag : Bool) (a l : ℝ) (r : List ℝ) (θ : List ℝ) (hθ : θ = a :: l :: r) (hr : r.length = if diag then 1 else 0) :
    dataAt (exGrad diag).prob θ .P = some [l] ∧ dataAt (exGrad diag).prob θ .A = some [1] ∧
    dataAt (exGrad diag).prob θ .q = some [0] ∧ dataAt (exGrad diag).prob θ .l = some [a] ∧
    dataAt (exGrad diag).prob θ .u = some [a] := by
  subst hθ
  cases diag with
  | false =>
    obtain rfl : r = [] := List.length_eq_zero_iff.1 hr
    refine ⟨?_, ?_, ?_, ?_, ?_⟩ <;> simp [dataAt, exGrad, exGradMaps, CId.isUpper, one_nonzero, sum_range_succ, Sp.at, fn]
  | true =>
    obtain ⟨x, rfl⟩ := List.length_eq_one_iff.1 hr
    refine ⟨?_, ?_, ?_, ?_, ?_⟩ <;> simp [dataAt, exGrad, exGradMaps, CId.isUpper, one_nonzero, sum_range_succ, Sp.at, fn]

theorem exGrad_vec (diag : Bool) (θ : List ℝ) (hθ : θ.length = totalSize (exGrad diag).prob.ps) :
    ∃ a l r, θ = a :: l :: r ∧ r.length = if diag then 1 else 0 := by
  have : θ.length = if diag then 3 else 2 := by rw [hθ]; cases diag <;> decide
  match θ, this with
  | [], h => cases diag <;> cases h
  | [_], h => cases diag <;> cases h
  | a :: l :: r, h => refine ⟨a, l, r, rfl, ?_⟩; cases diag <;> simp_all

theorem exGrad_ok (diag : Bool) : GradOK exLib (exGrad diag) := by
  have hset := one_setup (R := ℝ) (eps := 1 / 1000000) (by norm_num)
  refine ⟨?_, rfl, ?_, ?_, ⟨_, rfl, rfl⟩, ⟨_, rfl, rfl⟩, ⟨_, rfl, rfl⟩, ⟨_, rfl, ?_⟩, ⟨_, rfl, ?_⟩, le_refl _, hset.data, ?_,
    ⟨rfl, rfl⟩, ⟨rfl, rfl⟩, ?_, ?_, ?_, fac2_ok⟩
  · refine ⟨rfl, ⟨?_, ?_, ?_, ?_⟩, ⟨_, rfl, rfl⟩, ?_, ?_, ?_, ?_, ?_, ?_, ⟨_, rfl⟩, ?_⟩
    · cases diag <;> decide
    · cases diag <;> decide
    · intro c m h
      cases c <;> simp [exGrad, exGradMaps] at h <;> subst h <;> cases diag <;> rfl
    · intro c hc
      cases c <;> simp_all [exGrad, exGradMaps, Kind.canonIds]
    · intro p hp
      simp only [exGrad, List.mem_cons, List.not_mem_nil, or_false] at hp
      rcases hp with rfl | rfl
      · exact ⟨by decide, by decide, fun h => (by cases h), fun c h => (by cases h)⟩
      · cases diag with
        | false => exact ⟨by decide, by decide, fun h => (by cases h), fun c h => (by cases h)⟩
        | true => exact ⟨by decide, by decide, fun _ => ⟨2, rfl⟩, fun c h => (by cases h)⟩
    · simp [exGrad]
    · intro v hv h
      simp only [exGrad, List.mem_cons, List.not_mem_nil, or_false] at hv
      subst hv
      cases h
    · simp [exGrad]
    · simp [exGrad]
    · intro h; cases h
    · intro c hc
      simp only [exGrad, List.mem_cons, List.not_mem_nil, or_false] at hc
      subst hc
      exact ⟨10, by simp [exGrad], rfl⟩
  · exact ⟨by simp [exGrad], by simp [exGrad, solverSize, UVar.size, size], by simp [exGrad]⟩
  · intro v hv
    simp only [exGrad, List.mem_cons, List.not_mem_nil, or_false] at hv
    subst hv
    rfl
  · show (nonzeroRows _).length = 1
    rw [one_nonzero _ _ (by cases diag <;> decide)]
    rfl
  · show (nonzeroRows _).length = 1
    rw [one_nonzero _ _ (by cases diag <;> decide)]
    rfl
  · rintro r c hc ⟨_, k, _, _, h3, _⟩
    have hc : c < 1 := hc
    have h3 : 0 = r := h3
    omega
  · intro θ hθ k hk
    obtain ⟨a, l, r, e1, e2⟩ := exGrad_vec diag θ hθ
    obtain ⟨-, -, -, h4, h5⟩ := exGrad_data diag a l r θ e1 e2
    unfold vec
    rw [h4, h5]
  · show (0 : ℝ) < 1 / 1000000
    norm_num
  · intro x hx; exact Real.mul_self_sqrt hx.le

theorem exGrad_convex (diag : Bool) (sent : String → List Nat → ℝ) (h : 0 ≤ (vector (exGrad diag).prob sent).getD 1 0) :
    Convex (exGrad diag) (vector (exGrad diag).prob sent) := by
  obtain ⟨a, l, r, e1, e2⟩ := exGrad_vec diag _ (vector_len (exGrad diag).prob sent)
  obtain ⟨h1, -⟩ := exGrad_data diag a l r _ e1 e2
  have hl : 0 ≤ l := by rw [e1] at h; simpa using h
  intro x
  show 0 ≤ ∑ i ∈ range 1, ∑ j ∈ range 1, _
  have he : ent (matP (exGrad diag) (vector (exGrad diag).prob sent)) 0 0 = l := by
    unfold matP
    rw [h1]
    simp [ent, exGrad, oneM, fn]
  rw [sum_range_one, sum_range_one]
  have : symUp (ent (matP (exGrad diag) (vector (exGrad diag).prob sent))) 0 0 = l := he
  rw [this]
  have := mul_nonneg hl (mul_self_nonneg (x 0))
  nlinarith

theorem exGrad_ent (diag : Bool) (a l : ℝ) (r : List ℝ) (θ : List ℝ) (hθ : θ = a :: l :: r) (hr : r.length = if diag then 1 else 0) :
    ent (matP (exGrad diag) θ) 0 0 = l ∧ ent (matA (exGrad diag) θ) 0 0 = 1 ∧ vec (exGrad diag) θ .q 0 = 0 ∧
    vec (exGrad diag) θ .u 0 = a := by
  obtain ⟨h1, h2, h3, -, h5⟩ := exGrad_data diag a l r θ hθ hr
  unfold matP matA vec
  rw [h1, h2, h3, h5]
  refine ⟨?_, ?_, ?_, ?_⟩ <;> simp [ent, exGrad, oneM, fn]

/-- The exact solution. -/
noncomputable def exGradSolver : SolverFn ℝ Int := fun _ D _ =>
  let l := fn ((D .P).getD []) 0
  let a := fn ((D .u).getD []) 0
  { sol := [a]
    duals := fun _ => [-(l * a)]
    obj := l * a * a / 2
    status := "solved"
    time := 0 }

theorem exGradSolver_ok (diag : Bool) : SolverOK (exGrad diag).prob exStgs exGradSolver := by
  refine ⟨?_, fun n D s i => rfl, ?_⟩
  · intro n D s v hv
    simp only [exGrad, List.mem_cons, List.not_mem_nil, or_false] at hv
    subst hv
    exact le_refl 1
  · intro n D D' s s' hD _
    simp only [exGradSolver, hD .P (show CId.P ∈ (Kind.osqp.solver true false).uses by decide),
      hD .u (show CId.u ∈ (Kind.osqp.solver true false).uses by decide)]

/-- A call that raises, two parameters are set, the problem is solved, a gradient is given; then `λ` changes without a solve. -/
def exGradOps (diag : Bool) : List (GradPipe.Op ℝ Int) :=
  [.gradient, .setVal "lam" fun _ => 2, .setVal "a" fun _ => 3, .solve none [], .setGrad "x" (some ⟨[], fun _ => 1⟩),
   .setVal "lam" fun _ => if diag then 7 else -5]

/-- At generation all parameters are one. -/
def exGradAbs : GAbs ℝ := ⟨⟨fun _ => none, fun _ _ => 1⟩, fun _ => none, (fun _ => 0, fun _ => 0), 0⟩

theorem exGrad_two (diag : Bool) (sent : String → List Nat → ℝ) :
    ∃ r, vector (exGrad diag).prob sent = sent "a" [] :: sent "lam" (slotIdx (exLam diag) 0) :: r := by
  cases diag <;> exact ⟨_, rfl⟩

/-- The values set. -/
def exGradVals (m : String) : Option (List Nat → ℝ) :=
  if m = "a" then some fun _ => 3 else if m = "lam" then some fun _ => 2 else none

theorem exGrad_good (diag : Bool) : Good (exGrad diag).prob exStgs ⟨exGradVals, fun _ _ => 1⟩ none [] := by
  refine ⟨fun L h => (by cases h), fun kv h => (by cases h), ?_⟩
  intro p hp
  simp only [exGrad, List.mem_cons, List.not_mem_nil, or_false] at hp
  rcases hp with rfl | rfl
  · exact ⟨_, rfl⟩
  · cases diag <;> exact ⟨_, rfl⟩

theorem exGrad_after (diag : Bool) : ∃ v, gafter (exGrad diag).prob exStgs exGradSolver exGradAbs ((exGradOps diag).take 4) = v ∧
    v.u.sent "a" = (fun _ => 3) ∧ v.u.sent "lam" = (fun _ => 2) ∧ v.sol.2 0 = -6 ∧ v.sol.1 0 = 3 := by
  refine ⟨_, rfl, ?_⟩
  have h : gafter (exGrad diag).prob exStgs exGradSolver exGradAbs ((exGradOps diag).take 4) =
      gstep (exGrad diag).prob exStgs exGradSolver ⟨⟨exGradVals, fun _ _ => 1⟩, fun _ => none, (fun _ => 0, fun _ => 0), 0⟩
        (.solve none []) := rfl
  rw [h, gstep_good _ _ _ _ _ _ (exGrad_good diag)]
  have hs : (UAbs.transfer ⟨exGradVals, fun _ _ => 1⟩ none).sent = fun m => (exGradVals m).getD fun _ => 0 := by
    funext m
    simp [UAbs.transfer]
  obtain ⟨r, hr⟩ := exGrad_two diag (fun m => (exGradVals m).getD fun _ => 0)
  have hl : r.length = if diag then 1 else 0 := by
    obtain ⟨a, l, r', e1, e2⟩ := exGrad_vec diag _ (vector_len (exGrad diag).prob (fun m => (exGradVals m).getD fun _ => 0))
    rw [hr] at e1
    cases e1
    exact e2
  obtain ⟨d1, -, -, -, d5⟩ := exGrad_data diag _ _ r _ hr hl
  dsimp only
  rw [hs]
  refine ⟨rfl, rfl, ?_, ?_⟩
  · simp only [exGradSolver, d1, d5]
    simp [fn, exGradVals]
    norm_num
  · simp only [exGradSolver, d5]
    simp [fn, exGradVals]

theorem exGrad_hconv (diag : Bool) (k : Nat) :
    Convex (exGrad diag) (vector (exGrad diag).prob
      (gafter (exGrad diag).prob exStgs exGradSolver exGradAbs ((exGradOps diag).take k)).u.sent) := by
  apply exGrad_convex
  obtain ⟨r, hr⟩ := exGrad_two diag (gafter (exGrad diag).prob exStgs exGradSolver exGradAbs ((exGradOps diag).take k)).u.sent
  rw [hr]
  obtain ⟨v, h1, h2, h3, -⟩ := exGrad_after diag
  show (0 : ℝ) ≤ _
  match k with
  | 0 => exact zero_le_one
  | 1 => exact zero_le_one
  | 2 => exact zero_le_one
  | 3 => exact zero_le_one
  | 4 => rw [h1]; simp [h3]
  | 5 =>
    have : (gafter (exGrad diag).prob exStgs exGradSolver exGradAbs ((exGradOps diag).take 5)).u.sent = v.u.sent := by rw [← h1]; rfl
    rw [this]; simp [h3]
  | k + 6 =>
    have : (gafter (exGrad diag).prob exStgs exGradSolver exGradAbs ((exGradOps diag).take (k + 6))).u.sent = v.u.sent := by
      rw [List.take_of_length_le (show (exGradOps diag).length ≤ k + 6 from Nat.le_add_left 6 k), ← h1]
      rfl
    rw [this]; simp [h3]

/-- The theorem in the example: the derivative of `x` with respect to `a` is one, up to the refinement; the value -5
assigned to `λ` without a solve does not matter. -/
example (big : ℝ) (W : Ws ℝ) (delta : Nat → ℝ) (g : DCanon ℝ) (before : PObj ℝ) :
    ∃ F st st', gen (exGrad false).prob ⟨[1, 1], rfl⟩ id = .ok F ∧
      GradPipe.run exLib (exGrad false) ⟨[1, 1], rfl⟩ exStgs big exGradSolver F (GradPipe.init exLib (exGrad false) ⟨[1, 1], rfl⟩
        ⟨fun _ => none, ⟨fun _ => none, (canonGen (exGrad false).prob.ps ((exGrad false).prob.k.canonIds (exGrad false).prob.quad)
          (exGrad false).prob.quad (exGrad false).prob.maps ⟨[1, 1], rfl⟩).initMem
          ((exGrad false).prob.k.solver (exGrad false).prob.quad (exGrad false).prob.lp) (fun _ => none), fun _ => 0, fun _ => 0, none⟩,
          before, 0⟩ (fun _ => 0, fun _ => 0) W delta g) (exGradOps false) = some st ∧
      gradient exLib (exGrad false) ⟨[1, 1], rfl⟩ F st = some (st', .ok ()) ∧
      ∃ h ga, st'.pgrad "a" = some h ∧ h [] = some ga ∧
        1 = ga + 1 / 1000000 * (st'.ws.delta 0 + 2 * st'.ws.delta 1) := by
  obtain ⟨F, st, st', h1, h2, h3, h4⟩ := C70_partial (exGrad_ok false) exStgs (by decide) big exGradSolver (exGradSolver_ok false)
    (fun _ _ _ k h1 h2 => absurd h2 (Nat.not_lt.2 h1)) id (fun l => List.Perm.refl l) (fun _ => none) exGradAbs.u ⟨[1, 1], rfl⟩ rfl
    (fun _ => 0) (fun _ => 0) (fun _ => none) before 0 (fun _ => 0, fun _ => 0) (fun k h1 h2 => absurd h2 (Nat.not_lt.2 h1)) W delta g
    (exGradOps false) (exGrad_hconv false) (by
      intro p hp
      simp only [exGrad, List.mem_cons, List.not_mem_nil, or_false] at hp
      rcases hp with rfl | rfl <;> rfl) (fun _ _ => 1) (by
      intro v hv
      simp only [exGrad, List.mem_cons, List.not_mem_nil, or_false] at hv
      subst hv
      exact ⟨_, rfl, rfl, rfl⟩)
  refine ⟨F, st, st', h1, h2, h3, ?_⟩
  obtain ⟨f, f1, f2⟩ := h4
  obtain ⟨v, e1, e2, e3, e4, e5⟩ := exGrad_after false
  have eu : (gafter (exGrad false).prob exStgs exGradSolver ⟨exGradAbs.u, fun _ => none, (fun _ => 0, fun _ => 0), 0⟩ (exGradOps false)).u.sent
      = v.u.sent := by rw [← e1]; rfl
  have es : (gafter (exGrad false).prob exStgs exGradSolver ⟨exGradAbs.u, fun _ => none, (fun _ => 0, fun _ => 0), 0⟩ (exGradOps false)).sol
      = v.sol := by rw [← e1]; rfl
  obtain ⟨h, k1, k2⟩ := f1 ⟨"a", [], .plain⟩ (by simp [exGrad])
  refine ⟨h, _, k1, k2 [] (by simp [InBounds]), ?_⟩
  have ht : vector (exGrad false).prob v.u.sent = [3, 2] := by
    simp [vector, exGrad, exLam, slotVec, slots, e2, e3]
  have ht' : vector (exGrad false).prob (fun m _ => if m = "a" then 4 else 2) = [4, 2] := by
    simp [vector, exGrad, exLam, slotVec, slots]
  obtain ⟨a1, a2, a3, a5⟩ := exGrad_ent false 3 2 [] [3, 2] rfl rfl
  obtain ⟨b1, b2, b3, b5⟩ := exGrad_ent false 4 2 [] [4, 2] rfl rfl
  have hact : Active exLib.tol v.sol.2 0 := by
    left
    rw [e4]
    show (-6 : ℝ) < -(1 / 1000000000000)
    norm_num
  have := f2 (fun m _ => if m = "a" then 4 else 2) (fun _ => 1) (fun _ => -2) (by
    rw [eu, es, ht, ht']
    unfold IsDerivative
    refine ⟨?_, ?_⟩
    · intro i hi
      obtain rfl : i = 0 := Nat.lt_one_iff.1 hi
      show ∑ j ∈ range 1, _ + _ + ∑ k ∈ range 1, _ = (0 : ℝ)
      rw [sum_range_one, sum_range_one, if_pos hact]
      rw [a1, a2, a3, b1, b2, b3]
      norm_num
    · intro k hk _
      obtain rfl : k = 0 := Nat.lt_one_iff.1 hk
      show ∑ j ∈ range 1, _ = _
      rw [sum_range_one]
      rw [a2, a5, b2, b5]
      norm_num)
  rw [eu, es] at this
  have c1 : varDot (exGrad false).prob.vs (fun _ _ => 1) (fun _ => 1) = (1 : ℝ) := by
    simp [varDot, exGrad, UVar.size, size]
  have c2 : parDot (exGrad false).prob.tps f (fun m idx => (if m = "a" then 4 else 2) - v.u.sent m idx) = f "a" [] := by
    simp [parDot, exGrad, exLam, size, unpos, e2, e3]
    norm_num
  rw [c1, c2] at this
  refine this.trans ?_
  show _ + (1 / 1000000 : ℝ) * (∑ i ∈ range 1, _ - ∑ k ∈ range 1, _) = _
  rw [sum_range_one, sum_range_one, if_pos hact]
  show _ + (1 / 1000000 : ℝ) * (st'.ws.delta 0 * 1 - st'.ws.delta 1 * -2) = _
  ring

/-- The hypotheses of `C70_fails` are met by the example with a diagonal parameter. -/
example : GradOK exLib (exGrad true) ∧ (∃ p ∈ (exGrad true).prob.tps, ∃ m, p.attr = .diag ∧ p.shape = [m, m] ∧ 2 ≤ m) ∧
    SolverOK (exGrad true).prob exStgs exGradSolver ∧ (∀ y, SignOK exLib (exGrad true) y) ∧
    ∀ k, Convex (exGrad true) (vector (exGrad true).prob
      (gafter (exGrad true).prob exStgs exGradSolver exGradAbs ((exGradOps true).take k)).u.sent) :=
  ⟨exGrad_ok true, ⟨_, List.mem_cons_of_mem _ (List.mem_cons_self ..), 2, rfl, rfl, le_refl 2⟩, exGradSolver_ok true,
    fun _ _ h1 h2 => absurd h2 (Nat.not_lt.2 h1), exGrad_hconv true⟩

end Verif.Props
