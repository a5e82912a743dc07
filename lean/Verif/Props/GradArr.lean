import Verif.Lemmas.GradArr
import Verif.Spec.GradArr
import Verif.Props.GradPipe
import Verif.Props.GradRef
/-!
C98: differentiation in Python down to the arrays of the C code.
-/
namespace Verif.Props
open Verif.Model Verif.Model.Pipeline Verif.Model.Saved Verif.Model.Flatten Verif.Model.GradArr
open Verif.Spec Verif.Spec.Pipeline Verif.Spec.GradPipe Verif.Spec.GradArr
open Verif.Spec.GradRef (workspace factorOf arr csc callOf calls incoming)
open Verif.Lemmas Verif.Lemmas.Pipeline Verif.Lemmas.GradPipe Finset

section
variable {R S : Type} [Field R] [LinearOrder R] {sqrt : R → R} {eps tol : R} {A : AProb R} {Q : GradMem.Qdldl R}

theorem canonVal_len (h : GradOK (libOf A Q sqrt eps tol) A.toG) {c : CId} {n : Nat} (hc : HasRows A.toG c n) (θ : List R)
    (hθ : θ.length = totalSize A.prob.ps) : ((canonVal (A.prob.maps c) c.isUpper θ).getD []).length = n := by
  rw [canonVal_dataAt h.prob.wf θ hθ c]
  exact (hasRows_val h hc).1 θ hθ

theorem constraints_eq (A : AProb R) : A.toG.N - A.dims.n = A.dims.nu := by
  unfold GradPipe.GProb.N
  exact Nat.add_sub_cancel_left ..

theorem block_ok {m : Csr R} {rows bound NP : Nat} {b : Bool} (h : Csr.Valid m rows NP) (hr : rows ≤ bound) :
    GradMem.BlockOK bound NP ⟨b, rows, rowsOf m⟩ := by
  refine ⟨hr, ⟨h.len, h.mono, ?_, ?_⟩, h.same.symm⟩
  · show m.indptr.getD rows 0 ≤ m.indices.length
    rw [h.same]
    exact h.last rows (le_refl _)
  · intro k hk
    have hk : k < m.indices.length := hk
    show m.indices.getD k 0 < NP
    rw [List.getD_eq_getElem?_getD, List.getElem?_eq_getElem hk]
    exact h.cols _ (List.getElem_mem hk)

/-- The assumptions of the array model hold. -/
theorem arrays_generated (h : GradOK (libOf A Q sqrt eps tol) A.toG) {θ0 : A.prob.Vec} {pL iL : List Nat}
    (ha : ArraysOK (GradRef.exact sqrt eps tol) A θ0 pL iL Q) :
    GradRef.Generated (GradRef.exact sqrt eps tol) A.dims.n A.toG.N A.toG.NP (P0 A θ0) (A0 A θ0) pL iL Q A.maps where
  nN := Nat.le_add_right ..
  patP := ha.patP
  lenP := (canonVal_len h h.P θ0.1 θ0.2).trans ha.wholeP.symm
  patA := by rw [constraints_eq]; exact ha.patA
  lenA := (canonVal_len h h.A θ0.1 θ0.2).trans ha.wholeA.symm
  sym := ha.sym
  lib := ha.lib
  solve := ha.solve
  maps := by
    have hN := constraints_eq A
    refine ⟨fun _ => block_ok (hasRows_val h h.q).2.2 (le_refl _), fun _ => block_ok (hasRows_val h h.l).2.2 ?_,
      fun _ => block_ok (hasRows_val h h.u).2.2 ?_, fun _ => block_ok (hasRows_val h h.P).2.2 ?_,
      fun _ => block_ok (hasRows_val h h.A).2.2 ?_⟩
    · rw [hN]; exact h.nl
    · rw [hN]
    · exact ha.wholeP.ge
    · exact ha.wholeA.ge

/-- What holds of the arrays between operations. -/
structure ArrInv (F : GradMem.Flops R) (A : AProb R) (θ0 : A.prob.Vec) (pL iL : List Nat) (st : GradArr.St R S A.toG) : Prop where
  mem : Verif.Lemmas.GradMem.Between A.dims.n A.toG.N A.toG.NP
    (GradMem.patternsOf F A.dims.n A.toG.N (P0 A θ0) (A0 A θ0) pL iL) st.mem
  x : st.x.length = A.dims.n
  y : st.y.length = A.dims.nu

theorem calls_deltas (n : Nat) (ds : List (GradMem.Op R)) (hd : ∀ op ∈ ds, ∃ k v, op = .delta k v) (dx : List R) :
    calls n dx ds = [] := by
  induction ds generalizing dx with
  | nil => rfl
  | cons op ds ih =>
    obtain ⟨k, v, rfl⟩ := hd op List.mem_cons_self
    exact ih (fun o ho => hd o (List.mem_cons_of_mem _ ho)) _

/-- One gradient. -/
theorem gradient_view (h : GradOK (libOf A Q sqrt eps tol) A.toG) {θ0 : A.prob.Vec} {pL iL : List Nat}
    (ha : ArraysOK (GradRef.exact sqrt eps tol) A θ0 pL iL Q) (F : Files) (hpi : primInfo A.prob.vs = .ok F.pi)
    (st : GradArr.St R S A.toG) (inv : ArrInv (GradRef.exact sqrt eps tol) A θ0 pL iL st)
    (hcanon : ∀ p, st.pipe.py.mem.canon p = canonVal (A.prob.maps p) p.isUpper st.pipe.py.mem.θ.1)
    (hdx : st.mem.dx = List.replicate A.dims.n 0) {st' : GradPipe.St R S A.toG} {r : Except PyErr Unit}
    (hs : GradPipe.gradient (libOf A Q sqrt eps tol) A.toG θ0 F (view st) = some (st', r)) :
    ∃ t, GradArr.gradient (GradRef.exact sqrt eps tol) Q A F st = some (t, r) ∧ view t = st' ∧
      ArrInv (GradRef.exact sqrt eps tol) A θ0 pL iL t := by
  have hg := arrays_generated h ha
  unfold GradPipe.gradient at hs
  unfold GradArr.gradient
  dsimp only at hs ⊢
  rw [show (view st).vgrad = st.vgrad from rfl] at hs
  cases hf : GradPipe.vdelta A.prob.vs st.vgrad with
  | error e =>
    rw [hf] at hs
    cases hs
    exact ⟨st, rfl, rfl, inv⟩
  | ok fields =>
    rw [hf] at hs
    dsimp only at hs ⊢
    obtain ⟨d, hd1, hd2, dx, hd3, hd4⟩ := C55_python A.prob.vs A.dims.n F.pi [] h.blocks h.sym hpi (fun o ho => (by cases ho))
      (fun n k => fn ((fields.lookup n).getD []) k)
    rw [List.nil_append] at hd1
    have hd1' : (Deltas.pyCalls A.prob.vs fun n k => fn ((fields.lookup n).getD []) k).foldlM (Deltas.step F.pi A.dims.n)
        ⟨(view st).dx, []⟩ = some d := by
      show (Deltas.pyCalls A.prob.vs fun n k => fn ((fields.lookup n).getD []) k).foldlM (Deltas.step F.pi A.dims.n) ⟨st.mem.dx, []⟩ = some d
      rw [hdx]
      exact hd1
    rw [hd1'] at hs
    dsimp only at hs
    rw [GradArr.pyCalls_eq] at hd1'
    obtain ⟨ds, e1, e2, e3⟩ := GradArr.deltas_ok _ _ _ _ _ hd1'
    have e1 : deltas F.pi A.prob.vs (fun n k => fn ((fields.lookup n).getD []) k) = some ds := e1
    rw [e1]
    dsimp only
    rw [e3, Option.getD_some] at hs
    have hlen : st.mem.dx.length = A.dims.n := inv.mem.1.dx
    have hθ := st.pipe.py.mem.θ.2
    have hcP : st.pipe.py.mem.canon .P = canonVal (A.prob.maps .P) CId.P.isUpper st.pipe.py.mem.θ.1 := hcanon .P
    have hcA : st.pipe.py.mem.canon .A = canonVal (A.prob.maps .A) CId.A.isUpper st.pipe.py.mem.θ.1 := hcanon .A
    have hops : ∀ op ∈ ds ++ [GradMem.Op.grad (call A st)], GradMem.OpOK A.dims.n A.toG.N
        (GradMem.patternsOf (GradRef.exact sqrt eps tol) A.dims.n A.toG.N (P0 A θ0) (A0 A θ0) pL iL) op := by
      intro op hop
      rcases List.mem_append.1 hop with hop | hop
      · obtain ⟨k, v, rfl, hk⟩ := e2 op hop
        show k < A.dims.n
        rw [← hlen]
        exact hk
      · rw [List.mem_singleton.1 hop]
        refine ⟨⟨rfl, rfl, ?_⟩, ⟨rfl, rfl, ?_⟩, inv.x, by rw [constraints_eq]; exact inv.y⟩
        · show ((st.pipe.py.mem.canon .P).getD []).length = A.iP.length
          rw [hcP, ha.wholeP]
          exact canonVal_len h h.P _ hθ
        · show ((st.pipe.py.mem.canon .A).getD []).length = A.iA.length
          rw [hcA, ha.wholeA]
          exact canonVal_len h h.A _ hθ
    have hprob := C91_generated _ A.dims.n A.toG.N (P0 A θ0) (A0 A θ0) pL iL hg.nN hg.patP hg.patA hg.sym
    obtain ⟨t, t1, t2, t3⟩ := Verif.Lemmas.GradRef.run_ref (sqrt := sqrt) (eps := eps) (tol := tol) (P := P0 A θ0) (A := A0 A θ0)
      hg.lib hg.solve hprob hg.maps
      (Verif.Lemmas.GradRef.compress_last _) rfl rfl rfl rfl (ds ++ [GradMem.Op.grad (call A st)]) st.mem hops inv.mem
    obtain ⟨t', t1', -, t4, t5⟩ := Verif.Lemmas.GradRef.run_last (sqrt := sqrt) (eps := eps) (tol := tol) (P := P0 A θ0) (A := A0 A θ0)
      hg.lib hg.solve hprob hg.maps
      (Verif.Lemmas.GradRef.compress_last _) rfl rfl rfl rfl ds (call A st) hops inv.mem
    rw [t1] at t1'
    cases t1'
    rw [t1]
    dsimp only
    rw [Verif.Lemmas.GradRef.calls_snoc, calls_deltas _ _ (fun op hop => (e2 op hop).imp fun k hk => hk.imp fun v hv => hv.1)] at t3
    have t3' : Grad.gradCall (libOf A Q sqrt eps tol).qdldl (libOf A Q sqrt eps tol).sqrt (libOf A Q sqrt eps tol).eps
        (libOf A Q sqrt eps tol).tol A.dims.n A.toG.N (GradPipe.withVals A.toG.patP (canonVal (A.prob.maps .P) true θ0.1))
        (GradPipe.withVals A.toG.patA (canonVal (A.prob.maps .A) true θ0.1)) (GradPipe.refresh A.toG (view st)) (view st).sol.1
        (view st).sol.2 (fn (incoming A.dims.n (view st).dx ds)) (view st).ws = workspace t := t3.symm
    rw [t3'] at hs
    cases hu : uncanonicalize A.toG.NP A.dims A.toG.qmaps (workspace t).g (view st).dp with
    | none => rw [hu] at hs; cases hs
    | some dp =>
      rw [hu] at hs
      dsimp only at hs
      obtain ⟨u1, u2⟩ := GradArr.uncanon_user A (workspace t).g (view st).dp dp inv.mem.1.dp hu
      have hdp : dp = t.dp := by
        refine GradArr.list_ext (u1.trans t2.1.dp.symm) fun i hi => ?_
        rw [u1] at hi
        rw [u2 i hi, t5]
      subst hdp
      rw [show (view st).pgrad = st.pgrad from rfl] at hs
      cases hp : GradPipe.assignGrads A.prob.ps t.dp st.pgrad A.prob.tps with
      | none => rw [hp] at hs; cases hs
      | some pr =>
        rw [hp] at hs
        dsimp only at hs ⊢
        rw [Option.some.injEq, Prod.mk.injEq] at hs
        obtain ⟨s1, rfl⟩ := hs
        refine ⟨_, rfl, ?_, ⟨t2, inv.x, inv.y⟩⟩
        rw [← s1]
        unfold view
        dsimp only
        rw [hd2, t4]

/-- One solve. -/
theorem solve_view (G : GradPipe.GProb R) (θ0 : G.prob.Vec) (sg : Stgs S) (big : R) (solver : SolverFn R S) (F : Files)
    (st : GradArr.St R S G) (u : Option (List String)) (kw : List (String × S)) {st' : GradPipe.St R S G} {r : Except PyErr (Ret R)}
    (hs : GradPipe.solve G θ0 sg big solver F (view st) u kw = some (st', r)) :
    ∃ t, GradArr.solve G θ0 sg big solver F st u kw = some (t, r) ∧ view t = st' ∧ t.mem = st.mem ∧
      ((t.x = st.x ∧ t.y = st.y) ∨ ∃ n D s, t.x = (solver n D s).sol ∧ t.y = (solver n D s).duals 0) := by
  unfold GradPipe.solve at hs
  unfold GradArr.solve
  dsimp only at hs ⊢
  rw [show (view st).pipe = st.pipe from rfl] at hs
  cases h1 : Pipeline.solve G.prob θ0 sg big solver F st.pipe u kw with
  | none => rw [h1] at hs; cases hs
  | some pr =>
    obtain ⟨pipe, r'⟩ := pr
    rw [h1] at hs
    dsimp only at hs ⊢
    cases h2 : pySolve G.prob.k G.prob.quad G.prob.lp G.prob.ps G.prob.maps θ0 sg F.toks
        { st.pipe.py with vals := G.prob.flat st.pipe.tvals } u kw with
    | none =>
      rw [h2] at hs
      cases hs
      exact ⟨_, rfl, rfl, rfl, Or.inl ⟨rfl, rfl⟩⟩
    | some q =>
      obtain ⟨py, res⟩ := q
      rw [h2] at hs
      cases res with
      | error e =>
        cases hs
        exact ⟨_, rfl, rfl, rfl, Or.inl ⟨rfl, rfl⟩⟩
      | ok obs =>
        cases hs
        exact ⟨_, rfl, rfl, rfl, Or.inr ⟨_, _, _, rfl, rfl⟩⟩

/-- After import. -/
theorem init_view (A : AProb R) (Q : GradMem.Qdldl R) (θ0 : A.prob.Vec) (pipe : Pipeline.St R S A.prob) (x y : List R) :
    ∃ W delta g, view (GradArr.init (GradRef.exact sqrt eps tol) A θ0 pipe x y) =
      GradPipe.init (libOf A Q sqrt eps tol) A.toG θ0 pipe (fn x, fn y) W delta g := by
  have e := Verif.Lemmas.GradRef.generated_eq (sqrt := sqrt) (eps := eps) (tol := tol) (n := A.dims.n) (N := A.toG.N) (NP := A.toG.NP)
    (P0 A θ0) (A0 A θ0)
  refine ⟨_, _, _, congrArg (fun w => (⟨pipe, fun _ => none, fun _ => none, fun _ => false, (fn x, fn y), w,
    List.replicate A.dims.n 0, List.replicate A.toG.NP 0⟩ : GradPipe.St R S A.toG)) e⟩

/-- **C98** (refinement): for every history the process down to the arrays runs without an access outside an array, and its state
represents the one of the model with index functions. -/
theorem C98_arrays [IsStrictOrderedRing R] (h : GradOK (libOf A Q sqrt eps tol) A.toG) (sg : Stgs S)
    (hd : "default_settings" ∉ sg.enabled) (big : R) (solver : SolverFn R S) (hsolver : SolverOK A.prob sg solver)
    (hsgn : ∀ n D s, SignOK (libOf A Q sqrt eps tol) A.toG (fn ((solver n D s).duals 0)))
    (hlen : ∀ n D s, (solver n D s).sol.length = A.dims.n ∧ ((solver n D s).duals 0).length = A.dims.nu)
    (order : List CId → List CId) (horder : ∀ l, (order l).Perm l)
    (junk : CId → Option (List R)) (a : UAbs R) (θ0 : A.prob.Vec) (hθ0 : θ0.1 = vector A.prob a.sent) (store used : String → S)
    (pvals : String → Option (List R)) (before : PObj R) (n : Nat) (x y : List R) (hx : x.length = A.dims.n) (hy : y.length = A.dims.nu)
    (hsol : SignOK (libOf A Q sqrt eps tol) A.toG (fn y)) {pL iL : List Nat} (ha : ArraysOK (GradRef.exact sqrt eps tol) A θ0 pL iL Q)
    (ops : List (GradPipe.Op R S))
    (hconv : ∀ k, Convex A.toG (vector A.prob (gafter A.prob sg solver ⟨a, fun _ => none, (fn x, fn y), n⟩ (ops.take k)).u.sent)) :
    ∃ F W delta g t, gen A.prob θ0 order = .ok F ∧ primInfo A.prob.vs = .ok F.pi ∧
      GradArr.run (GradRef.exact sqrt eps tol) Q A θ0 sg big solver F (GradArr.init (GradRef.exact sqrt eps tol) A θ0 ⟨a.vals, ⟨pvals,
        (canonGen A.prob.ps (A.prob.k.canonIds A.prob.quad) A.prob.quad A.prob.maps θ0).initMem
          (A.prob.k.solver A.prob.quad A.prob.lp) junk, store, used, none⟩, before, n⟩ x y) ops = some t ∧
      ArrInv (GradRef.exact sqrt eps tol) A θ0 pL iL t ∧
      GradPipe.run (libOf A Q sqrt eps tol) A.toG θ0 sg big solver F (GradPipe.init (libOf A Q sqrt eps tol) A.toG θ0 ⟨a.vals, ⟨pvals,
        (canonGen A.prob.ps (A.prob.k.canonIds A.prob.quad) A.prob.quad A.prob.maps θ0).initMem
          (A.prob.k.solver A.prob.quad A.prob.lp) junk, store, used, none⟩, before, n⟩ (fn x, fn y) W delta g) ops = some (view t) ∧
      GInv (libOf A Q sqrt eps tol) A.toG θ0 W delta g (view t) (gafter A.prob sg solver ⟨a, fun _ => none, (fn x, fn y), n⟩ ops) := by
  obtain ⟨W, delta, g, hinit⟩ := init_view (sqrt := sqrt) (eps := eps) (tol := tol) A Q θ0 (⟨a.vals, ⟨pvals,
        (canonGen A.prob.ps (A.prob.k.canonIds A.prob.quad) A.prob.quad A.prob.maps θ0).initMem
          (A.prob.k.solver A.prob.quad A.prob.lp) junk, store, used, none⟩, before, n⟩ : Pipeline.St R S A.prob) x y
  obtain ⟨F, -, hF, hpi, -⟩ := grad_history h sg hd big solver hsolver hsgn order horder junk a θ0 hθ0 store used pvals before n
    (fn x, fn y) hsol W delta g ops hconv
  refine ⟨F, W, delta, g, ?_⟩
  -- the abstract model at every prefix
  have hist : ∀ pre, (∀ k, Convex A.toG (vector A.prob (gafter A.prob sg solver ⟨a, fun _ => none, (fn x, fn y), n⟩ (pre.take k)).u.sent)) →
      ∃ st, GradPipe.run (libOf A Q sqrt eps tol) A.toG θ0 sg big solver F (GradPipe.init (libOf A Q sqrt eps tol) A.toG θ0 ⟨a.vals, ⟨pvals,
        (canonGen A.prob.ps (A.prob.k.canonIds A.prob.quad) A.prob.quad A.prob.maps θ0).initMem
          (A.prob.k.solver A.prob.quad A.prob.lp) junk, store, used, none⟩, before, n⟩ (fn x, fn y) W delta g) pre = some st ∧
        GInv (libOf A Q sqrt eps tol) A.toG θ0 W delta g st (gafter A.prob sg solver ⟨a, fun _ => none, (fn x, fn y), n⟩ pre) := by
    intro pre hpre
    obtain ⟨F', st, hF', -, h3, h4⟩ := grad_history h sg hd big solver hsolver hsgn order horder junk a θ0 hθ0 store used pvals before n
      (fn x, fn y) hsol W delta g pre hpre
    have hF : gen A.toG.prob θ0 order = .ok F := hF
    rw [hF] at hF'
    cases hF'
    exact ⟨st, h3, h4⟩
  induction ops using List.reverseRecOn with
  | nil =>
    obtain ⟨st, h3, h4⟩ := hist [] hconv
    refine ⟨_, hF, hpi, rfl, ⟨Verif.Lemmas.GradRef.start_between (arrays_generated h ha), hx, hy⟩, ?_, ?_⟩
    · rw [hinit]
      rfl
    · rw [hinit]
      cases h3
      exact h4
  | append_singleton ops op ih =>
    have hpre : ∀ k, Convex A.toG (vector A.prob (gafter A.prob sg solver ⟨a, fun _ => none, (fn x, fn y), n⟩ (ops.take k)).u.sent) := by
      intro k
      have := hconv (min k ops.length)
      rw [List.take_append_of_le_length (Nat.min_le_right _ _)] at this
      rcases Nat.le_total k ops.length with hk | hk
      · rw [Nat.min_eq_left hk] at this; exact this
      · rw [Nat.min_eq_right hk, List.take_length] at this
        rw [List.take_of_length_le hk]; exact this
    obtain ⟨t, -, -, r1, r2, r3, r4⟩ := ih hpre
    obtain ⟨st', h3, h4⟩ := hist (ops ++ [op]) hconv
    have h3' : GradPipe.step (libOf A Q sqrt eps tol) A.toG θ0 sg big solver F (view t) op = some st' := by
      unfold GradPipe.run at h3 r3
      rw [List.foldlM_append, r3] at h3
      have h3 : ([op].foldlM (GradPipe.step (libOf A Q sqrt eps tol) A.toG θ0 sg big solver F) (view t)) = some st' := h3
      rw [List.foldlM_cons] at h3
      have e : (GradPipe.step (libOf A Q sqrt eps tol) A.toG θ0 sg big solver F (view t) op >>= pure) = some st' := h3
      rw [bind_pure] at e
      exact e
    suffices key : ∃ t', GradArr.step (GradRef.exact sqrt eps tol) Q A θ0 sg big solver F t op = some t' ∧ view t' = st' ∧
        ArrInv (GradRef.exact sqrt eps tol) A θ0 pL iL t' by
      obtain ⟨t', k1, k2, k3⟩ := key
      refine ⟨t', hF, hpi, ?_, k3, by rw [k2]; exact h3, by rw [k2]; exact h4⟩
      unfold GradArr.run at r1 ⊢
      rw [List.foldlM_append, r1]
      show [op].foldlM (GradArr.step (GradRef.exact sqrt eps tol) Q A θ0 sg big solver F) t = _
      rw [List.foldlM_cons, k1]
      rfl
    cases op with
    | setVal m v =>
      cases h3'
      exact ⟨_, rfl, rfl, ⟨r2.mem, r2.x, r2.y⟩⟩
    | setGrad m v =>
      cases h3'
      exact ⟨_, rfl, rfl, ⟨r2.mem, r2.x, r2.y⟩⟩
    | solve u kw =>
      have h3' : (GradPipe.solve A.toG θ0 sg big solver F (view t) u kw).map Prod.fst = some st' := h3'
      cases hs : GradPipe.solve A.toG θ0 sg big solver F (view t) u kw with
      | none => rw [hs] at h3'; cases h3'
      | some pr =>
        rw [hs] at h3'
        cases h3'
        obtain ⟨t', s1, s2, s3, s4⟩ := solve_view A.toG θ0 sg big solver F t u kw hs
        refine ⟨t', ?_, s2, ?_⟩
        · show (GradArr.solve A.toG θ0 sg big solver F t u kw).map Prod.fst = _
          rw [s1]; rfl
        · refine ⟨by rw [s3]; exact r2.mem, ?_, ?_⟩
          · rcases s4 with ⟨e, _⟩ | ⟨_, _, _, e, _⟩
            · rw [e]; exact r2.x
            · rw [e]; exact (hlen _ _ _).1
          · rcases s4 with ⟨_, e⟩ | ⟨_, _, _, _, e⟩
            · rw [e]; exact r2.y
            · rw [e]; exact (hlen _ _ _).2
    | gradient =>
      have h3' : (GradPipe.gradient (libOf A Q sqrt eps tol) A.toG θ0 F (view t)).map Prod.fst = some st' := h3'
      cases hs : GradPipe.gradient (libOf A Q sqrt eps tol) A.toG θ0 F (view t) with
      | none => rw [hs] at h3'; cases h3'
      | some pr =>
        rw [hs] at h3'
        cases h3'
        obtain ⟨t', s1, s2, s3⟩ := gradient_view h ha F hpi t r2 r4.canon r4.dx hs
        refine ⟨t', ?_, s2, s3⟩
        show (GradArr.gradient (GradRef.exact sqrt eps tol) Q A F t).map Prod.fst = _
        rw [s1]; rfl

/-- **C98 (partial)** As C70, down to the arrays of the C code: for every history of assignments, solves and gradients, whether they
raise or not, every access to the arrays of the differentiation code is within bounds; if now every variable has a gradient of its
shape, `cpg_gradient` succeeds and assigns to the parameters the gradient at the instance solved last, up to `eps` times the last
correction of the iterative refinement. Missing: what is missing in C70; rounding. -/
theorem C98_partial [IsStrictOrderedRing R] (h : GradOK (libOf A Q sqrt eps tol) A.toG) (sg : Stgs S)
    (hd : "default_settings" ∉ sg.enabled) (big : R) (solver : SolverFn R S) (hsolver : SolverOK A.prob sg solver)
    (hsgn : ∀ n D s, SignOK (libOf A Q sqrt eps tol) A.toG (fn ((solver n D s).duals 0)))
    (hlen : ∀ n D s, (solver n D s).sol.length = A.dims.n ∧ ((solver n D s).duals 0).length = A.dims.nu)
    (order : List CId → List CId) (horder : ∀ l, (order l).Perm l)
    (junk : CId → Option (List R)) (a : UAbs R) (θ0 : A.prob.Vec) (hθ0 : θ0.1 = vector A.prob a.sent) (store used : String → S)
    (pvals : String → Option (List R)) (before : PObj R) (n : Nat) (x y : List R) (hx : x.length = A.dims.n) (hy : y.length = A.dims.nu)
    (hsol : SignOK (libOf A Q sqrt eps tol) A.toG (fn y)) {pL iL : List Nat} (ha : ArraysOK (GradRef.exact sqrt eps tol) A θ0 pL iL Q)
    (ops : List (GradPipe.Op R S))
    (hconv : ∀ k, Convex A.toG (vector A.prob (gafter A.prob sg solver ⟨a, fun _ => none, (fn x, fn y), n⟩ (ops.take k)).u.sent))
    (hplain : ∀ p ∈ A.prob.tps, p.attr = .plain)
    (gr : String → List Nat → R) (hgr : ∀ v ∈ A.prob.vs, ∃ arr,
      (gafter A.prob sg solver ⟨a, fun _ => none, (fn x, fn y), n⟩ ops).vgrad v.name = some arr ∧ arr.shape = v.shape ∧
        arr.val = gr v.name) :
    ∃ F t t', gen A.prob θ0 order = .ok F ∧
      GradArr.run (GradRef.exact sqrt eps tol) Q A θ0 sg big solver F (GradArr.init (GradRef.exact sqrt eps tol) A θ0 ⟨a.vals, ⟨pvals,
        (canonGen A.prob.ps (A.prob.k.canonIds A.prob.quad) A.prob.quad A.prob.maps θ0).initMem
          (A.prob.k.solver A.prob.quad A.prob.lp) junk, store, used, none⟩, before, n⟩ x y) ops = some t ∧
      GradArr.gradient (GradRef.exact sqrt eps tol) Q A F t = some (t', .ok ()) ∧
      RightGradients (libOf A Q sqrt eps tol) A.toG (gafter A.prob sg solver ⟨a, fun _ => none, (fn x, fn y), n⟩ ops) gr (view t') := by
  obtain ⟨F, W, delta, g, t, h1, hpi, h2, h3, -, h4⟩ := C98_arrays h sg hd big solver hsolver hsgn hlen order horder junk a θ0 hθ0 store used
    pvals before n x y hx hy hsol ha ops hconv
  obtain ⟨st', r, k1, _, k2, _, k3⟩ := grad_step h θ0 F hpi W delta g (view t) _ h4
  have hfit : Fits A.prob.vs (gafter A.prob sg solver ⟨a, fun _ => none, (fn x, fn y), n⟩ ops).vgrad := by
    intro v hv
    obtain ⟨arr, r1, r2, _⟩ := hgr v hv
    exact ⟨arr, r1, by rw [r2]⟩
  have hfull : Full A.prob.tps := by
    intro p hp
    unfold slots
    rw [hplain p hp]
    exact (size_prod _).symm
  have hr := k2.2 ⟨hfit, hfull⟩
  subst hr
  obtain ⟨t', s1, rfl, _⟩ := gradient_view h ha F hpi t h3 h4.canon h4.dx k1
  refine ⟨F, t, t', h1, h2, s1, k3 hfit hfull ?_ gr hgr⟩
  intro p hp k _
  unfold slotIdx
  rw [hplain p hp]

/-- When `cpg_gradient` raises: after every history exactly if some variable has no gradient or one of a wrong size, or some parameter
is diagonal or sparse; never because of an access outside an array. -/
theorem C98_accepts [IsStrictOrderedRing R] (h : GradOK (libOf A Q sqrt eps tol) A.toG) (sg : Stgs S)
    (hd : "default_settings" ∉ sg.enabled) (big : R) (solver : SolverFn R S) (hsolver : SolverOK A.prob sg solver)
    (hsgn : ∀ n D s, SignOK (libOf A Q sqrt eps tol) A.toG (fn ((solver n D s).duals 0)))
    (hlen : ∀ n D s, (solver n D s).sol.length = A.dims.n ∧ ((solver n D s).duals 0).length = A.dims.nu)
    (order : List CId → List CId) (horder : ∀ l, (order l).Perm l)
    (junk : CId → Option (List R)) (a : UAbs R) (θ0 : A.prob.Vec) (hθ0 : θ0.1 = vector A.prob a.sent) (store used : String → S)
    (pvals : String → Option (List R)) (before : PObj R) (n : Nat) (x y : List R) (hx : x.length = A.dims.n) (hy : y.length = A.dims.nu)
    (hsol : SignOK (libOf A Q sqrt eps tol) A.toG (fn y)) {pL iL : List Nat} (ha : ArraysOK (GradRef.exact sqrt eps tol) A θ0 pL iL Q)
    (ops : List (GradPipe.Op R S))
    (hconv : ∀ k, Convex A.toG (vector A.prob (gafter A.prob sg solver ⟨a, fun _ => none, (fn x, fn y), n⟩ (ops.take k)).u.sent)) :
    ∃ F t t' r, gen A.prob θ0 order = .ok F ∧
      GradArr.run (GradRef.exact sqrt eps tol) Q A θ0 sg big solver F (GradArr.init (GradRef.exact sqrt eps tol) A θ0 ⟨a.vals, ⟨pvals,
        (canonGen A.prob.ps (A.prob.k.canonIds A.prob.quad) A.prob.quad A.prob.maps θ0).initMem
          (A.prob.k.solver A.prob.quad A.prob.lp) junk, store, used, none⟩, before, n⟩ x y) ops = some t ∧
      GradArr.gradient (GradRef.exact sqrt eps tol) Q A F t = some (t', r) ∧
      (r = .ok () ↔ Fits A.prob.vs (gafter A.prob sg solver ⟨a, fun _ => none, (fn x, fn y), n⟩ ops).vgrad ∧ Full A.prob.tps) := by
  obtain ⟨F, W, delta, g, t, h1, hpi, h2, h3, -, h4⟩ := C98_arrays h sg hd big solver hsolver hsgn hlen order horder junk a θ0 hθ0 store used
    pvals before n x y hx hy hsol ha ops hconv
  obtain ⟨st', r, k1, _, k2, _, k3⟩ := grad_step h θ0 F hpi W delta g (view t) _ h4
  obtain ⟨t', s1, rfl, _⟩ := gradient_view h ha F hpi t h3 h4.canon h4.dx k1
  exact ⟨F, t, t', r, h1, h2, s1, k2⟩

/-- **C98 fails** for every problem with a diagonal parameter with at least two rows or with a sparse parameter that does not have
all entries: the code keeps to its arrays, but every call of `cpg_gradient` raises. -/
theorem C98_fails [IsStrictOrderedRing R] (h : GradOK (libOf A Q sqrt eps tol) A.toG)
    (hbad : (∃ p ∈ A.prob.tps, ∃ m, p.attr = .diag ∧ p.shape = [m, m] ∧ 2 ≤ m) ∨
      ∃ p ∈ A.prob.tps, ∃ c, p.attr = .sparse c ∧ c.length ≠ size p.shape) (sg : Stgs S)
    (hd : "default_settings" ∉ sg.enabled) (big : R) (solver : SolverFn R S) (hsolver : SolverOK A.prob sg solver)
    (hsgn : ∀ n D s, SignOK (libOf A Q sqrt eps tol) A.toG (fn ((solver n D s).duals 0)))
    (hlen : ∀ n D s, (solver n D s).sol.length = A.dims.n ∧ ((solver n D s).duals 0).length = A.dims.nu)
    (order : List CId → List CId) (horder : ∀ l, (order l).Perm l)
    (junk : CId → Option (List R)) (a : UAbs R) (θ0 : A.prob.Vec) (hθ0 : θ0.1 = vector A.prob a.sent) (store used : String → S)
    (pvals : String → Option (List R)) (before : PObj R) (n : Nat) (x y : List R) (hx : x.length = A.dims.n) (hy : y.length = A.dims.nu)
    (hsol : SignOK (libOf A Q sqrt eps tol) A.toG (fn y)) {pL iL : List Nat} (ha : ArraysOK (GradRef.exact sqrt eps tol) A θ0 pL iL Q)
    (ops : List (GradPipe.Op R S))
    (hconv : ∀ k, Convex A.toG (vector A.prob (gafter A.prob sg solver ⟨a, fun _ => none, (fn x, fn y), n⟩ (ops.take k)).u.sent)) :
    ∃ F t t' e, gen A.prob θ0 order = .ok F ∧
      GradArr.run (GradRef.exact sqrt eps tol) Q A θ0 sg big solver F (GradArr.init (GradRef.exact sqrt eps tol) A θ0 ⟨a.vals, ⟨pvals,
        (canonGen A.prob.ps (A.prob.k.canonIds A.prob.quad) A.prob.quad A.prob.maps θ0).initMem
          (A.prob.k.solver A.prob.quad A.prob.lp) junk, store, used, none⟩, before, n⟩ x y) ops = some t ∧
      GradArr.gradient (GradRef.exact sqrt eps tol) Q A F t = some (t', .error e) := by
  obtain ⟨F, t, t', r, h1, h2, h3, h4⟩ := C98_accepts h sg hd big solver hsolver hsgn hlen order horder junk a θ0 hθ0 store used
    pvals before n x y hx hy hsol ha ops hconv
  cases r with
  | error e => exact ⟨F, t, t', e, h1, h2, h3⟩
  | ok _ =>
    have hfull := (h4.1 rfl).2
    exfalso
    rcases hbad with ⟨p, hp, m, e1, e2, e3⟩ | ⟨p, hp, c, e1, e2⟩
    · have := hfull p hp
      unfold slots at this
      rw [e1, e2] at this
      simp only [List.headD_cons, size, Nat.mul_one] at this
      have : m * 2 ≤ m * m := Nat.mul_le_mul_left m e3
      omega
    · have := hfull p hp
      unfold slots at this
      rw [e1] at this
      exact e2 this

end

/-! ### Concrete case: minimize `½ λ x²` subject to `x = a`, as for C70, with the arrays of C94. -/

/-- The problem of C70 with its index arrays. -/
noncomputable def exArr (diag : Bool) : AProb ℝ := ⟨(exGrad diag).prob, ⟨1, 1, 1, 1, 1⟩, [0, 1], [0], [0, 1], [0]⟩

noncomputable abbrev exArrLib (diag : Bool) : GradPipe.Lib ℝ := libOf (exArr diag) rQ Real.sqrt (1 / 1000000) (1 / 1000000000000)

theorem exArr_occ (diag : Bool) (r c : Nat) (hc : c < 1) (h : Verif.Spec.Factor.Occupied (exArr diag).toG.patP r c) : r = 0 := by
  obtain rfl : c = 0 := by omega
  obtain ⟨_, k, h1, h2, h3, _⟩ := h
  have h2 : k < 1 := h2
  obtain rfl : k = 0 := by omega
  exact h3.symm

theorem exArr_ok (diag : Bool) : GradOK (exArrLib diag) (exArr diag).toG := by
  have h := exGrad_ok diag
  have hv : Verif.Spec.Grad.ColValid 1 (exArr diag).toG.patP := by
    refine ⟨fun c hc => ?_, fun c hc k k' h1 h2 h3 => ?_⟩
    · obtain rfl : c = 0 := by omega
      exact Nat.zero_le _
    · obtain rfl : c = 0 := by omega
      have h3 : k' < 1 := h3
      omega
  refine ⟨h.prob, h.osqp, h.blocks, h.sym, h.q, h.l, h.u, h.P, h.A, h.nl, ⟨Nat.le_add_right .., hv, hv, ?_, ?_⟩, ?_, ⟨rfl, rfl⟩, ⟨rfl, rfl⟩, h.bounds,
    h.eps, h.sqrt, rFac_ok⟩
  · intro r c hc ho
    have hc : c < 1 := hc
    rw [exArr_occ diag r c hc ho]
    exact Nat.zero_lt_one
  · intro r c hc ho
    have hc : c < 1 := hc
    rw [exArr_occ diag r c hc ho]
    exact Nat.lt_succ_self 1
  · intro r c hc ho
    have hc : c < 1 := hc
    rw [exArr_occ diag r c hc ho]
    omega

theorem exArr_ent (diag : Bool) (θ : List ℝ) : Verif.Spec.Factor.ent (matP (exArr diag).toG θ) 0 0 = Verif.Spec.Factor.ent (matP (exGrad diag) θ) 0 0 ∧
    Verif.Spec.Factor.ent (matA (exArr diag).toG θ) 0 0 = Verif.Spec.Factor.ent (matA (exGrad diag) θ) 0 0 := by
  refine ⟨?_, ?_⟩ <;> simp [Verif.Spec.Factor.ent, matP, matA, exArr, exGrad, oneM]

theorem exArr_convex (diag : Bool) (θ : List ℝ) (h : Convex (exGrad diag) θ) : Convex (exArr diag).toG θ := by
  intro x
  have := h x
  show 0 ≤ ∑ i ∈ range 1, ∑ j ∈ range 1, _
  have h' : 0 ≤ ∑ i ∈ range 1, ∑ j ∈ range 1,
    x i * Verif.Spec.Grad.symUp (Verif.Spec.Factor.ent (matP (exGrad diag) θ)) i j * x j := this
  rw [sum_range_one, sum_range_one] at h' ⊢
  have e : Verif.Spec.Grad.symUp (Verif.Spec.Factor.ent (matP (exArr diag).toG θ)) 0 0 =
      Verif.Spec.Grad.symUp (Verif.Spec.Factor.ent (matP (exGrad diag) θ)) 0 0 := (exArr_ent diag θ).1
  rw [e]
  exact h'

theorem exArr_arrays (diag : Bool) (θ0 : (exArr diag).prob.Vec) (r : List ℝ) (h0 : θ0.1 = 1 :: 1 :: r) (hr : r.length = if diag then 1 else 0) :
    ArraysOK (GradRef.exact Real.sqrt (1 / 1000000 : ℝ) (1 / 1000000000000)) (exArr diag) θ0 [0, 1, 1] [1] rQ := by
  have he : (0 : ℝ) < 1 / 1000000 := by norm_num
  have hgen := rGenerated (R := ℝ) (sqrt := Real.sqrt) (tol := 1 / 1000000000000) he
  obtain ⟨d1, d2, -⟩ := exGrad_data diag 1 1 r θ0.1 h0 hr
  have hwf := (exGrad_ok diag).prob.wf
  have eP : P0 (exArr diag) θ0 = rOne 1 := by
    have e : canonVal ((exArr diag).prob.maps .P) true θ0.1 = some [1] := (canonVal_dataAt hwf θ0.1 θ0.2 .P).trans d1
    show mat [0, 1] [0] (canonVal ((exArr diag).prob.maps .P) true θ0.1) = _
    rw [e]
    rfl
  have eA : A0 (exArr diag) θ0 = rOne 1 := by
    have e : canonVal ((exArr diag).prob.maps .A) true θ0.1 = some [1] := (canonVal_dataAt hwf θ0.1 θ0.2 .A).trans d2
    show mat [0, 1] [0] (canonVal ((exArr diag).prob.maps .A) true θ0.1) = _
    rw [e]
    rfl
  refine ⟨hgen.patP, hgen.patA, rfl, rfl, ?_, ?_, hgen.solve⟩
  · rw [eP, eA]
    exact hgen.sym
  · rw [eP, eA]
    exact hgen.lib

/-- The theorem in the example: the derivative of `x` with respect to `a` is one, up to the refinement; all accesses to arrays are
within bounds. -/
example (big : ℝ) (before : PObj ℝ) :
    ∃ F t t', gen (exArr false).prob ⟨[1, 1], rfl⟩ id = .ok F ∧
      GradArr.run (GradRef.exact Real.sqrt (1 / 1000000 : ℝ) (1 / 1000000000000)) rQ (exArr false) ⟨[1, 1], rfl⟩ exStgs big exGradSolver F
        (GradArr.init (GradRef.exact Real.sqrt (1 / 1000000 : ℝ) (1 / 1000000000000)) (exArr false) ⟨[1, 1], rfl⟩
        ⟨fun _ => none, ⟨fun _ => none, (canonGen (exArr false).prob.ps ((exArr false).prob.k.canonIds (exArr false).prob.quad)
          (exArr false).prob.quad (exArr false).prob.maps ⟨[1, 1], rfl⟩).initMem
          ((exArr false).prob.k.solver (exArr false).prob.quad (exArr false).prob.lp) (fun _ => none), fun _ => 0, fun _ => 0, none⟩,
          before, 0⟩ [0] [0]) (exGradOps false) = some t ∧
      GradArr.gradient (GradRef.exact Real.sqrt (1 / 1000000 : ℝ) (1 / 1000000000000)) rQ (exArr false) F t = some (t', .ok ()) ∧
      ∃ h ga, t'.pgrad "a" = some h ∧ h [] = some ga ∧
        1 = ga + 1 / 1000000 * (arr t'.mem.delta 0 + 2 * arr t'.mem.delta 1) := by
  have hz : ((fn [0] : Nat → ℝ), (fn [0] : Nat → ℝ)) = (fun _ => 0, fun _ => 0) := by
    have : (fn [0] : Nat → ℝ) = fun _ => 0 := by
      funext k
      cases k <;> rfl
    rw [this]
  obtain ⟨F, t, t', h1, h2, h3, h4⟩ := C98_partial (exArr_ok false) exStgs (by decide) big exGradSolver (exGradSolver_ok false)
    (fun _ _ _ k h1 h2 => absurd h2 (Nat.not_lt.2 h1)) (fun _ _ _ => ⟨rfl, rfl⟩) id (fun l => List.Perm.refl l) (fun _ => none)
    exGradAbs.u ⟨[1, 1], rfl⟩ rfl (fun _ => 0) (fun _ => 0) (fun _ => none) before 0 [0] [0] rfl rfl
    (fun k h1 h2 => absurd h2 (Nat.not_lt.2 h1)) (exArr_arrays false _ [] rfl rfl) (exGradOps false)
    (fun k => exArr_convex false _ (by rw [hz]; exact exGrad_hconv false k)) (by
      intro p hp
      have hp : p ∈ (exGrad false).prob.tps := hp
      simp only [exGrad, List.mem_cons, List.not_mem_nil, or_false] at hp
      rcases hp with rfl | rfl <;> rfl) (fun _ _ => 1) (by
      intro v hv
      have hv : v ∈ (exGrad false).prob.vs := hv
      simp only [exGrad, List.mem_cons, List.not_mem_nil, or_false] at hv
      subst hv
      exact ⟨_, rfl, rfl, rfl⟩)
  refine ⟨F, t, t', h1, h2, h3, ?_⟩
  rw [hz] at h4
  obtain ⟨f, f1, f2⟩ := h4
  obtain ⟨v, e1, e2, e3, e4, e5⟩ := exGrad_after false
  have eu : (gafter (exArr false).prob exStgs exGradSolver ⟨exGradAbs.u, fun _ => none, (fun _ => 0, fun _ => 0), 0⟩ (exGradOps false)).u.sent
      = v.u.sent := by rw [← e1]; rfl
  have es : (gafter (exArr false).prob exStgs exGradSolver ⟨exGradAbs.u, fun _ => none, (fun _ => 0, fun _ => 0), 0⟩ (exGradOps false)).sol
      = v.sol := by rw [← e1]; rfl
  obtain ⟨h, k1, k2⟩ := f1 ⟨"a", [], .plain⟩ (by simp [exArr, exGrad])
  refine ⟨h, _, k1, k2 [] (by simp [Verif.Spec.Flatten.InBounds]), ?_⟩
  have ht : vector (exArr false).prob v.u.sent = [3, 2] := by
    simp [vector, exArr, exGrad, exLam, slotVec, slots, e2, e3]
  have ht' : vector (exArr false).prob (fun m _ => if m = "a" then 4 else 2) = [4, 2] := by
    simp [vector, exArr, exGrad, exLam, slotVec, slots]
  obtain ⟨a1, a2, a3, a5⟩ := exGrad_ent false 3 2 [] [3, 2] rfl rfl
  obtain ⟨b1, b2, b3, b5⟩ := exGrad_ent false 4 2 [] [4, 2] rfl rfl
  rw [← (exArr_ent false _).1] at a1 b1
  rw [← (exArr_ent false _).2] at a2 b2
  have a3 : vec (exArr false).toG [3, 2] .q 0 = 0 := a3
  have a5 : vec (exArr false).toG [3, 2] .u 0 = 3 := a5
  have b3 : vec (exArr false).toG [4, 2] .q 0 = 0 := b3
  have b5 : vec (exArr false).toG [4, 2] .u 0 = 4 := b5
  have hact : Verif.Spec.Grad.Active (libOf (exArr false) rQ Real.sqrt (1 / 1000000) (1 / 1000000000000)).tol v.sol.2 0 := by
    left
    rw [e4]
    show (-6 : ℝ) < -(1 / 1000000000000)
    norm_num
  have := f2 (fun m _ => if m = "a" then 4 else 2) (fun _ => 1) (fun _ => -2) (by
    rw [eu, es, ht, ht']
    unfold IsDerivative
    refine ⟨?_, ?_⟩
    · intro i hi
      obtain rfl : i = 0 := Nat.lt_one_iff.1 hi
      show ∑ j ∈ range 1, _ + _ + ∑ k ∈ range 1, _ = (0 : ℝ)
      rw [sum_range_one, sum_range_one, if_pos hact]
      rw [a1, a2, a3, b1, b2, b3]
      norm_num
    · intro k hk _
      obtain rfl : k = 0 := Nat.lt_one_iff.1 hk
      show ∑ j ∈ range 1, _ = _
      rw [sum_range_one]
      rw [a2, a5, b2, b5]
      norm_num)
  rw [eu, es] at this
  have c1 : varDot (exArr false).prob.vs (fun _ _ => 1) (fun _ => 1) = (1 : ℝ) := by
    simp [varDot, exArr, exGrad, UVar.size, size]
  have c2 : parDot (exArr false).prob.tps f (fun m idx => (if m = "a" then 4 else 2) - v.u.sent m idx) = f "a" [] := by
    simp [parDot, exArr, exGrad, exLam, size, unpos, e2, e3]
    norm_num
  rw [c1, c2] at this
  refine this.trans ?_
  show _ + (1 / 1000000 : ℝ) * (∑ i ∈ range 1, _ - ∑ k ∈ range 1, _) = _
  rw [sum_range_one, sum_range_one, if_pos hact]
  show _ + (1 / 1000000 : ℝ) * (arr t'.mem.delta 0 * 1 - arr t'.mem.delta 1 * -2) = _
  ring

/-- The hypotheses of `C98_fails` hold in the example with a diagonal matrix. -/
example : GradOK (exArrLib true) (exArr true).toG ∧
    (∃ p ∈ (exArr true).prob.tps, ∃ m, p.attr = .diag ∧ p.shape = [m, m] ∧ 2 ≤ m) ∧ SolverOK (exArr true).prob exStgs exGradSolver ∧
    ArraysOK (GradRef.exact Real.sqrt (1 / 1000000 : ℝ) (1 / 1000000000000)) (exArr true) ⟨[1, 1, 1], rfl⟩ [0, 1, 1] [1] rQ ∧
    (∀ n D s, (exGradSolver n D s).sol.length = 1 ∧ ((exGradSolver n D s).duals 0).length = 1) ∧
    ∀ k, Convex (exArr true).toG (vector (exArr true).prob
      (gafter (exArr true).prob exStgs exGradSolver exGradAbs ((exGradOps true).take k)).u.sent) :=
  ⟨exArr_ok true, ⟨_, List.mem_cons_of_mem _ (List.mem_cons_self ..), 2, rfl, rfl, le_refl 2⟩, exGradSolver_ok true,
    exArr_arrays true _ [1] rfl rfl, fun _ _ _ => ⟨rfl, rfl⟩, fun k => exArr_convex true _ (exGrad_hconv true k)⟩

end Verif.Props
