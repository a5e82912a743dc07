import Verif.Lemmas.Pipeline
/-!
C68: the generated Python method as a whole.
-/
namespace Verif.Props
open Verif.Model Verif.Model.Pipeline Verif.Model.Saved Verif.Model.Flatten Verif.Spec.Flatten Verif.Spec
open Verif.Spec.Pipeline Verif.Lemmas Verif.Lemmas.Flatten Verif.Lemmas.Pipeline

variable {R S : Type} [CommRing R] [DecidableEq R]

/-! ### flattened values -/

omit [CommRing R] [DecidableEq R] in
theorem ps_names (P : Prob R) : P.ps.map UParam.name = P.tps.map TParam.name := by
  simp only [Prob.ps, List.map_map]; rfl

omit [CommRing R] [DecidableEq R] in
theorem find_param {P : Prob R} (hn : (P.ps.map UParam.name).Nodup) {p : TParam} (hp : p ∈ P.tps) :
    (P.tps.find? fun q => q.name == p.name) = some p := by
  rw [ps_names] at hn
  generalize P.tps = l at hn hp
  induction l with
  | nil => simp at hp
  | cons q l ih =>
    rw [List.map_cons, List.nodup_cons] at hn
    rw [List.find?_cons]
    rcases List.mem_cons.1 hp with rfl | hp
    · simp
    · have : q.name ≠ p.name := fun e => hn.1 (e ▸ List.mem_map.2 ⟨p, hp, rfl⟩)
      rw [show (q.name == p.name) = false by simpa using this]
      exact ih hn.2 hp

omit [DecidableEq R] in
theorem flat_eq {P : Prob R} (h : ProbOK P) {p : TParam} (hp : p ∈ P.tps) (tv : String → Option (List Nat → R)) :
    P.flat tv p.name = (tv p.name).map (slotVec p) := by
  unfold Prob.flat
  rw [find_param h.wf.names hp]
  cases ht : tv p.name with
  | none => rfl
  | some t => exact delivered_eq p (h.params p hp) t

/-- The state of the user's view, with flattened arrays. -/
def absOf (P : Prob R) (a : UAbs R) : Spec.Abs R where
  vals := P.flat a.vals
  sent n := match P.tps.find? fun p => p.name == n with
    | some p => slotVec p (a.sent n)
    | none => []

omit [DecidableEq R] in
theorem absOf_sent {P : Prob R} (h : ProbOK P) (a : UAbs R) {p : TParam} (hp : p ∈ P.tps) :
    (absOf P a).sent p.name = slotVec p (a.sent p.name) := by
  simp only [absOf, find_param h.wf.names hp]

omit [DecidableEq R] in
theorem absOf_vector {P : Prob R} (h : ProbOK P) (a : UAbs R) : (absOf P a).vector P.ps = vector P a.sent := by
  unfold Abs.vector vector Prob.ps
  rw [List.flatMap_map]
  apply List.flatMap_congr
  intro p hp
  exact absOf_sent h a hp

omit [DecidableEq R] in
theorem good_iff {P : Prob R} (h : ProbOK P) (sg : Stgs S) (a : UAbs R) (u : Option (List String)) (kw : List (String × S)) :
    (GoodArgs P.ps sg u kw ∧ HaveValues P.ps (absOf P a).vals) ↔ Good P sg a u kw := by
  have h1 : (∀ L, u = some L → ∀ n ∈ L, ∃ p ∈ P.ps, p.name = n) ↔ ∀ L, u = some L → ∀ n ∈ L, ∃ p ∈ P.tps, p.name = n := by
    refine forall_congr' fun L => forall_congr' fun _ => forall_congr' fun n => forall_congr' fun _ => ?_
    simp only [Prob.ps, List.mem_map]
    constructor
    · rintro ⟨_, ⟨p, hp, rfl⟩, e⟩; exact ⟨p, hp, e⟩
    · rintro ⟨p, hp, e⟩; exact ⟨_, ⟨p, hp, rfl⟩, e⟩
  have h2 : HaveValues P.ps (absOf P a).vals ↔ ∀ p ∈ P.tps, ∃ t, a.vals p.name = some t := by
    constructor
    · intro hv p hp
      obtain ⟨v, hv⟩ := hv p.toU (List.mem_map.2 ⟨p, hp, rfl⟩)
      have : P.flat a.vals p.name = some v := hv
      rw [flat_eq h hp] at this
      cases ht : a.vals p.name with
      | none => rw [ht] at this; cases this
      | some t => exact ⟨t, rfl⟩
    · intro hv q hq
      obtain ⟨p, hp, rfl⟩ := List.mem_map.1 hq
      obtain ⟨t, ht⟩ := hv p hp
      refine ⟨slotVec p t, ?_⟩
      show P.flat a.vals p.name = _
      rw [flat_eq h hp, ht]; rfl
  constructor
  · rintro ⟨⟨a1, a2⟩, a3⟩; exact ⟨h1.1 a1, a2, h2.1 a3⟩
  · rintro ⟨a1, a2, a3⟩; exact ⟨⟨h1.2 a1, a2⟩, h2.2 a3⟩

omit [DecidableEq R] in
theorem transfer_vector {P : Prob R} (h : ProbOK P) (a : UAbs R) (u : Option (List String))
    (hv : ∀ p ∈ P.tps, ∃ t, a.vals p.name = some t) :
    ((absOf P a).transfer u).vector P.ps = vector P (a.transfer u).sent := by
  unfold Abs.vector vector Prob.ps
  rw [List.flatMap_map]
  apply List.flatMap_congr
  intro p hp
  obtain ⟨t, ht⟩ := hv p hp
  show ((absOf P a).transfer u).sent p.name = _
  simp only [Abs.transfer, UAbs.transfer]
  split
  · show (P.flat a.vals p.name).getD [] = _
    rw [flat_eq h hp, ht]; rfl
  · exact absOf_sent h a hp

/-! ### one call -/

/-- Concrete and expected state agree. -/
structure Agree {P : Prob R} (θ0 : P.Vec) (st : St R S P) (a : UAbs R) : Prop where
  inv : Inv (canonGen P.ps (P.k.canonIds P.quad) P.quad P.maps θ0) (P.k.solver P.quad P.lp) st.py.mem
  θ : st.py.mem.θ.1 = vector P a.sent
  vals : st.tvals = a.vals

theorem agree_sim {P : Prob R} (h : ProbOK P) {θ0 : P.Vec} {st : St R S P} {a : UAbs R} (g : Agree θ0 st a) :
    Sim (canonGen P.ps (P.k.canonIds P.quad) P.quad P.maps θ0) (P.k.solver P.quad P.lp)
      { st.py with vals := P.flat st.tvals } (absOf P a) := by
  refine ⟨g.inv, by rw [absOf_vector h]; exact g.θ, by simp only [absOf, g.vals], ?_, ?_⟩
  · intro q hq
    obtain ⟨p, hp, rfl⟩ := List.mem_map.1 hq
    show ((absOf P a).sent p.name).length = _
    rw [absOf_sent h a hp]
    simp [slotVec, TParam.toU, slots_eq]
  · intro q hq v hv
    obtain ⟨p, hp, rfl⟩ := List.mem_map.1 hq
    have hv : P.flat a.vals p.name = some v := hv
    rw [flat_eq h hp] at hv
    cases ht : a.vals p.name with
    | none => rw [ht] at hv; cases hv
    | some t =>
      rw [ht] at hv
      cases hv
      simp [slotVec, TParam.toU, slots_eq]

/-- The result of the solver arrives in the problem object. -/
theorem arrives {P : Prob R} (h : ProbOK P) (big : R) (F : Files) (hpi : primInfo P.vs = .ok F.pi) (ids : List Nat)
    (hids : dualIds P.idMaps = .ok ids) (hds : dualInfo P.k.dualSplit P.nEq P.con ids = .ok F.ds)
    (hlen : F.ds.length = P.cons.length)
    (htab : ∀ u c : Nat, P.cons[u]? = some c → ∃ (m : Nat) (cc : CCon), P.con[m]? = some cc ∧ follow P.idMaps c = .ok cc.id ∧
        F.ds[u]? = some { name := s!"d{u}"
                          vec := dualVec P.k.dualSplit P.nEq m
                          offset := dualStart P.k.dualSplit P.nEq P.con m
                          size := cc.size : DualEntry })
    (out : SolverOut R) (hsol : ∀ v ∈ P.vs, v.offset + solverSize v ≤ out.sol.length)
    (hdual : ∀ i, (out.duals i).length = dualLen P.k.dualSplit P.nEq P.con i) (d : R)
    (hd : ∀ x, objVal P.isMax (nonzeroD (P.maps .d)) x d = userObj P x d) (before : PObj R) :
    ∃ res o ret, readRes P F out (some [d]) = some res ∧
      save big (P.file F) (P.vs.map UVar.name) P.cons res before = .ok (o, ret) ∧ Solved P big out d o (.ok ret) := by
  obtain ⟨res, h1, h2, h3, h4, h5⟩ := readRes_ok h F hpi ids hids hds hlen htab out hsol hdual d
  have hdl : (P.file F).nDual ≤ P.cons.length := by simp [Prob.file, hlen]
  obtain ⟨o, ret, s1, s2, s3, _, s5⟩ := C63_stored big (P.file F) (P.vs.map UVar.name) P.cons res before hdl
  obtain ⟨t1, t2, t3⟩ := s3 rfl
  refine ⟨res, o, ret, h1, s1, ?_, ?_, ?_, ?_, ?_⟩
  · intro v hv
    have hmem : v.name ∈ P.vs.map UVar.name := List.mem_map.2 ⟨v, hv, rfl⟩
    have hl : (res.prim v.name).length = size v.shape := by
      rw [h2 v hv]; simp [UVar.size, size_prod]
    obtain ⟨f, hf, hf'⟩ := reshapeF_spec v.shape (res.prim v.name) hl
    refine ⟨res.prim v.name, f, ?_, hf, fun idx hi => ?_⟩
    · rw [s2 v.name hmem, if_pos]
      exact hmem
    · have hk : pos v.shape idx < v.size := by
        have := pos_lt v.shape idx hi
        rwa [size_prod] at this
      have hb := entryPos_bounds v (h.sym v hv) _ hk
      have hlt : entryPos v (pos v.shape idx) < out.sol.length := by have := hsol v hv; omega
      refine ⟨out.sol[entryPos v (pos v.shape idx)], ?_, List.getElem?_eq_getElem hlt⟩
      rw [hf' idx hi, h2 v hv, List.getElem?_map, List.getElem?_range hk]
      simp [fn, List.getElem?_eq_getElem hlt]
  · intro c hc
    obtain ⟨u, hu, e⟩ := List.getElem_of_mem hc
    have hcu : P.cons[u]? = some c := by rw [List.getElem?_eq_getElem hu, e]
    obtain ⟨m, cc, a1, a2, a3, a4⟩ := h3 u c hcu
    refine ⟨m, cc, res.dual u, a1, a2, ?_, a3, a4⟩
    rw [s5 c hc, if_neg (by simp [Prob.file])]
    refine lastFor_some P.cons res c _ u (by simp only [Prob.file]; omega) hcu fun k hk1 hk2 hk3 => ?_
    rw [List.getElem?_eq_getElem (by simp only [Prob.file] at hk2; omega)] at hk3
    have := (List.Nodup.getElem_inj_iff h.consDistinct).1 ((Option.some.inj hk3).trans e.symm)
    omega
  · rw [t1, h4, hd]; rfl
  · rw [t3, h4, hd]; rfl
  · rw [t2, h5]

/-- **C68 (partial)** For every problem with distinct names, a representable solution layout (`ProbOK`) and
every solver that depends on its data and the settings that reach it: generation succeeds, and for every
history of assignments of arrays to parameters and of calls of the method with any arguments, every call does
what is expected of CVXPY's own method with the parameters' last transferred values: each variable has the entries of the
solution that belong to it, each constraint the dual value of its own rows, value, status and returned value are
those of the user's objective; calls with bad arguments or missing values raise and leave the problem object as it is.
Missing, each with a counterexample: diagonal variables (C17), constraints listed repeatedly (C63), split duals without
inequalities (C18), sparse parameters with one entry (C50), settings of SCS after its creation (C21). -/
theorem C68_partial (P : Prob R) (h : ProbOK P) (sg : Stgs S) (hd : "default_settings" ∉ sg.enabled) (big : R)
    (solver : SolverFn R S) (hsolver : SolverOK P sg solver) (order : List CId → List CId) (horder : ∀ l, (order l).Perm l)
    (junk : CId → Option (List R)) (a : UAbs R) (θ0 : P.Vec) (hθ0 : θ0.1 = vector P a.sent) (store used : String → S)
    (pvals : String → Option (List R)) (before : PObj R) (n : Nat) (ops : List (TOp R S)) :
    ∃ F rs, gen P θ0 order = .ok F ∧
      run P θ0 sg big solver F ⟨a.vals, ⟨pvals, (canonGen P.ps (P.k.canonIds P.quad) P.quad P.maps θ0).initMem
        (P.k.solver P.quad P.lp) junk, store, used, none⟩, before, n⟩ ops = some rs ∧
      Follows P sg big solver a n before ops rs := by
  have hs : Sound (canonGen P.ps (P.k.canonIds P.quad) P.quad P.maps θ0) := canonGen_sound _ _ P.quad P.maps h.wf θ0
  have hg : Generated P.k P.quad P.lp (fun p => mapChanges (P.maps p) p.isUpper)
      (canonGen P.ps (P.k.canonIds P.quad) P.quad P.maps θ0) := ⟨h.possible, rfl, rfl, hs⟩
  obtain ⟨toks, pus', roots, never, g1, hf, ht⟩ := genBlock_ok _ (P.k.solver P.quad P.lp) order horder hg.static
  obtain ⟨pi, hpi, -⟩ := C17_primal_values (R := R) P.k P.vs h.varNames h.sym
  obtain ⟨ids, ds, hids, hds, hlen, htab⟩ := dual_table h
  refine ⟨⟨toks, pi, ds⟩, ?_⟩
  have hgen : gen P θ0 order = .ok ⟨toks, pi, ds⟩ := by
    unfold gen
    simp only [hpi, hids, hds, g1]
  -- all histories from all states that agree
  suffices key : ∀ (ops : List (TOp R S)) (st : St R S P) (a : UAbs R), Agree θ0 st a →
      ∃ rs, run P θ0 sg big solver ⟨toks, pi, ds⟩ st ops = some rs ∧ Follows P sg big solver a st.n st.obj ops rs by
    obtain ⟨rs, k1, k2⟩ := key ops ⟨a.vals, ⟨pvals, (canonGen P.ps (P.k.canonIds P.quad) P.quad P.maps θ0).initMem
        (P.k.solver P.quad P.lp) junk, store, used, none⟩, before, n⟩ a ⟨inv_init _ hs _ junk, hθ0, rfl⟩
    exact ⟨rs, hgen, k1, k2⟩
  intro ops
  induction ops with
  | nil => intro st a _; exact ⟨[], rfl, rfl⟩
  | cons op ops ih =>
    intro st a hag
    cases op with
    | setVal m t =>
      obtain ⟨rs, k1, k2⟩ := ih { st with tvals := fun m' => if m' = m then some t else st.tvals m' }
        { a with vals := fun m' => if m' = m then some t else a.vals m' }
        ⟨hag.inv, hag.θ, by simp only [hag.vals]⟩
      exact ⟨rs, k1, k2⟩
    | solve u kw =>
      obtain ⟨py, r, p1, p2⟩ := pySolve_ok h.possible h.wf θ0 sg hd hf (horder roots) ht
        { st.py with vals := P.flat st.tvals } (absOf P a) u kw (agree_sim h hag)
      rcases p2 with ⟨q1, q2, q3, q4⟩ | ⟨q1, q2, q3, _, _, e, q4⟩
      · have hgood : Good P sg a u kw := (good_iff h sg a u kw).1 ⟨q1, q2⟩
        have hvec := transfer_vector h a u hgood.2.2
        have hθlen : (vector P (a.transfer u).sent).length = totalSize P.ps := by
          rw [← hvec, ← q3.θ]; exact py.mem.θ.2
        cases r with
        | error e => exact q4.elim
        | ok obs =>
          obtain ⟨r1, r2, r3⟩ := q4
          rw [hvec] at r1 r2
          have hout : solver st.n obs.obs.data obs.settings
              = solver st.n (dataAt P (vector P (a.transfer u).sent)) (settingFor sg kw) :=
            hsolver.local' _ _ _ _ _ (fun p hp => by rw [r1 p hp]; exact canonVal_dataAt h.wf _ hθlen p) r3
          obtain ⟨c1, c2⟩ := const_read h _ hθlen
          have hoff : obs.obs.offset = some [constAt P (vector P (a.transfer u).sent)] := by
            rw [r2]; exact (canonVal_dataAt h.wf _ hθlen _).trans c1
          obtain ⟨res, o, ret, w1, w2, w3⟩ := arrives h big ⟨toks, pi, ds⟩ hpi ids hids hds hlen htab
            (solver st.n (dataAt P (vector P (a.transfer u).sent)) (settingFor sg kw)) (hsolver.sol _ _ _)
            (hsolver.duals _ _ _) _ c2 st.obj
          have hsolve : Pipeline.solve P θ0 sg big solver ⟨toks, pi, ds⟩ st u kw
              = some (⟨st.tvals, py, o, st.n + 1⟩, .ok ret) := by
            unfold Pipeline.solve
            rw [p1]
            dsimp only
            rw [hout, hoff, w1]
            dsimp only
            rw [w2]
          obtain ⟨rs, k1, k2⟩ := ih ⟨st.tvals, py, o, st.n + 1⟩ (a.transfer u)
            ⟨q3.inv, by rw [q3.θ, hvec], hag.vals⟩
          refine ⟨(o, .ok ret) :: rs, ?_, o, .ok ret, rs, rfl, Or.inl ⟨hgood, w3, k2⟩⟩
          rw [Pipeline.run, hsolve]
          dsimp only
          rw [k1]
      · subst q4
        have hbad : ¬ Good P sg a u kw := fun hgood => q1 ((good_iff h sg a u kw).2 hgood)
        have hsolve : Pipeline.solve P θ0 sg big solver ⟨toks, pi, ds⟩ st u kw = some ({ st with py := py }, .error e) := by
          unfold Pipeline.solve
          rw [p1]
        obtain ⟨rs, k1, k2⟩ := ih { st with py := py } a ⟨q2.inv, by rw [q2.θ, absOf_vector h], hag.vals⟩
        refine ⟨(st.obj, .error e) :: rs, ?_, st.obj, .error e, rs, rfl, Or.inr ⟨hbad, rfl, ⟨e, rfl⟩, k2⟩⟩
        rw [Pipeline.run, hsolve]
        dsimp only
        rw [k1]

/-! ### a concrete problem -/

/-- A scalar and a 2×2 parameter; `c = (a + M₁₀, 2 M₀₁)`, constant `A`, `b`, constant term `3 a + 1`. -/
def exPipeMaps : CId → Option (RawMap Int)
  | .c => some ⟨⟨2, 6, [(0, 0, 1), (0, 2, 1), (1, 3, 2)]⟩, fun _ => 1⟩
  | .d => some ⟨⟨1, 6, [(0, 0, 3), (0, 5, 1)]⟩, fun _ => 1⟩
  | .A => some ⟨⟨1, 6, [(0, 5, 1)]⟩, fun _ => -1⟩
  | .b => some ⟨⟨1, 6, [(0, 5, 7)]⟩, fun _ => 1⟩
  | _ => none

/-- Maximization with ECOS, a vector, another variable `w`, an inequality constraint (id 4) and an equality constraint
(id 9); the canonical problem has the equality constraint first. -/
def exPipe (w : UVar) (cons : List Nat) : Prob Int where
  k := .ecos
  quad := false
  lp := true
  tps := [⟨"a", [], .plain⟩, ⟨"M", [2, 2], .plain⟩]
  maps := exPipeMaps
  vs := [⟨"x", [2], false, 3⟩, w]
  cons := cons
  idMaps := [firstMap id cons, [(4, 11), (9, 10)]]
  con := [⟨10, 1⟩, ⟨11, 2⟩]
  nEq := 1
  isMax := true

/-- A symmetric matrix and a vector, both with three entries for the solver. -/
def exW (sym : Bool) : UVar := if sym then ⟨"w", [2, 2], true, 0⟩ else ⟨"w", [3], false, 0⟩

/-- A solver whose result depends on the number of the solve, on `c` and on a setting. -/
def exPipeSolver : SolverFn Int Int := fun n D s =>
  let c := fun i => (((D .c).getD [])[i]?).getD 0
  { sol := [c 0, c 1, n, s "max_iters", 50]
    duals := fun i => if i = 0 then [c 0 + 100] else [c 1 + 200, n + 300]
    obj := c 0 + c 1
    status := "ok"
    time := 0 }

theorem exPipe_ok (sym : Bool) : ProbOK (exPipe (exW sym) [4, 9]) := by
  refine ⟨by decide +revert, ⟨by decide +revert, by decide +revert, ?_, ?_⟩, ⟨_, rfl, rfl⟩, ?_, by decide +revert, ?_, by decide +revert, by decide +revert, by decide +revert,
    ⟨_, rfl⟩, ?_⟩
  · intro c m h
    cases c <;> simp [exPipe, exPipeMaps] at h <;> subst h <;> rfl
  · intro c hc
    cases c <;> simp_all [exPipe, exPipeMaps, Kind.canonIds]
  · intro p hp
    simp only [exPipe, List.mem_cons, List.not_mem_nil, or_false] at hp
    rcases hp with rfl | rfl
    · exact ⟨by decide, by decide, fun h => (by cases h), fun c h => (by cases h)⟩
    · exact ⟨by decide, by decide, fun h => (by cases h), fun c h => (by cases h)⟩
  · intro v hv h
    simp only [exPipe, List.mem_cons, List.not_mem_nil, or_false] at hv
    rcases hv with rfl | rfl
    · cases h
    · cases sym with
      | true => exact ⟨2, rfl⟩
      | false => cases h
  · intro c hc
    simp only [exPipe, List.mem_cons, List.not_mem_nil, or_false] at hc
    rcases hc with rfl | rfl
    · exact ⟨11, by decide +revert, rfl⟩
    · exact ⟨10, by decide +revert, rfl⟩

theorem exPipeSolver_ok (sym : Bool) (cons : List Nat) : SolverOK (exPipe (exW sym) cons) exStgs exPipeSolver := by
  refine ⟨?_, ?_, ?_⟩
  · intro n D s v hv
    simp only [exPipe, List.mem_cons, List.not_mem_nil, or_false] at hv
    have hl : (exPipeSolver n D s).sol.length = 5 := rfl
    rcases hv with rfl | rfl <;> rw [hl]
    · decide
    · cases sym <;> decide
  · intro n D s i
    simp only [exPipeSolver]
    by_cases h : i = 0
    · subst h; rfl
    · rw [if_neg h]
      simp only [dualLen, exPipe, h]
      rfl
  · intro n D D' s s' hD hs
    have h1 : D .c = D' .c := hD .c (show CId.c ∈ (Kind.ecos.solver false true).uses by decide)
    have h2 : s "max_iters" = s' "max_iters" := hs "max_iters" ⟨by decide, fun h => by cases h⟩
    simp only [exPipeSolver, h1, h2]

/-- A history with errors, partial updates and settings, reporting variables, duals and value. -/
def exPipeOps : List (TOp Int Int) :=
  [.solve none [], .setVal "a" (fun _ => 3), .setVal "M" (fun i => i.headD 0 + 10 * i.getLastD 0), .solve none [("maxit", 7)],
   .setVal "a" (fun _ => 20), .solve (some ["M"]) [], .solve (some ["t"]) [], .solve (some ["a"]) []]

def exPipeRun (cons : List Nat) (ops : List (TOp Int Int)) :
    Option (List (List (Option (List Int)) × Option (Val Int) × Bool)) :=
  match gen (exPipe (exW false) cons) ⟨[0, 0, 0, 0, 0], rfl⟩ id with
  | .error _ => none
  | .ok F => (Pipeline.run (exPipe (exW false) cons) ⟨[0, 0, 0, 0, 0], rfl⟩ exStgs (10 ^ 30) exPipeSolver F ⟨fun _ => none, ⟨fun _ => none,
      (canonGen (exPipe (exW false) cons).ps (Kind.ecos.canonIds false) false exPipeMaps ⟨[0, 0, 0, 0, 0], rfl⟩).initMem
        (Kind.ecos.solver false true) (fun _ => none), fun _ => 1, fun _ => 1, none⟩, ⟨fun _ => none, fun _ => none, none, none⟩, 0⟩
      ops).map fun rs => rs.map fun r =>
        ([r.1.prim "x", r.1.prim "w", r.1.dual 4, r.1.dual 9], r.1.value, match r.2 with | .ok _ => true | .error _ => false)

example : exPipeRun [4, 9] exPipeOps = some
    [([none, none, none, none], none, false),
     ([some [7, 50], some [4, 20, 0], some [220, 300], some [104]], some (.fin (-34)), true),
     ([some [100, 50], some [4, 20, 1], some [220, 301], some [104]], some (.fin (-34)), true),
     ([some [100, 50], some [4, 20, 1], some [220, 301], some [104]], some (.fin (-34)), false),
     ([some [100, 50], some [21, 20, 2], some [220, 302], some [121]], some (.fin (-102)), true)] := by
  decide +kernel

example : (⟨[0, 0, 0, 0, 0], rfl⟩ : (exPipe (exW true) [4, 9]).Vec).1 = vector (exPipe (exW true) [4, 9]) (fun _ _ => (0 : Int)) := by decide

/-- **C68 fails** for a problem that lists a constraint twice: the inequality constraint gets the dual value of the
equality constraint, which gets none. -/
theorem C68_fails : ∃ o, exPipeRun [4, 4, 9] [.setVal "a" (fun _ => 3), .setVal "M" (fun _ => 1), .solve none []]
      = some [([some [100, 50], some [4, 2, 0], some [104], none], o, true)] ∧
    follow (exPipe (exW false) [4, 4, 9]).idMaps 4 = .ok 11 ∧ follow (exPipe (exW false) [4, 4, 9]).idMaps 9 = .ok 10 :=
  ⟨some (.fin (-16)), by decide +kernel, by decide, by decide⟩

end Verif.Props
