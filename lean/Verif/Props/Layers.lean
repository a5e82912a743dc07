import Verif.Props.ExGrad
import Verif.Spec.Layers
/-! C72: forward and backward calls of CVXPYlayers in explicit mode. -/
namespace Verif.Props
open Verif.Model Verif.Model.Pipeline Verif.Model.Flatten Verif.Model.Explicit Verif.Model.ExPipe Verif.Model.GradPipe Verif.Model.ExGrad
open Verif.Model.Layers Verif.Model.Saved Verif.Spec Verif.Spec.Pipeline Verif.Spec.Explicit Verif.Spec.ExPipe Verif.Spec.GradPipe Verif.Spec.ExGrad
open Verif.Spec.Layers Verif.Lemmas Verif.Lemmas.Pipeline Verif.Lemmas.ExPipe

section
variable {R : Type} [Field R] [LinearOrder R] [IsStrictOrderedRing R] {E : EProb R}

theorem putVals_inv {θ0 : E.prob.Vec} {F : EFiles R} {T : XTab R} (names : List String) (l : List (String × (List Nat → R))) :
    ∀ (st : XSt E) (a : XAbs R), XInv θ0 F T st a →
      XInv θ0 F T { st with base := { st.base with tvals := (putVals names st.base.tvals l).1 } } (putV a (known names l)) := by
  induction l with
  | nil => intro st a inv; exact inv
  | cons e l ih =>
    obtain ⟨n, t⟩ := e
    intro st a inv
    by_cases hn : names.contains n = true
    · have h1 : putVals names st.base.tvals ((n, t) :: l) = putVals names (fun m => if m = n then some t else st.base.tvals m) l := if_pos hn
      have h2 : known names ((n, t) :: l) = (n, t) :: known names l := by
        unfold known
        rw [List.takeWhile_cons, if_pos hn]
      rw [h1, h2]
      exact ih { st with base := { st.base with tvals := fun m => if m = n then some t else st.base.tvals m } }
        { a with u := { a.u with vals := fun m => if m = n then some t else a.u.vals m } }
        ⟨⟨inv.agree.inv, inv.agree.θ, by simp only [inv.agree.vals]⟩, inv.vgrad, inv.calls⟩
    · have h1 : putVals names st.base.tvals ((n, t) :: l) = (st.base.tvals, false) := if_neg hn
      have h2 : known names ((n, t) :: l) = [] := by
        unfold known
        rw [List.takeWhile_cons, if_neg hn]
      rw [h1, h2]
      exact inv

theorem putVals_found (names : List String) (l : List (String × (List Nat → R))) :
    ∀ tv : String → Option (List Nat → R), (putVals names tv l).2 = true ↔ AllNamed names (l.map Prod.fst) := by
  induction l with
  | nil => intro tv; simp [putVals, AllNamed]
  | cons e l ih =>
    obtain ⟨n, t⟩ := e
    intro tv
    by_cases hn : names.contains n = true
    · have h1 : putVals names tv ((n, t) :: l) = putVals names (fun m => if m = n then some t else tv m) l := if_pos hn
      rw [h1, ih]
      have : n ∈ names := by simpa using hn
      simp [AllNamed, this]
    · have h1 : putVals names tv ((n, t) :: l) = (tv, false) := if_neg hn
      rw [h1]
      have : n ∉ names := by simpa using hn
      simp [AllNamed, this]

theorem putGrads_inv {θ0 : E.prob.Vec} {F : EFiles R} {T : XTab R} (names : List String) (l : List (String × Backward.Arr R)) :
    ∀ (st : XSt E) (a : XAbs R), XInv θ0 F T st a →
      XInv θ0 F T { st with vgrad := (putGrads names st.vgrad l).1 } (putG a (known names l)) := by
  induction l with
  | nil => intro st a inv; exact inv
  | cons e l ih =>
    obtain ⟨n, t⟩ := e
    intro st a inv
    by_cases hn : names.contains n = true
    · have h1 : putGrads names st.vgrad ((n, t) :: l) = putGrads names (fun m => if m = n then some t else st.vgrad m) l := if_pos hn
      have h2 : known names ((n, t) :: l) = (n, t) :: known names l := by
        unfold known
        rw [List.takeWhile_cons, if_pos hn]
      rw [h1, h2]
      exact ih { st with vgrad := fun m => if m = n then some t else st.vgrad m }
        { a with vgrad := fun m => if m = n then some t else a.vgrad m }
        ⟨inv.agree, by simp only [inv.vgrad], inv.calls⟩
    · have h1 : putGrads names st.vgrad ((n, t) :: l) = (st.vgrad, false) := if_neg hn
      have h2 : known names ((n, t) :: l) = [] := by
        unfold known
        rw [List.takeWhile_cons, if_neg hn]
      rw [h1, h2]
      exact inv

theorem putGrads_found (names : List String) (l : List (String × Backward.Arr R)) :
    ∀ gr : String → Option (Backward.Arr R), (putGrads names gr l).2 = true ↔ AllNamed names (l.map Prod.fst) := by
  induction l with
  | nil => intro tv; simp [putGrads, AllNamed]
  | cons e l ih =>
    obtain ⟨n, t⟩ := e
    intro tv
    by_cases hn : names.contains n = true
    · have h1 : putGrads names tv ((n, t) :: l) = putGrads names (fun m => if m = n then some t else tv m) l := if_pos hn
      rw [h1, ih]
      have : n ∈ names := by simpa using hn
      simp [AllNamed, this]
    · have h1 : putGrads names tv ((n, t) :: l) = (tv, false) := if_neg hn
      rw [h1]
      have : n ∉ names := by simpa using hn
      simp [AllNamed, this]

/-- State and view agree. -/
structure LInv (E : EProb R) (θ0 : E.prob.Vec) (F : EFiles R) (T : XTab R) (s : LSt E) (a : LAbs R) : Prop where
  x : XInv θ0 F T s.st a.x
  past : s.infos = a.past.map fun e => (e.1, some (T.leaf (thetaAt E F e.2)))

theorem all_contains (names l : List String) : (l.all fun n => names.contains n) = true ↔ AllNamed names l := by
  simp [AllNamed]

/-- One forward call. -/
theorem forward_step {S : Type} (h : EOK E) {θ0 : E.prob.Vec} {F : EFiles R} (hg : egen E θ0 = .ok F) {T : XTab R}
    (sol : List R → Nat → R) (clock : Nat → R) {s : LSt E} {a : LAbs R} (inv : LInv E θ0 F T s a) (ctx : Ctx) (vals : List (List Nat → R))
    (u : Option (List String)) (kw : List (String × S)) :
    ∃ s' res, Layers.forward E θ0 F T sol clock s ctx vals u kw = some (s', res) ∧
      LInv E θ0 F T s' (lastep E F T a (.forward ctx vals u kw)) ∧
      (AllNamed (E.tps.map (·.name)) ((ctx.params.zip vals).map Prod.fst) → AllNamed (E.vs.map UVar.name) ctx.vars →
        EGood E (putV a.x (known (E.tps.map (·.name)) (ctx.params.zip vals))).u u →
        ∃ θ o ret, (lastep E F T a (.forward ctx vals u kw)).past = a.past ++ [(ctx, θ)] ∧
          θ = limitVec E (vector E.prob ((putV a.x (known (E.tps.map (·.name)) (ctx.params.zip vals))).u.transfer u).sent) ∧
          Delivered E (sol (thetaAt E F θ)) (clock s.st.n) o (.ok ret) ∧ res = .ok (ctx.vars.map o.prim)) := by
  have i1 := putVals_inv (E.tps.map (·.name)) (ctx.params.zip vals) s.st a.x inv.x
  have hf := putVals_found (E.tps.map (·.name)) (ctx.params.zip vals) s.st.base.tvals
  have hst : lastep E F T a (.forward ctx vals u kw)
      = lafwd E F T a (putV a.x (known (E.tps.map (·.name)) (ctx.params.zip vals))) ctx vals u kw := rfl
  rw [hst]
  unfold Layers.forward
  generalize hx1 : putV a.x (known (E.tps.map (·.name)) (ctx.params.zip vals)) = x1 at i1 ⊢
  generalize putVals (E.tps.map (·.name)) s.st.base.tvals (ctx.params.zip vals) = pv at i1 hf ⊢
  obtain ⟨tv, found⟩ := pv
  dsimp only at i1 hf ⊢
  by_cases hn : AllNamed (E.tps.map (·.name)) ((ctx.params.zip vals).map Prod.fst)
  swap
  · have hff : found = false := by
      cases found with
      | false => rfl
      | true => exact absurd (hf.1 rfl) hn
    rw [hff]
    refine ⟨_, _, rfl, ?_, fun h => absurd h hn⟩
    have : lafwd E F T a x1 ctx vals u kw = { a with x := x1 } := if_neg hn
    rw [this]
    exact ⟨i1, inv.past⟩
  · have hff := hf.2 hn
    rw [hff]
    have ha : lafwd E F T a x1 ctx vals u kw = ⟨astep E F T x1 (.solve u kw), by
        classical
        exact if EGood E x1.u u ∧ AllNamed (E.vs.map UVar.name) ctx.vars then
          a.past ++ [(ctx, limitVec E (vector E.prob (x1.u.transfer u).sent))] else a.past⟩ := if_pos hn
    rw [ha]
    by_cases hgd : EGood E x1.u u
    · obtain ⟨st', ret, e1, e2, e3⟩ := xsolve_good h hg T sol clock i1 u kw hgd
      rw [if_pos rfl, e1]
      dsimp only
      by_cases hv : AllNamed (E.vs.map UVar.name) ctx.vars
      · rw [if_pos ((all_contains _ _).2 hv), if_pos ⟨hgd, hv⟩]
        refine ⟨_, _, rfl, ⟨e2, ?_⟩, fun _ _ _ => ⟨_, st'.base.obj, ret, rfl, rfl, e3, rfl⟩⟩
        rw [List.map_append, inv.past]
        rfl
      · rw [if_neg (fun hc => hv ((all_contains _ _).1 hc)), if_neg (fun hc => hv hc.2)]
        exact ⟨_, _, rfl, ⟨e2, inv.past⟩, fun _ hv' _ => absurd hv' hv⟩
    · obtain ⟨e, e1⟩ := xsolve_bad h F T sol clock i1 u kw hgd
      rw [if_pos rfl, e1, if_neg (fun hc => hgd hc.1)]
      refine ⟨_, _, rfl, ⟨?_, inv.past⟩, fun _ _ hgd' => absurd hgd' hgd⟩
      have : astep E F T x1 (.solve u kw) = x1 := if_neg hgd
      rw [this]
      exact i1

/-- One backward call. -/
theorem backward_step {S : Type} (h : EOK E) (hall : ExAllStored E.exGen) {θ0 : E.prob.Vec} {F : EFiles R} (hg : egen E θ0 = .ok F) {T : XTab R}
    {sol : List R → Nat → R} (hT : TableOK E F T sol) {s : LSt E} {a : LAbs R} (inv : LInv E θ0 F T s a) (k : Nat)
    (dvars : List (Backward.Arr R)) :
    ∃ s' res, Layers.backward E F T s k dvars = some (s', res) ∧ LInv E θ0 F T s' (lastep (S := S) E F T a (.backward k dvars)) ∧
      (∀ ctx θ, a.past[k]? = some (ctx, θ) → AllNamed (E.vs.map UVar.name) ((ctx.vars.zip dvars).map Prod.fst) →
        AllNamed (E.tps.map (·.name)) ctx.params → Full E.tps → (∀ p ∈ E.tps, ∀ k < slots p, slotIdx p k = unpos p.shape k) →
        ∀ gr : String → List Nat → R, (∀ v ∈ storedVars E, ∃ arr,
          (putG a.x (known (E.vs.map UVar.name) (ctx.vars.zip dvars))).vgrad v.name = some arr ∧ arr.shape = v.shape ∧
            arr.val = gr v.name) →
        ∃ gs, res = .ok gs ∧ RightL E F T θ gr ctx.params gs) := by
  unfold Layers.backward
  rw [inv.past, List.getElem?_map]
  cases hk : a.past[k]? with
  | none =>
    refine ⟨s, _, rfl, ?_, fun ctx θ hc => (by cases hc)⟩
    have : lastep (S := S) E F T a (.backward k dvars) = a := by
      show (match a.past[k]? with
        | none => a
        | some e => labwd E F T a (putG a.x (known (E.vs.map UVar.name) (e.1.vars.zip dvars))) e.1 e.2 dvars) = a
      rw [hk]
    rw [this]
    exact inv
  | some e =>
    obtain ⟨ctx, θ⟩ := e
    have i1 := putGrads_inv (E.vs.map UVar.name) (ctx.vars.zip dvars) s.st a.x inv.x
    have hf := putGrads_found (E.vs.map UVar.name) (ctx.vars.zip dvars) s.st.vgrad
    have hst : lastep (S := S) E F T a (.backward k dvars)
        = labwd E F T a (putG a.x (known (E.vs.map UVar.name) (ctx.vars.zip dvars))) ctx θ dvars := by
      show (match a.past[k]? with
        | none => a
        | some e => labwd E F T a (putG a.x (known (E.vs.map UVar.name) (e.1.vars.zip dvars))) e.1 e.2 dvars) = _
      rw [hk]
    rw [hst, Option.map_some]
    dsimp only
    generalize hx1 : putG a.x (known (E.vs.map UVar.name) (ctx.vars.zip dvars)) = x1 at i1 ⊢
    generalize putGrads (E.vs.map UVar.name) s.st.vgrad (ctx.vars.zip dvars) = pv at i1 hf ⊢
    obtain ⟨gr', found⟩ := pv
    dsimp only at i1 hf ⊢
    by_cases hn : AllNamed (E.vs.map UVar.name) ((ctx.vars.zip dvars).map Prod.fst)
    swap
    · have hff : found = false := by
        cases found with
        | false => rfl
        | true => exact absurd (hf.1 rfl) hn
      rw [hff]
      refine ⟨_, _, rfl, ?_, fun ctx' θ' hc hn' => ?_⟩
      · have : labwd E F T a x1 ctx θ dvars = { a with x := x1 } := if_neg hn
        rw [this]
        exact ⟨i1, rfl⟩
      · cases hc
        exact absurd hn' hn
    · have hff := hf.2 hn
      rw [hff, if_pos rfl]
      have ha : labwd E F T a x1 ctx θ dvars = { a with x := astep (S := Unit) E F T x1 (.gradient (some (T.leaf (thetaAt E F θ)))) } :=
        if_pos hn
      obtain ⟨h0, l1, l2, _⟩ := hT.leaf (thetaAt E F θ) (by rw [hT.params]; exact thetaAt_length h hg θ)
      obtain ⟨st', res, e1, e2, e3, e4, e5, e6⟩ := xgrad_step h hall hg hT.params _ x1 i1 (some (T.leaf (thetaAt E F θ)))
        (fun _ => ⟨_, rfl, h0, l1, l2⟩)
      rw [e1, ha]
      cases res with
      | error e =>
        dsimp only
        refine ⟨_, _, rfl, ⟨e2, rfl⟩, fun ctx' θ' hc _ hp hfull hord gr hgr => ?_⟩
        cases hc
        rw [hx1] at hgr
        have hfit : Fits (storedVars E) x1.vgrad := fun v hv => by
          obtain ⟨arr, r1, r2, _⟩ := hgr v hv
          exact ⟨arr, r1, by rw [r2]⟩
        cases e3.2 ⟨hfit, hfull⟩
      | ok _ =>
        dsimp only
        by_cases hp : AllNamed (E.tps.map (·.name)) ctx.params
        · rw [if_pos ((all_contains _ _).2 hp)]
          refine ⟨_, _, rfl, ⟨e2, rfl⟩, fun ctx' θ' hc _ _ hfull hord gr hgr => ?_⟩
          cases hc
          rw [hx1] at hgr
          have hfit : Fits (storedVars E) x1.vgrad := fun v hv => by
            obtain ⟨arr, r1, r2, _⟩ := hgr v hv
            exact ⟨arr, r1, by rw [r2]⟩
          obtain ⟨f, f1, f2⟩ := e6 hfit hfull hord gr hgr _ rfl
          refine ⟨_, rfl, by rw [List.length_map], f, fun p hp i hi => ?_, f2⟩
          obtain ⟨g, g1, g2⟩ := f1 p hp
          exact ⟨g, by rw [List.getElem?_map, hi, Option.map_some, g1], g2⟩
        · rw [if_neg (fun hc => hp ((all_contains _ _).1 hc))]
          refine ⟨_, _, rfl, ⟨e2, rfl⟩, fun ctx' θ' hc _ hp' => ?_⟩
          cases hc
          exact absurd hp' hp

theorem lhistory {S : Type} (h : EOK E) (hall : ExAllStored E.exGen) {θ0 : E.prob.Vec} {F : EFiles R} (hg : egen E θ0 = .ok F) {T : XTab R}
    {sol : List R → Nat → R} (hT : TableOK E F T sol) (clock : Nat → R) (ops : List (LOp R S)) :
    ∀ (s : LSt E) (a : LAbs R), LInv E θ0 F T s a → LAsked E F T a ops →
      ∃ s', lrun E θ0 F T sol clock s ops = some s' ∧ LInv E θ0 F T s' (laafter E F T a ops) := by
  induction ops with
  | nil => intro s a inv _; exact ⟨s, rfl, inv⟩
  | cons op ops ih =>
    intro s a inv hask
    have cont : ∀ s1, lstep E θ0 F T sol clock s op = some s1 → LInv E θ0 F T s1 (lastep E F T a op) →
        ∃ s', lrun E θ0 F T sol clock s (op :: ops) = some s' ∧ LInv E θ0 F T s' (laafter E F T a (op :: ops)) := by
      intro s1 h1 h2
      obtain ⟨s', k1, k2⟩ := ih s1 _ h2 (fun pre post r e => hask (op :: pre) post r (by rw [e]; rfl))
      refine ⟨s', ?_, k2⟩
      unfold lrun at k1 ⊢
      rw [List.foldlM_cons, h1]
      exact k1
    cases op with
    | user op =>
      obtain ⟨st', k1, k2⟩ := xhistory h hall hg hT.params sol clock [op] s.st a.x inv.x (by
        intro pre post r e
        cases pre with
        | nil =>
          cases e
          exact hask [] ops r rfl
        | cons o pre => cases pre <;> cases e)
      have hs : xstep E θ0 F T sol clock s.st op = some st' := by
        unfold xrun at k1
        rw [List.foldlM_cons] at k1
        cases hx : xstep E θ0 F T sol clock s.st op with
        | none => rw [hx] at k1; cases k1
        | some st1 => rw [hx] at k1; exact k1
      refine cont { s with st := st' } ?_ ⟨k2, inv.past⟩
      simp only [lstep, hs, Option.map_some]
    | forward ctx vals u kw =>
      obtain ⟨s', res, e1, e2, _⟩ := forward_step h hg sol clock inv ctx vals u kw
      refine cont s' ?_ e2
      simp only [lstep, e1, Option.map_some]
    | backward k dvars =>
      obtain ⟨s', res, e1, e2, _⟩ := backward_step (S := S) h hall hg hT inv k dvars
      refine cont s' ?_ e2
      simp only [lstep, e1, Option.map_some]

/-- The gradients assigned in a backward call are its own, for the variables it names once. -/
theorem putG_get (a : XAbs R) (n : String) (g : Backward.Arr R) (l : List (String × Backward.Arr R)) (hnd : (l.map Prod.fst).Nodup)
    (hm : (n, g) ∈ l) : (putG a l).vgrad n = some g := by
  induction l generalizing a with
  | nil => cases hm
  | cons e l ih =>
    rw [List.map_cons, List.nodup_cons] at hnd
    have keep : ∀ (l : List (String × Backward.Arr R)) (b : XAbs R), n ∉ l.map Prod.fst → (putG b l).vgrad n = b.vgrad n := by
      intro l
      induction l with
      | nil => intro b _; rfl
      | cons e l ih =>
        intro b hn
        rw [List.map_cons, List.mem_cons, not_or] at hn
        refine (ih _ hn.2).trans ?_
        exact if_neg hn.1
    rcases List.mem_cons.1 hm with rfl | hm
    · refine (keep l _ hnd.1).trans ?_
      exact if_pos rfl
    · exact ih _ hnd.2 hm

theorem known_all {α : Type} (names : List String) (l : List (String × α)) (hn : AllNamed names (l.map Prod.fst)) : known names l = l := by
  induction l with
  | nil => rfl
  | cons e l ih =>
    have h1 : names.contains e.1 = true := by simpa using hn e.1 (by simp)
    have h2 := ih fun n hm => hn n (by rw [List.map_cons]; exact List.mem_cons_of_mem _ hm)
    unfold known at h2 ⊢
    rw [List.takeWhile_cons, if_pos h1, h2]

theorem vector_congr (P : Prob R) (t t' : String → List Nat → R) (h : ∀ p ∈ P.tps, t p.name = t' p.name) : vector P t = vector P t' := by
  unfold vector
  generalize P.tps = l at h
  induction l with
  | nil => rfl
  | cons p l ih =>
    rw [List.flatMap_cons, List.flatMap_cons, h p (List.mem_cons_self ..), ih fun q hq => h q (List.mem_cons_of_mem _ hq)]

/-- The process after import. -/
def linit (E : EProb R) (θ0 : E.prob.Vec) (vals : String → Option (List Nat → R)) (before : PObj R) : LSt E := ⟨xinit E θ0 vals before, []⟩

/-- **C72 (partial)** For every interleaving of forward and backward calls of CVXPYlayers with each other and with operations of the
user: a backward call of the context of any earlier forward call returns the gradients of the parameters with respect to the affine
law that holds at the parameters of that forward call, for the gradients passed to this backward call. Unlike outside of explicit mode
(C51) forward calls in between do not matter.
Missing: as for C71; contexts that lack a stored variable (C56). -/
theorem C72_partial {S : Type} (E : EProb R) (h : EOK E) (hall : ExAllStored E.exGen) (a : UAbs R) (θ0 : E.prob.Vec)
    (hθ0 : θ0.1 = vector E.prob a.sent) (ha : Admissible E θ0.1) (F : EFiles R) (hg : egen E θ0 = .ok F) (T : XTab R)
    (sol : List R → Nat → R) (hT : TableOK E F T sol) (clock : Nat → R) (before : PObj R) (ops : List (LOp R S))
    (hask : LAsked E F T ⟨⟨a, fun _ => none, none⟩, []⟩ ops) (hfull : Full E.tps)
    (hord : ∀ p ∈ E.tps, ∀ k < slots p, slotIdx p k = unpos p.shape k) :
    ∃ s, lrun E θ0 F T sol clock (linit E θ0 a.vals before) ops = some s ∧
      ∀ k ctx θ, (laafter E F T ⟨⟨a, fun _ => none, none⟩, []⟩ ops).past[k]? = some (ctx, θ) → ctx.vars.Nodup →
        AllNamed (E.vs.map UVar.name) ctx.vars → AllNamed (E.tps.map (·.name)) ctx.params → AllNamed ctx.vars ((storedVars E).map UVar.name) →
        ∀ gr : String → List Nat → R, ∀ dvars : List (Backward.Arr R), dvars.length = ctx.vars.length →
        (∀ v ∈ E.vs, ∀ i : Nat, ctx.vars[i]? = some v.name → ∃ arr, dvars[i]? = some arr ∧ arr.shape = v.shape ∧ arr.val = gr v.name) →
        ∃ s' gs, Layers.backward E F T s k dvars = some (s', .ok gs) ∧ RightL E F T θ gr ctx.params gs := by
  obtain ⟨s, k1, k2⟩ := lhistory h hall hg hT clock ops (linit E θ0 a.vals before) ⟨⟨a, fun _ => none, none⟩, []⟩
    ⟨xinit_inv h a θ0 hθ0 ha hg T before, rfl⟩ hask
  refine ⟨s, k1, fun k ctx θ hk hnd hv hp hst gr dvars hl hd => ?_⟩
  obtain ⟨s', res, e1, _, e3⟩ := backward_step (S := S) h hall hg hT k2 k dvars
  have hmap : (ctx.vars.zip dvars).map Prod.fst = ctx.vars := List.map_fst_zip (by omega)
  obtain ⟨gs, rfl, e4⟩ := e3 ctx θ hk (by rw [hmap]; exact hv) hp hfull hord gr (by
    rw [known_all _ _ (by rw [hmap]; exact hv)]
    intro v hvs
    have hvE : v ∈ E.vs := (List.mem_filter.1 hvs).1
    have hvc : v.name ∈ ctx.vars := hst v.name (List.mem_map_of_mem hvs)
    obtain ⟨i, hi⟩ := List.mem_iff_getElem?.1 hvc
    obtain ⟨arr, r1, r2, r3⟩ := hd v hvE i hi
    refine ⟨arr, putG_get _ _ _ _ (by rw [hmap]; exact hnd) ?_, r2, r3⟩
    rw [List.mem_iff_getElem?]
    exact ⟨i, by rw [List.getElem?_zip_eq_some]; exact ⟨hi, r1⟩⟩)
  exact ⟨s', gs, e1, e4⟩

/-- What a forward call does after any history: it returns the values that PDAQP's point for the parameters of this call has, and these
parameters are recorded for the backward call. -/
theorem C72_forward {S : Type} (E : EProb R) (h : EOK E) (hall : ExAllStored E.exGen) (a : UAbs R) (θ0 : E.prob.Vec)
    (hθ0 : θ0.1 = vector E.prob a.sent) (ha : Admissible E θ0.1) (F : EFiles R) (hg : egen E θ0 = .ok F) (T : XTab R)
    (sol : List R → Nat → R) (hT : TableOK E F T sol) (clock : Nat → R) (before : PObj R) (ops : List (LOp R S))
    (hask : LAsked E F T ⟨⟨a, fun _ => none, none⟩, []⟩ ops) (ctx : Ctx) (t : String → List Nat → R)
    (hp : ∀ n, n ∈ ctx.params ↔ n ∈ E.tps.map (·.name)) (hv : AllNamed (E.vs.map UVar.name) ctx.vars) (kw : List (String × S)) :
    let vals := ctx.params.map t
    let θ := limitVec E (vector E.prob t)
    ∃ s s' o ret, lrun E θ0 F T sol clock (linit E θ0 a.vals before) ops = some s ∧
      Layers.forward E θ0 F T sol clock s ctx vals none kw = some (s', .ok (ctx.vars.map o.prim)) ∧
      Delivered E (sol (thetaAt E F θ)) (clock s.st.n) o (.ok ret) ∧
      (laafter E F T ⟨⟨a, fun _ => none, none⟩, []⟩ (ops ++ [.forward ctx vals none kw])).past
        = (laafter E F T ⟨⟨a, fun _ => none, none⟩, []⟩ ops).past ++ [(ctx, θ)] := by
  intro vals θ
  obtain ⟨s, k1, k2⟩ := lhistory h hall hg hT clock ops (linit E θ0 a.vals before) ⟨⟨a, fun _ => none, none⟩, []⟩
    ⟨xinit_inv h a θ0 hθ0 ha hg T before, rfl⟩ hask
  obtain ⟨s', res, e1, _, e3⟩ := forward_step h hg sol clock k2 ctx vals none kw
  have hmap : (ctx.params.zip vals).map Prod.fst = ctx.params := List.map_fst_zip (by simp [vals])
  have hn : AllNamed (E.tps.map (·.name)) ((ctx.params.zip vals).map Prod.fst) := by
    rw [hmap]; exact fun n hm => (hp n).1 hm
  generalize hb : laafter E F T ⟨⟨a, fun _ => none, none⟩, []⟩ ops = b at e3
  have hget : ∀ n ∈ E.tps.map (·.name), (putV b.x (known (E.tps.map (·.name)) (ctx.params.zip vals))).u.vals n = some (t n) := by
    intro n hm
    rw [known_all _ _ hn]
    have hm := (hp n).2 hm
    have key : ∀ (l : List String) (x : XAbs R), (n ∈ l ∨ x.u.vals n = some (t n)) → (putV x (l.zip (l.map t))).u.vals n = some (t n) := by
      intro l
      induction l with
      | nil => intro x hx; rcases hx with hx | hx; cases hx; exact hx
      | cons m l ih =>
        intro x hx
        refine ih _ ?_
        by_cases hnm : n = m
        · right
          subst hnm
          exact if_pos rfl
        · rcases hx with hx | hx
          · left
            rcases List.mem_cons.1 hx with hx | hx
            · exact absurd hx hnm
            · exact hx
          · right
            exact (if_neg hnm).trans hx
    exact key ctx.params b.x (Or.inl hm)
  obtain ⟨θ', o, ret, r1, r2, r3, r4⟩ := e3 hn hv ⟨fun L hL => (by cases hL), fun p hp => ⟨t p.name, hget _ (List.mem_map_of_mem hp)⟩⟩
  have hθ : θ' = θ := by
    rw [r2]
    congr 1
    exact vector_congr _ _ _ fun p hp => by
      have hnone : ∀ L, (none : Option (List String)) = some L → p.name ∈ L := fun L hL => (by cases hL)
      unfold UAbs.transfer
      dsimp only
      rw [if_pos hnone, hget p.name (List.mem_map_of_mem hp)]
      rfl
  rw [hθ] at r1 r3
  subst r4
  refine ⟨s, s', o, ret, k1, e1, r3, ?_⟩
  unfold laafter at hb ⊢
  rw [List.foldl_append, hb]
  exact r1

end

/-- The problem of C71's example: the first forward call is in the region where `x₀ = -a / (1 + 10⁻⁶)`, the second one where `x₀ = b`;
the results of the backward calls of both, in any order. -/
def exLRun (ops : List (LOp ℚ Int)) (k : Nat) : Option (List (Option ℚ)) :=
  match egen exX exEθ with
  | .error _ => none
  | .ok F => match lrun exX exEθ F exXT exESol (fun _ => 0) (linit exX exEθ (fun _ => none) ⟨fun _ => none, fun _ => none, none, none⟩) ops with
    | none => none
    | some s => match Layers.backward exX F exXT s k [⟨[3], fun i => if i = [0] then 2 else 9⟩, ⟨[], fun _ => 7⟩] with
      | some (_, .ok gs) => some (gs.map fun g => match g with
        | some g => g []
        | none => none)
      | _ => none

def exCtx : Ctx := ⟨["b", "a"], ["x", "y"]⟩

def exLOps : List (LOp ℚ Int) :=
  [.forward exCtx [fun _ => 4, fun _ => 3] none [], .forward exCtx [fun _ => -4, fun _ => 3] none []]

example : exLRun exLOps 0 = some [some 0, some (-2000000 / 1000001)] ∧ exLRun exLOps 1 = some [some 2, some 0] ∧
    exLRun (exLOps ++ [.backward 0 [⟨[3], fun _ => 1⟩, ⟨[], fun _ => 1⟩]]) 1 = some [some 2, some 0] ∧
    exLRun (exLOps ++ [.backward 1 [⟨[3], fun _ => 1⟩, ⟨[], fun _ => 1⟩], .user (.setVal "a" fun _ => 1), .user (.solve none [])]) 0
      = some [some 0, some (-2000000 / 1000001)] := by
  decide +kernel

/-- The hypotheses of C72 on contexts. -/
example : exCtx.vars.Nodup ∧ AllNamed (exX.vs.map UVar.name) exCtx.vars ∧ AllNamed (exX.tps.map (·.name)) exCtx.params ∧
    AllNamed exCtx.vars ((storedVars exX).map UVar.name) ∧ (∀ n, n ∈ exCtx.params ↔ n ∈ exX.tps.map (·.name)) := by
  refine ⟨by decide, by unfold AllNamed; decide, by unfold AllNamed; decide, by unfold AllNamed; decide, ?_⟩
  intro n
  have : exX.tps.map (·.name) = ["a", "b"] := rfl
  rw [this]
  simp [exCtx, or_comm]

/-- **C72 fails** for contexts that lack a stored variable: the gradient of an earlier backward call, of another context, is used. -/
theorem C72_fails_context :
    let ops : List (LOp ℚ Int) := [.forward exCtx [fun _ => 4, fun _ => 3] none [], .forward ⟨["a"], ["y"]⟩ [fun _ => 3] none []]
    let back := fun (pre : List (LOp ℚ Int)) => match egen exX exEθ with
      | .error _ => none
      | .ok F => match lrun exX exEθ F exXT exESol (fun _ => 0) (linit exX exEθ (fun _ => none) ⟨fun _ => none, fun _ => none, none, none⟩)
            (ops ++ pre) with
        | none => none
        | some s => match Layers.backward exX F exXT s 1 [⟨[], fun _ => 7⟩] with
          | some (_, .ok gs) => some (some (gs.map fun g => match g with
            | some g => g []
            | none => none))
          | some (_, .error _) => some none
          | none => none
    back [] = some none ∧ back [.backward 0 [⟨[3], fun _ => 2⟩, ⟨[], fun _ => 1⟩]] = some (some [some (-2000000 / 1000001)]) := by
  decide +kernel

end Verif.Props
