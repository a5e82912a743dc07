import Verif.Props.Settings
import Verif.Model.Again
import Verif.Spec.Again
/-!
# C100: solving the same instance again

Do the results of a solve depend on the parameter values and settings only, or also on earlier solves?
-/
namespace Verif.Props
open Verif.Model Verif.Spec Verif.Lemmas Verif.Model.Memory Verif.Model.Settings Verif.Spec.Settings Verif.Model.Again Verif.Spec.Again
variable {Θ V Act S W X : Type}

/-- The library's result does not depend on what its object went through, if no point to start from is passed or the same one. -/
def Forgets (lib : Lib V S W X) : Prop := ∀ d s x w w', (lib.solve d s x w).1 = (lib.solve d s x w').1

/-- The property: there is one function that gives the results of all solves of all programs from the parameter values and the settings asked for. -/
def Repeatable (k : Kind) (quad lp : Bool) (g : Gen Θ V Act) (e : Env S) (on : S → Bool) (lib : Lib V S W X) (zero : X)
    (order : List CId → List CId) (junk : CId → V) : Prop :=
  ∃ F : Θ → (String → Option S) → X × V, ∀ ops : List (Op Act S), Compiles e.enabled ops → ∃ toks pus' s rs,
    genBlock (k.solver quad lp).pus g.quad g.changes order = .ok (toks, pus') ∧
    Again.run k e on lib g (k.solver quad lp) toks (Again.init k e lib zero g (k.solver quad lp) junk) ops = some (s, rs) ∧
    rs = List.zipWith F (solveParams g.assign g.θ0 (calls ops)) ((requested e.table e.table ops).map (stgsOf e))

/-- What the library gets at each solve. -/
def inputOf (sv : Solver) (e : Env S) (o : Obs V × (String → S)) : (CId → Option V) × (String → Option S) := (dataOf sv o.1, stgsOf e o.2)

/-- The program with the library runs exactly as without, and the results follow a function `G` that tells the library's results. -/
theorem again_run (k : Kind) (e : Env S) (on : S → Bool) (lib : Lib V S W X) (g : Gen Θ V Act) (sv : Solver) (toks : List Tok)
    (G : (CId → Option V) × (String → Option S) → Option X → X)
    (hG : ∀ d s x new w, (lib.solve d s x (objAfter k lib d s new w)).1 = G (d, s) x) : ∀ (ops : List (Op Act S)) (s : Again.State Θ V S W X)
    (st' : Settings.State Θ V S) (outs : List (Obs V × (String → S))), Settings.run k e g sv toks s.st ops = some (st', outs) →
    ∃ s' rs, Again.run k e on lib g sv toks s ops = some (s', rs) ∧ s'.st = st' ∧ rs.map Prod.snd = outs.map (fun o => o.1.offset) ∧
      rs.map Prod.fst = chained (fun o x => G (inputOf sv e o) x) (fun o => decide (k = .scs) && on (o.2 "warm_start")) s.sol outs := by
  intro ops
  induction ops with
  | nil =>
    intro s st' outs h
    simp only [Settings.run, Option.some.injEq, Prod.mk.injEq] at h
    obtain ⟨rfl, rfl⟩ := h
    exact ⟨s, [], rfl, rfl, rfl, rfl⟩
  | cons op ops ih =>
    intro s st' outs h
    obtain ⟨st1, o, os, h1, h2, rfl⟩ := run_cons h
    have hcase : o = [] ∨ ∃ ob used, o = [(ob, used)] := by
      cases op with
      | update a => simp only [Settings.step, Option.some.injEq, Prod.mk.injEq] at h1; exact .inl h1.2.symm
      | reset => simp only [Settings.step, Option.some.injEq, Prod.mk.injEq] at h1; exact .inl h1.2.symm
      | set n v =>
        simp only [Settings.step] at h1
        split at h1
        · simp only [Option.some.injEq, Prod.mk.injEq] at h1; exact .inl h1.2.symm
        · cases h1
      | solve =>
        obtain ⟨_, ob, _, _, _, _, ho⟩ := step_solve h1
        exact .inr ⟨ob, _, ho⟩
    rcases hcase with rfl | ⟨ob, used, rfl⟩
    · obtain ⟨s', rs, h3, h4, h5, h6⟩ := ih { s with st := st1 } st' os h2
      refine ⟨s', rs, ?_, h4, h5, h6⟩
      simp only [Again.run, Again.step, h1, h3, List.nil_append]
    · let w := objAfter k lib (dataOf sv ob) (stgsOf e used) (st1.mem.calls.take (st1.mem.calls.length - s.st.mem.calls.length)) s.obj
      let r := lib.solve (dataOf sv ob) (stgsOf e used) (startOf k on used s.sol) w
      obtain ⟨s', rs, h3, h4, h5, h6⟩ := ih ⟨st1, r.2, r.1⟩ st' os h2
      have hr : r.1 = G (inputOf sv e (ob, used)) (startOf k on used s.sol) := hG _ _ _ _ _
      have hst : startOf k on used s.sol = if (decide (k = .scs) && on (used "warm_start")) = true then some s.sol else none := by
        unfold startOf
        simp only [Bool.and_eq_true, decide_eq_true_eq]
      refine ⟨s', (r.1, ob.offset) :: rs, ?_, h4, by rw [List.map_cons, h5]; rfl, ?_⟩
      · simp only [Again.run, Again.step, h1]
        rw [show (⟨st1, r.2, r.1⟩ : Again.State Θ V S W X) = ⟨st1, r.2, r.1⟩ from rfl] at h3
        rw [h3]
        rfl
      · rw [List.map_cons, h6]
        simp only [List.singleton_append, chained]
        rw [← hst, ← hr]

/-- The library's function: for Clarabel that of a new object. -/
theorem again_function {k : Kind} (lib : Lib V S W X) (hl : k = .clarabel ∨ Forgets lib) (d : CId → Option V) (s : String → Option S) (x : Option X)
    (new : List CId) (w : W) : (lib.solve d s x (objAfter k lib d s new w)).1 = (lib.solve d s x (lib.made d s)).1 := by
  rcases hl with rfl | hl
  · rfl
  · exact hl _ _ _ _ _

/-- Without a start. -/
theorem chained_cold {D : Type} (F : D → Option X → X) : ∀ (ds : List D) (x : X), chained F (fun _ => false) x ds = ds.map fun d => F d none
  | [], _ => rfl
  | d :: ds, x => by
    simp only [chained, Bool.false_eq_true, if_false, List.map_cons]
    rw [chained_cold F ds]

theorem zip_fst_snd {A B : Type} : ∀ (l : List (A × B)) (as : List A) (bs : List B), l.map Prod.fst = as → l.map Prod.snd = bs → l = List.zip as bs
  | [], _, _, rfl, rfl => rfl
  | (a, b) :: l, _, _, rfl, rfl => by
    simp only [List.map_cons, List.zip_cons_cons]
    rw [← zip_fst_snd l _ _ rfl rfl]

theorem dataOf_fresh {g : Gen Θ V Act} {sv : Solver} {θ : Θ} {o : Obs V} (h : Fresh g.canonOf sv.uses θ o) :
    dataOf sv o = fun p => if sv.uses.contains p then some (g.canonOf p θ) else none := by
  funext p
  unfold dataOf
  split
  · rename_i hp
    rw [h.1 p (by simpa using hp)]
  · rfl

theorem stgsOf_agree {e : Env S} {u v : String → S} (h : Agree (· ∈ e.enabled) u v) : stgsOf e v = stgsOf e u := by
  funext n
  unfold stgsOf
  split
  · rename_i hn
    rw [h n (by simpa using hn)]
  · rfl

/-- **C100** The property holds for all solvers except SCS, if every solve works with the settings asked for (C86) and the library forgets; for
Clarabel whatever the library does, since it gets a new object at every solve. -/
theorem C100_partial {k : Kind} (hk : k ≠ .scs) {quad lp : Bool} {b : CId → Bool} {g : Gen Θ V Act} (hg : Generated k quad lp b g) (e : Env S)
    (on : S → Bool) (lib : Lib V S W X) (hl : k = .clarabel ∨ Forgets lib) (zero : X) (order : List CId → List CId)
    (horder : ∀ l, (order l).Perm l) (junk : CId → V) (hs : SettingsHold k quad lp g e order junk) :
    Repeatable k quad lp g e on lib zero order junk := by
  refine ⟨fun θ s =>
    let d : CId → Option V := fun p => if (k.solver quad lp).uses.contains p then some (g.canonOf p θ) else none
    ((lib.solve d s none (lib.made d s)).1, g.canonOf .d θ), fun ops hc => ?_⟩
  obtain ⟨toks, pus', st, outs, h1, h2, h3⟩ := hs ops hc
  obtain ⟨toks', pus'', st', outs', h1', h2', _, h4⟩ := C86_data hg e order horder junk ops hc
  rw [h1] at h1'
  simp only [Except.ok.injEq, Prod.mk.injEq] at h1'
  rw [← h1'.1, h2] at h2'
  simp only [Option.some.injEq, Prod.mk.injEq] at h2'
  rw [← h2'.2] at h4
  obtain ⟨s', rs, h5, _, h7, h8⟩ := again_run k e on lib g (k.solver quad lp) toks (fun i x => (lib.solve i.1 i.2 x (lib.made i.1 i.2)).1)
    (fun d s x new w => again_function lib hl d s x new w) ops (Again.init k e lib zero g (k.solver quad lp) junk) st outs h2
  refine ⟨toks, pus', s', rs, h1, h5, ?_⟩
  rw [decide_eq_false hk] at h8
  simp only [Bool.false_and] at h8
  rw [chained_cold] at h8
  rw [zip_fst_snd rs _ _ h8 h7]
  clear h5 h7 h8 h2 h2'
  generalize solveParams g.assign g.θ0 (calls ops) = θs at h4
  generalize requested e.table e.table ops = us at h3
  clear hc h1 h1'
  induction outs generalizing θs us with
  | nil =>
    cases h4
    rfl
  | cons o outs ih =>
    cases h4 with
    | cons ha hb =>
      cases h3 with
      | cons hc hd =>
        simp only [List.map_cons, List.zip_cons_cons, List.zipWith_cons_cons]
        rw [ih _ hb _ hd]
        simp only [inputOf]
        rw [dataOf_fresh ha, stgsOf_agree hc, ha.2]

/-- **C100, Clarabel.** The property holds for every library. -/
theorem C100_clarabel {quad lp : Bool} {b : CId → Bool} {g : Gen Θ V Act} (hg : Generated .clarabel quad lp b g) (e : Env S) (on : S → Bool)
    (lib : Lib V S W X) (zero : X) (order : List CId → List CId) (horder : ∀ l, (order l).Perm l) (junk : CId → V) :
    Repeatable .clarabel quad lp g e on lib zero order junk :=
  C100_partial (by decide) hg e on lib (.inl rfl) zero order horder junk
    (C86_partial (.inr (.inl rfl)) hg e (.inl rfl) order horder junk)

/-- **C100, SCS.** The exact results, if the library forgets: a solve starts from the result of the solve before (zeros at the first), whatever the
instance of that was and also if the workspace was created again in between, exactly if the current value of `warm_start` is on; the other settings
are those of C86. -/
theorem C100_scs {quad lp : Bool} {b : CId → Bool} {g : Gen Θ V Act} (hg : Generated .scs quad lp b g) (e : Env S) (on : S → Bool)
    (lib : Lib V S W X) (hl : Forgets lib) (zero : X) (order : List CId → List CId) (horder : ∀ l, (order l).Perm l) (junk : CId → V) :
    ∃ F : Θ × (String → S) → Option X → X, ∀ ops : List (Op Act S), Compiles e.enabled ops → ∃ toks pus' s rs,
      genBlock (Kind.scs.solver quad lp).pus g.quad g.changes order = .ok (toks, pus') ∧
      Again.run .scs e on lib g (Kind.scs.solver quad lp) toks (Again.init .scs e lib zero g (Kind.scs.solver quad lp) junk) ops = some (s, rs) ∧
      rs.map Prod.snd = (solveParams g.assign g.θ0 (calls ops)).map (g.canonOf .d) ∧
      rs.map Prod.fst = chained F (fun i => on (i.2 "warm_start")) zero ((solveParams g.assign g.θ0 (calls ops)).zip
        (atCreation (fun n => n == "warm_start") (((quad && b .P) || b .A) && ((quad && !b .P) || !b .A))
          (fun a => ((quad && b .P) || b .A) && ((quad && (g.outdated a).contains .P) || (g.outdated a).contains .A)) e.lib
          (e.initStore .scs) (e.initStore .scs) false false ops)) := by
  refine ⟨fun i x =>
    let d : CId → Option V := fun p => if (Kind.scs.solver quad lp).uses.contains p then some (g.canonOf p i.1) else none
    (lib.solve d (stgsOf e i.2) x (lib.made d (stgsOf e i.2))).1, fun ops hc => ?_⟩
  obtain ⟨toks, pus', st, outs, h1, h2, h3⟩ := C86_scs hg e order horder junk ops hc
  obtain ⟨toks', pus'', st', outs', h1', h2', _, h4⟩ := C86_data hg e order horder junk ops hc
  rw [h1] at h1'
  simp only [Except.ok.injEq, Prod.mk.injEq] at h1'
  rw [← h1'.1, h2] at h2'
  simp only [Option.some.injEq, Prod.mk.injEq] at h2'
  rw [← h2'.2] at h4
  obtain ⟨s', rs, h5, _, h7, h8⟩ := again_run .scs e on lib g (Kind.scs.solver quad lp) toks
    (fun i x => (lib.solve i.1 i.2 x (lib.made i.1 i.2)).1)
    (fun d s x new w => again_function lib (.inr hl) d s x new w) ops (Again.init .scs e lib zero g (Kind.scs.solver quad lp) junk) st outs h2
  refine ⟨toks, pus', s', rs, h1, h5, ?_, ?_⟩
  · rw [h7]
    clear h3 h5 h7 h8 h2 h2'
    generalize solveParams g.assign g.θ0 (calls ops) = θs at h4
    induction outs generalizing θs with
    | nil => cases h4; rfl
    | cons o outs ih =>
      cases h4 with
      | cons ha hb =>
        simp only [List.map_cons]
        rw [ih _ hb, ha.2]
  · rw [h8, ← h3]
    show chained _ _ zero outs = _
    clear h3 h5 h7 h8 h2 h2'
    generalize solveParams g.assign g.θ0 (calls ops) = θs at h4
    induction outs generalizing θs zero with
    | nil => cases h4; rfl
    | cons o outs ih =>
      cases h4 with
      | cons ha hb =>
        simp only [List.map_cons, List.zip_cons_cons, chained, decide_true, Bool.true_and]
        have hd := dataOf_fresh ha
        simp only [inputOf] at ih ⊢
        rw [hd]
        congr 1
        exact ih _ _ hb

/-! ### Libraries that remember -/

/-- A library whose result is the number of solves before on the same object. -/
def counting : Lib V S Nat Nat where
  start := 0
  made _ _ := 0
  push _ _ w := w
  solve _ _ _ w := (w, w + 1)

theorem counting_keeps {k : Kind} (d : CId → Option V) (s : String → Option S) (new : List CId) (w : Nat) (hk : k ≠ .clarabel)
    (hn : ∀ f ∈ new, createdBy k f = 0) : objAfter k (counting : Lib V S Nat Nat) d s new w = w := by
  unfold objAfter
  have hs : createdBySolve k = 0 := by cases k <;> first | rfl | exact absurd rfl hk
  simp only [hs, if_true]
  have : ∀ (l : List CId) (w : Nat), (∀ f ∈ l, createdBy k f = 0) →
      l.foldl (fun w f => if createdBy k f = 0 then (counting : Lib V S Nat Nat).push f d w else counting.made d s) w = w := by
    intro l
    induction l with
    | nil => intro w _; rfl
    | cons f l ih =>
      intro w h
      rw [List.foldl_cons, if_pos (h f List.mem_cons_self)]
      exact ih _ fun f hf => h f (List.mem_cons_of_mem _ hf)
  exact this _ _ fun f hf => hn f (List.mem_reverse.1 hf)

theorem counting_zero {k : Kind} (d : CId → Option V) (s : String → Option S) (new : List CId) :
    objAfter k (counting : Lib V S Nat Nat) d s new 0 = 0 := by
  unfold objAfter
  have : ∀ (l : List CId),
      l.foldl (fun w f => if createdBy k f = 0 then (counting : Lib V S Nat Nat).push f d w else counting.made d s) 0 = 0 := by
    intro l
    induction l with
    | nil => rfl
    | cons f l ih =>
      rw [List.foldl_cons]
      split <;> exact ih
  simp only
  rw [this]
  split <;> rfl

/-- The workspace of SCS is not created at every solve (C81, C86). -/
def Kept (k : Kind) (quad : Bool) (b : CId → Bool) : Prop :=
  k = .scs → (((quad && b .P) || b .A) && ((quad && !b .P) || !b .A)) = false

/-- Two solves in a row with a library that remembers. -/
theorem counting_twice {k : Kind} (hk : k ≠ .clarabel) {quad lp : Bool} {b : CId → Bool} (hkept : Kept k quad b) {g : Gen Θ V Act}
    (hg : Generated k quad lp b g) (e : Env S) (on : S → Bool) (order : List CId → List CId) (horder : ∀ l, (order l).Perm l) (junk : CId → V)
    (toks : List Tok) (pus' : Pus) (h1 : genBlock (k.solver quad lp).pus g.quad g.changes order = .ok (toks, pus')) :
    ∃ s rs, Again.run k e on counting g (k.solver quad lp) toks (Again.init k e counting 0 g (k.solver quad lp) junk)
      [.solve, .solve] = some (s, rs) ∧ rs.map Prod.fst = [0, 1] := by
  obtain ⟨toks', pus'', roots, never, h1', hf, ht⟩ := genBlock_ok g _ order horder hg.static
  rw [h1] at h1'
  simp only [Except.ok.injEq, Prod.mk.injEq] at h1'
  rw [← h1'.1] at ht
  obtain ⟨m1, o1, hs1, hinv1, _, _, _⟩ := solve_ok g hg.sound _ roots never (order roots) hf (horder _) toks ht _ (inv_init g hg.sound _ junk)
  have hset := solve_settled g hg.sound _ roots never (order roots) hf (horder _) toks ht _ m1 o1 (inv_init g hg.sound _ junk)
    (fun _ _ => rfl) hs1
  obtain ⟨m2, o2, hs2, _, _, _, _⟩ := solve_ok g hg.sound _ roots never (order roots) hf (horder _) toks ht m1 hinv1
  have hnone : ∀ f ∈ m2.calls.take (m2.calls.length - m1.calls.length), createdBy k f = 0 := by
    intro f hfm
    cases k with
    | clarabel => exact absurd rfl hk
    | osqp => rfl
    | qocogen => rfl
    | ecos =>
      have := solve_new hg rfl (by rintro ⟨h, _⟩; cases h) hf (horder _) ht hs2
      rw [hset.1] at this
      have hne : f ≠ .init := by rintro rfl; simp only [Bool.not_true, List.contains_eq_mem, decide_eq_false_iff_not] at this; exact this hfm
      cases f <;> first | rfl | exact absurd rfl hne
    | qoco =>
      have := solve_new hg rfl (by rintro ⟨h, _⟩; cases h) hf (horder _) ht hs2
      rw [hset.1] at this
      have hne : f ≠ .init := by rintro rfl; simp only [Bool.not_true, List.contains_eq_mem, decide_eq_false_iff_not] at this; exact this hfm
      cases f <;> first | rfl | exact absurd rfl hne
    | scs =>
      obtain ⟨never', ha, hni, hnp⟩ := scs_roots_mem quad b
      have hr : roots = [.init] ∧ never = never' := by
        have h := hf.analyze
        rw [hg.changes] at h
        have h' : (Except.ok (roots, never) : Except PyErr _) = .ok ([.init], never') := h.symm.trans ha
        cases h'
        exact ⟨rfl, rfl⟩
      obtain ⟨rfl, rfl⟩ := hr
      have hord : order [CId.init] = [.init] := List.perm_singleton.1 (horder [.init])
      have hany := scs_new hg hni hord hf ht hs2
      have hcP : g.changes.getD .P = (quad && b .P) := by rw [hg.changes]; cases quad <;> simp [changesOf, Changes.getD, Kind.canonIds]
      have hcA : g.changes.getD .A = b .A := by rw [hg.changes]; cases quad <;> simp [changesOf, Changes.getD, Kind.canonIds]
      rw [hset.1, hnp, hset.2 .P, hset.2 .A, hcP, hcA] at hany
      have hoff : (!true || (!(!((quad && b .P) || b .A)) && ((quad && !(quad && b .P)) || !b .A))) = false := by
        have := hkept rfl
        revert this
        cases quad <;> cases b .P <;> cases b .A <;> decide
      rw [hoff, List.any_eq_false] at hany
      have := hany f hfm
      cases f <;> first | rfl | exact absurd rfl this
  have hz := counting_zero (V := V) (S := S) (k := k)
  have hrun : (Again.run k e on counting g (k.solver quad lp) toks (Again.init k e counting 0 g (k.solver quad lp) junk)
      [.solve, .solve]).map (fun r => r.2.map Prod.fst) = some [0, 1] := by
    simp only [Again.run, Again.step, Settings.step, Again.init, Env.init, hs1, hs2, Option.map_some, List.append_nil, List.singleton_append,
      List.map_cons, List.map_nil]
    simp only [show (counting : Lib V S Nat Nat).start = 0 from rfl, hz,
      show ∀ d s x w, (counting : Lib V S Nat Nat).solve d s x w = (w, w + 1) from fun _ _ _ _ => rfl]
    rw [counting_keeps _ _ _ _ hk hnone]
  cases hr : Again.run k e on counting g (k.solver quad lp) toks (Again.init k e counting 0 g (k.solver quad lp) junk) [.solve, .solve] with
  | none => rw [hr] at hrun; cases hrun
  | some r =>
    rw [hr] at hrun
    exact ⟨r.1, r.2, rfl, Option.some.inj hrun⟩

/-- **C100** The property fails for all solvers except Clarabel (SCS: unless its workspace is created at every solve), whatever the problem: if the
library remembers, solving the same instance twice need not give the same result. -/
theorem C100_fails {k : Kind} (hk : k ≠ .clarabel) {quad lp : Bool} {b : CId → Bool} (hkept : Kept k quad b) {g : Gen Θ V Act}
    (hg : Generated k quad lp b g) (e : Env S) (on : S → Bool) (order : List CId → List CId) (horder : ∀ l, (order l).Perm l) (junk : CId → V) :
    ¬ Repeatable k quad lp g e on (counting : Lib V S Nat Nat) 0 order junk := by
  rintro ⟨F, h⟩
  obtain ⟨toks, pus', s, rs, h1, h2, h3⟩ := h [.solve, .solve] (fun n v hm => by simp at hm)
  obtain ⟨s', rs', h4, h5⟩ := counting_twice hk hkept hg e on order horder junk toks pus' h1
  rw [h2] at h4
  simp only [Option.some.injEq, Prod.mk.injEq] at h4
  rw [← h4.2, h3] at h5
  simp only [calls, solveParams, requested, List.map_cons, List.map_nil, List.zipWith_cons_cons, List.zipWith_nil_left, List.cons.injEq] at h5
  exact absurd (h5.1.symm.trans h5.2.1) (by decide)

/-! ### Examples -/

/-- Interior point method: the result is a function of data and settings. -/
def direct : Lib Int Int Unit Int where
  start := ()
  made _ _ := ()
  push _ _ w := w
  solve d s x _ := ((d .b).getD 0 + (s "eps").getD 0 + x.getD 0, ())

/-- Clarabel with the library that remembers; ECOS and QOCO with a library that forgets and with one that remembers; SCS. -/
example : Repeatable .clarabel true false (exConst .clarabel) exSet (· != 0) (counting : Lib Int Int Nat Nat) 0 id (fun _ => 0) ∧
    Repeatable .qoco true false (exConst .qoco) exSet (· != 0) direct 0 id (fun _ => 0) ∧
    ¬ Repeatable .qoco true false (exConst .qoco) exSet (· != 0) (counting : Lib Int Int Nat Nat) 0 id (fun _ => 0) ∧
    ¬ Repeatable .osqp true false (exConst .osqp) exSet (· != 0) (counting : Lib Int Int Nat Nat) 0 id (fun _ => 0) ∧
    ¬ Repeatable .scs false false (exGen false) exSet (· != 0) (counting : Lib Int Int Nat Nat) 0 id (fun _ => 0) := by
  have hp : ∀ l : List CId, (id l).Perm l := fun l => List.Perm.refl l
  refine ⟨?_, ?_, ?_, ?_, ?_⟩
  · exact C100_clarabel (exConst_generated .clarabel (by simp)) _ _ _ _ id hp _
  · exact C100_partial (by decide) (exConst_generated .qoco (by simp)) _ _ _ (.inr fun _ _ _ _ _ => rfl) _ id hp _
      (C86_partial (.inr (.inr rfl)) (exConst_generated .qoco (by simp)) _ (.inr fun n _ h => by cases h) id hp _)
  · exact C100_fails (by decide) (fun h => by cases h) (exConst_generated .qoco (by simp)) _ _ id hp _
  · exact C100_fails (by decide) (fun h => by cases h) (exConst_generated .osqp (by simp)) _ _ id hp _
  · exact C100_fails (by decide) (fun _ => by decide) (exGen_generated false) _ _ id hp _

/-- SCS: with `warm_start` on, the second of two equal solves starts from the result of the first, also though the workspace is created again. -/
example : ∃ toks pus' s rs,
    genBlock (Kind.scs.solver true false).pus true (exGen true).changes id = .ok (toks, pus') ∧
    Again.run .scs exSet (· != 0) direct (exGen true) (Kind.scs.solver true false) toks
      (Again.init .scs exSet direct 0 (exGen true) (Kind.scs.solver true false) fun _ => 0)
      [.set "warm_start" 1, .solve, .solve, .set "warm_start" 0, .solve] = some (s, rs) ∧
    rs.map Prod.fst = [2, 4, 2] := by
  refine ⟨_, _, _, _, rfl, rfl, ?_⟩
  decide

end Verif.Props
