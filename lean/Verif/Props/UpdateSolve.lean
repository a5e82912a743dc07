import Verif.Lemmas.Trace
/-!
# C01–C05: update/solve histories

The generated program for solver `k`, with any pattern `b` of changing canonical parameters and any
iteration order of the generator's sets, run on any history of update and solve calls.
-/
namespace Verif.Props
open Verif.Model Verif.Spec Verif.Lemmas

variable {Θ V Act : Type}

/-- `g` is the outcome of a generation for solver `k` in mode `quad`/`lp` with change pattern `b`. -/
structure Generated (k : Kind) (quad lp : Bool) (b : CId → Bool) (g : Gen Θ V Act) : Prop where
  possible : k.possible quad lp = true
  mode : g.quad = quad
  changes : g.changes = changesOf (k.canonIds quad) b
  sound : Sound g

theorem Generated.static {k : Kind} {quad lp : Bool} {b : CId → Bool} {g : Gen Θ V Act}
    (h : Generated k quad lp b g) : staticOK (k.solver quad lp) g.quad g.changes = true := by
  rw [h.mode, h.changes]; exact static_all k quad lp h.possible b

/-- **C01** Generation succeeds and after any history of API calls every solve worked on exactly the
canonicalization of the parameter values at that moment, with the matching objective offset, and no
solver update call was ever made on an uninitialised solver. -/
theorem C01_every_solve_uses_current_parameters {k : Kind} {quad lp : Bool} {b : CId → Bool}
    {g : Gen Θ V Act} (hg : Generated k quad lp b g)
    (order : List CId → List CId) (horder : ∀ l, (order l).Perm l) (junk : CId → V)
    (history : List (Call Act)) :
    ∃ toks pus' m os,
      genBlock (k.solver quad lp).pus g.quad g.changes order = .ok (toks, pus') ∧
      g.runCalls (k.solver quad lp) toks (g.initMem (k.solver quad lp) junk) history = some (m, os) ∧
      m.bad = false ∧
      List.Forall₂ (Fresh g.canonOf (k.solver quad lp).uses)
        (solveParams g.assign g.θ0 history) os :=
  refine g hg.sound _ order horder hg.static junk history

/-- **C02** Executing the generated block once, in any state, hands over every changing canonical
parameter whose flag is set. -/
theorem C02_block_hands_over_every_outdated_parameter {k : Kind} {quad lp : Bool} {b : CId → Bool}
    {g : Gen Θ V Act} (hp : k.possible quad lp = true) (hq : g.quad = quad)
    (hc : g.changes = changesOf (k.canonIds quad) b)
    (order : List CId → List CId) (horder : ∀ l, (order l).Perm l) :
    ∃ toks pus', genBlock (k.solver quad lp).pus g.quad g.changes order = .ok (toks, pus') ∧
      ∀ m : Mem Θ V, ((k.solver quad lp).static = true → m.inited = true) →
        ∃ m', execText evMem (doCall g (k.solver quad lp)) toks m = some m' ∧
          m'.inited = true ∧
          ∀ p ∈ (k.solver quad lp).uses, p ∈ k.canonIds quad → b p = true → m.flags p = true →
            m'.solver p = m.canon p := by
  have hst : staticOK (k.solver quad lp) g.quad g.changes = true := by
    rw [hq, hc]; exact static_all k quad lp hp b
  obtain ⟨toks, pus', roots, never, h1, hf, ht⟩ := genBlock_ok g _ order horder hst
  refine ⟨toks, pus', h1, fun m hm => ⟨_, ht m, ?_⟩⟩
  have hb := block_ok g _ roots never (order roots) _ (horder roots) hf.cov hf.eff hf.ini hf.one m hm
  refine ⟨hb.inited, fun p hu hid hbp hfl => hb.fresh p hu ?_ hfl⟩
  show g.changes.getD p = true
  rw [hc]
  simp [Changes.getD, changesOf, hid, hbp]

/-- **C03** The emitted text parses as C and means: for each update function (initialisation
first), if its condition holds call it, otherwise run its fallback functions. Here for the six
solvers; the condition is `fires`, evaluated on the table without the missing `P`. -/
theorem C03_emitted_text_means_update_structure (k : Kind) (quad lp : Bool)
    (hp : k.possible quad lp = true) (b : CId → Bool)
    (order : List CId → List CId) (horder : ∀ l, (order l).Perm l)
    {σ : Type} (ev : σ → CTok → Bool) (call : CId → σ → σ) :
    ∃ toks pus' roots never,
      analyzePus (k.solver quad lp).pus genFuel (changesOf (k.canonIds quad) b) = .ok (roots, never) ∧
      genBlock (k.solver quad lp).pus quad (changesOf (k.canonIds quad) b) order = .ok (toks, pus') ∧
      ∀ s, execText ev call toks s =
        some (run (fun lg s => fires true lg (fun p => ev s (.flag p)) (fun e => ev s (.extra e))) call
          ((k.solver quad lp).pus.map fun kv => (kv.1,
            if quad then kv.2 else { kv.2 with params := kv.2.params.erase .P }))
          never genFuel (some (order roots)) s) := by
  obtain ⟨roots, never, hf⟩ := staticFacts (static_all k quad lp hp b)
  obtain ⟨toks, pus', h1, h2⟩ := text_meaning quad (k.solver quad lp).pus never roots (order roots)
    genFuel ev call hf.nodup hf.countP hf.nest hf.conds (horder roots)
  refine ⟨toks, pus', roots, never, hf.analyze, ?_, fun s => ?_⟩
  · unfold genBlock; rw [hf.analyze]; exact h1
  · rw [h2 s]
    have hn : norm quad (k.solver quad lp).pus = (k.solver quad lp).pus.map fun kv => (kv.1,
            if quad then kv.2 else { kv.2 with params := kv.2.params.erase .P }) := by
      unfold norm
      apply List.map_congr_left
      intro kv _
      congr 1
      unfold dropP
      cases quad with
      | true => simp
      | false =>
        by_cases h : CId.P ∈ kv.2.params
        · simp [h]
        · simp [h, List.erase_of_not_mem h]
    rw [hn]; rfl

/-- For arbitrary tables (any depth, any names) the same holds if no block needs two `else`. -/
theorem C03_emitted_text_any_table {σ : Type} (quad : Bool) (pus : Pus) (never roots order : List CId)
    (fuel : Nat) (ev : σ → CTok → Bool) (call : CId → σ → σ)
    (hnd : (pus.map Prod.fst).Nodup) (hcount : ∀ kv ∈ pus, kv.2.params.count .P ≤ 1)
    (hnest : nestOK (norm quad pus) never fuel false (some roots) = true)
    (hcond : condsOK (norm quad pus) never = true) (hperm : order.Perm roots) :
    ∃ toks pus', writeUpdate quad never fuel pus (some order) 0 = .ok (toks, pus') ∧
      ∀ s, execText ev call toks s
        = some (run (fireOf ev) call (norm quad pus) never fuel (some order) s) :=
  text_meaning quad pus never roots order fuel ev call hnd hcount hnest hcond hperm

/-- A table for which the generator emits two `else` blocks after one `if`: two functions that are
never called, each with a fallback. -/
def doubleElse : Pus :=
  [(.init, { params := [], extra := some .notInit, fif := some [.PA, .bc] }),
   (.PA, { params := [.P, .A], op := some .and, fif := some [.A] }),
   (.bc, { params := [.b, .c], op := some .and, fif := some [.b] }),
   (.A, { params := [.A] }), (.b, { params := [.b] })]

/-- **C03 fails for arbitrary tables**: the emitted text does not parse. -/
theorem C03_fails_for_some_table :
    ∃ (toks : List Tok) (pus' : Pus),
      genBlock doubleElse true (changesOf [.P, .A, .b, .c] (pat false false false false true true false false false false)) id
        = .ok (toks, pus') ∧ parseBlock toks = none := by
  refine ⟨_, _, rfl, ?_⟩
  decide

/-- Without a quadratic objective but with quadratic data, generation for Clarabel and QOCO stops
with a `KeyError` (it does not produce wrong code). -/
theorem C03_inconsistent_mode_raises (k : Kind) (hk : k = .clarabel ∨ k = .qoco ∨ k = .qocogen)
    (b : CId → Bool) (order : List CId → List CId) :
    genBlock (k.solver false false).pus false (changesOf (k.canonIds false) b) order
      = .error .keyError := by
  have h : analyzePus (k.solver false false).pus genFuel (changesOf (k.canonIds false) b)
      = .error .keyError := by
    refine forall_changes k false (fun ch => analyzePus (k.solver false false).pus genFuel ch
      = .error .keyError) ?_ b
    revert k
    intro k hk
    rcases hk with rfl | rfl | rfl <;> decide +kernel
  unfold genBlock
  rw [h]; rfl

/-- **C04** (all solvers but Clarabel on problems without quadratic part) After any history, the
calls made so far, in order, are: none if there was no solve; otherwise the initialisation first and
only once, followed by other calls. -/
theorem C04_initialisation_first_and_once_partial {k : Kind} {quad lp : Bool} {b : CId → Bool}
    {g : Gen Θ V Act} (hg : Generated k quad lp b g) (hns : (k.solver quad lp).static = false)
    (hk : ¬ (k = .clarabel ∧ lp = true))
    (order : List CId → List CId) (horder : ∀ l, (order l).Perm l) (junk : CId → V)
    (history : List (Call Act)) :
    ∃ toks pus' m os,
      genBlock (k.solver quad lp).pus g.quad g.changes order = .ok (toks, pus') ∧
      g.runCalls (k.solver quad lp) toks (g.initMem (k.solver quad lp) junk) history = some (m, os) ∧
      (m.calls = [] ∨ ∃ later, m.calls.reverse = .init :: later ∧ CId.init ∉ later) := by
  obtain ⟨toks, pus', roots, never, h1, hf, ht⟩ := genBlock_ok g _ order horder hg.static
  obtain ⟨m, os, h2, _, _⟩ := runCalls_ok g hg.sound _ roots never (order roots) hf (horder roots) toks
    ht history _ (inv_init g hg.sound _ junk)
  refine ⟨toks, pus', m, os, h1, h2, ?_⟩
  have htr : TraceInv (k.solver quad lp) m := by
    refine trace_ok g hg.sound _ roots never (order roots) hf (horder roots) ?_ toks ht history _ m os
      (inv_init g hg.sound _ junk) ?_ h2
    · rw [hg.mode]; exact guard_all k quad lp hg.possible hk
    · refine ⟨fun _ => rfl, fun _ h => ?_, fun h => ?_⟩
      · simp only [Gen.initMem, hns] at h; cases h
      · rw [hns] at h; cases h
  cases hi : m.inited with
  | false => exact Or.inl (htr.before hi)
  | true =>
    right
    obtain ⟨l, h3, h4⟩ := htr.after hns hi
    exact ⟨l.reverse, by rw [h3]; simp, by simpa using h4⟩

/-- Does a sequence of calls update a solver before it is created? `up`: it is created already. -/
def early (sv : Solver) : Bool → List CId → Bool
  | _, [] => false
  | up, f :: fs =>
    match sv.effect f with
    | .push _ => !up || early sv up fs
    | _ => early sv true fs

/-- `m.bad`, which C01 shows to be false after any history, notices exactly the updates of a solver that is not
created yet, for any sequence of calls; all calls are recorded. -/
theorem C04_monitor (g : Gen Θ V Act) (sv : Solver) (fs : List CId) (m : Mem Θ V) :
    (fs.foldl (fun m f => doCall g sv f m) m).bad = (m.bad || early sv m.inited fs) ∧
      (fs.foldl (fun m f => doCall g sv f m) m).calls = fs.reverse ++ m.calls := by
  induction fs generalizing m with
  | nil => simp [early]
  | cons f fs ih =>
    obtain ⟨h1, h2⟩ := ih (doCall g sv f m)
    rw [List.foldl_cons, h1, h2]
    have he : early sv m.inited (f :: fs) = match sv.effect f with
      | .push _ => !m.inited || early sv m.inited fs
      | _ => early sv true fs := rfl
    rw [he]
    unfold doCall
    cases sv.effect f <;> simp [Bool.or_assoc]

/-- Updating ECOS before its set-up is noticed, after it is not. -/
example : early (Kind.ecos.solver false false) false [.c, .init] = true ∧
    early (Kind.ecos.solver false false) false [.init, .c] = false := by decide

/-- **C05** A solve that directly follows a solve makes no solver data call exactly for the
patterns described by `idlePattern`; in the other cases it always makes one. -/
theorem C05_idle_solve_makes_no_call_partial {k : Kind} {quad lp : Bool} {b : CId → Bool}
    {g : Gen Θ V Act} (hg : Generated k quad lp b g)
    (order : List CId → List CId) (horder : ∀ l, (order l).Perm l) (junk : CId → V)
    (history : List (Call Act)) :
    ∃ toks pus' m0 os m1 o1 m2 o2,
      genBlock (k.solver quad lp).pus g.quad g.changes order = .ok (toks, pus') ∧
      g.runCalls (k.solver quad lp) toks (g.initMem (k.solver quad lp) junk) history = some (m0, os) ∧
      g.solve (k.solver quad lp) toks m0 = some (m1, o1) ∧
      g.solve (k.solver quad lp) toks m1 = some (m2, o2) ∧
      (m2.calls = m1.calls ↔ idlePattern k quad lp (changesOf (k.canonIds quad) b) = true) := by
  obtain ⟨toks, pus', roots, never, h1, hf, ht⟩ := genBlock_ok g _ order horder hg.static
  obtain ⟨m0, os, h2, hi0, _⟩ := runCalls_ok g hg.sound _ roots never (order roots) hf (horder roots)
    toks ht history _ (inv_init g hg.sound _ junk)
  obtain ⟨hfl, _⟩ := flags_const g hg.sound _ roots never (order roots) hf (horder roots) toks ht
    history _ m0 os (inv_init g hg.sound _ junk) (fun _ _ => rfl) h2
  obtain ⟨m1, o1, h3, hi1, _⟩ := solve_ok g hg.sound _ roots never (order roots) hf (horder roots)
    toks ht m0 hi0
  have hset := solve_settled g hg.sound _ roots never (order roots) hf (horder roots) toks ht m0 m1 o1
    hi0 hfl h3
  obtain ⟨m2, o2, h4, _⟩ := solve_ok g hg.sound _ roots never (order roots) hf (horder roots)
    toks ht m1 hi1
  refine ⟨toks, pus', m0, os, m1, o1, m2, o2, h1, h2, h3, h4, ?_⟩
  have hm2 : m2.calls = idleCalls (norm g.quad (k.solver quad lp).pus) never (order roots) g.changes
      ++ m1.calls := by
    simp only [Gen.solve, ht, Option.some.injEq, Prod.mk.injEq] at h4
    rw [← h4.1, canonicalize_settled g m1 hset]
    exact idle_run g _ _ never (order roots) m1 hset
  rw [hm2, List.append_left_eq_self, idle_iff, ← idle_all k quad lp hg.possible b]
  unfold idle
  have han := hf.analyze
  rw [hg.changes] at han
  rw [han, hg.mode, hg.changes]
  simp only [List.all_eq_true, beq_iff_eq]
  exact forall_congr' fun f => by rw [(horder roots).mem_iff]

/-- For OSQP and QOCO an idle solve makes no data call at all. -/
theorem C05_idle_solve_osqp_qoco {k : Kind} (hk : k = .osqp ∨ k = .qoco ∨ k = .qocogen)
    {quad lp : Bool} {b : CId → Bool} {g : Gen Θ V Act} (hg : Generated k quad lp b g)
    (order : List CId → List CId) (horder : ∀ l, (order l).Perm l) (junk : CId → V)
    (history : List (Call Act)) :
    ∃ toks pus' m0 os m1 o1 m2 o2,
      genBlock (k.solver quad lp).pus g.quad g.changes order = .ok (toks, pus') ∧
      g.runCalls (k.solver quad lp) toks (g.initMem (k.solver quad lp) junk) history = some (m0, os) ∧
      g.solve (k.solver quad lp) toks m0 = some (m1, o1) ∧
      g.solve (k.solver quad lp) toks m1 = some (m2, o2) ∧ m2.calls = m1.calls := by
  obtain ⟨toks, pus', m0, os, m1, o1, m2, o2, h1, h2, h3, h4, h5⟩ :=
    C05_idle_solve_makes_no_call_partial hg order horder junk history
  refine ⟨toks, pus', m0, os, m1, o1, m2, o2, h1, h2, h3, h4, h5.mpr ?_⟩
  rcases hk with rfl | rfl | rfl <;> rfl

/-! ### The hypotheses are met by non-trivial cases -/

/-- Two parameters: the first one is the vector `b`, the second one the matrix `A`. -/
def exGen (quad : Bool) : Gen (Int × Int) Int (Bool × Int) where
  canonOf
    | .b, θ => θ.1
    | .A, θ => 2 * θ.2
    | _, _ => 7
  assign a θ := if a.1 then (a.2, θ.2) else (θ.1, a.2)
  outdated a := if a.1 then [.b] else [.A]
  changes := changesOf (Kind.scs.canonIds quad) (pat false false false false true true false false false false)
  quad := quad
  θ0 := (1, 1)
  canon0
    | .b => 100
    | .A => 100
    | _ => 7

theorem exGen_generated (quad : Bool) : Generated .scs quad false
    (pat false false false false true true false false false false) (exGen quad) := by
  refine ⟨rfl, rfl, rfl, ?_, ?_, ?_⟩
  · rintro ⟨a, v⟩ p θ hp
    cases a <;> cases p <;> simp_all [exGen]
  · intro p θ θ' hp
    cases p <;> cases quad <;> simp_all [exGen, changesOf, pat, Changes.getD, Kind.canonIds]
  · intro p θ hp
    cases p <;> cases quad <;> simp_all [exGen, changesOf, pat, Changes.getD, Kind.canonIds]

/-- Non-vacuity of C01, C04 and C05: hypotheses and the resulting observation, for a history with
three solves. -/
example : ∃ toks pus' m os,
    genBlock (Kind.scs.solver true false).pus true (exGen true).changes id = .ok (toks, pus') ∧
    (exGen true).runCalls (Kind.scs.solver true false) toks
      ((exGen true).initMem (Kind.scs.solver true false) fun _ => 0)
      [.update (true, 5), .solve, .update (false, 3), .solve, .solve] = some (m, os) ∧
    os.map (fun o => (o.data .b, o.data .A, o.data .c)) = [(5, 2, 7), (5, 6, 7), (5, 6, 7)] ∧
    m.calls.reverse = [.init, .PA, .PA] := by
  refine ⟨_, _, _, _, rfl, rfl, ?_⟩
  decide

/-- **C05 fails for SCS** when exactly one of `P`, `A` changes: the third solve above follows a
solve directly and creates the solver again. -/
example : idlePattern .scs true false (exGen true).changes = false := by decide

/-- Non-vacuity: the idle patterns are met, too. -/
example : idlePattern .scs false false (exGen false).changes = true := by decide

/-- A Clarabel problem without quadratic part. -/
def exClarabel : Gen Unit Int Unit where
  canonOf _ _ := 0
  assign _ θ := θ
  outdated _ := []
  changes := changesOf (Kind.clarabel.canonIds false) (fun _ => true)
  quad := false
  θ0 := ()
  canon0 _ := 0

/-- **C04 fails for Clarabel on LPs**: the initialisation branch (which copies all data) is taken at
every solve. -/
theorem C04_clarabel_lp_initialises_every_time :
    ∃ toks pus' m os,
      genBlock (Kind.clarabel.solver false true).pus false exClarabel.changes id = .ok (toks, pus') ∧
      exClarabel.runCalls (Kind.clarabel.solver false true) toks
        (exClarabel.initMem (Kind.clarabel.solver false true) fun _ => 0) [.solve, .solve]
        = some (m, os) ∧
      m.calls.reverse = [.init, .init] := by
  refine ⟨_, _, _, _, rfl, rfl, ?_⟩
  decide

end Verif.Props
