import Verif.Props.UpdateSolve
import Verif.Model.Memory
import Verif.Spec.Memory
/-! C81: repeated solves need bounded memory. -/
namespace Verif.Props
open Verif.Model Verif.Spec Verif.Lemmas Verif.Model.Memory Verif.Spec.Memory
variable {Θ V Act : Type}

theorem sum_zero_of {k : Kind} (l : List CId) (h : ∀ f ∈ l, createdBy k f = 0) : (l.map (createdBy k)).sum = 0 := by
  induction l with
  | nil => rfl
  | cons f l ih =>
    rw [List.map_cons, List.sum_cons, h f List.mem_cons_self, ih fun f hf => h f (List.mem_cons_of_mem _ hf)]

/-- **C81, OSQP, ECOS, QOCO, QOCOGEN.** After any history there is at most one solver object on the heap; none for OSQP and QOCOGEN. -/
theorem C81_partial {k : Kind} (hk : k = .osqp ∨ k = .ecos ∨ k = .qoco ∨ k = .qocogen) {quad lp : Bool} {b : CId → Bool} {g : Gen Θ V Act}
    (hg : Generated k quad lp b g) (order : List CId → List CId) (horder : ∀ l, (order l).Perm l) (junk : CId → V) (history : List (Call Act)) :
    ∃ toks pus' m os,
      genBlock (k.solver quad lp).pus g.quad g.changes order = .ok (toks, pus') ∧
      g.runCalls (k.solver quad lp) toks (g.initMem (k.solver quad lp) junk) history = some (m, os) ∧
      live k m (solves history) ≤ 1 ∧ (k = .osqp ∨ k = .qocogen → live k m (solves history) = 0) := by
  by_cases ho : k = .osqp ∨ k = .qocogen
  · obtain ⟨toks, pus', m, os, h1, h2, _⟩ := C01_every_solve_uses_current_parameters hg order horder junk history
    have hz : live k m (solves history) = 0 := by
      unfold live
      rw [sum_zero_of _ fun f _ => by rcases ho with rfl | rfl <;> rfl]
      rcases ho with rfl | rfl <;> rfl
    exact ⟨toks, pus', m, os, h1, h2, by omega, fun _ => hz⟩
  · have hs : (k.solver quad lp).static = false := by rcases hk with rfl | rfl | rfl | rfl <;> first | rfl | exact absurd (Or.inl rfl) ho
    obtain ⟨toks, pus', m, os, h1, h2, h3⟩ := C04_initialisation_first_and_once_partial hg hs
      (by rcases hk with rfl | rfl | rfl | rfl <;> rintro ⟨h, _⟩ <;> cases h) order horder junk history
    refine ⟨toks, pus', m, os, h1, h2, ?_, fun h => absurd h ho⟩
    have hc : createdBySolve k = 0 := by rcases hk with rfl | rfl | rfl | rfl <;> rfl
    unfold live
    rw [hc, Nat.mul_zero, Nat.add_zero]
    rcases h3 with h3 | ⟨later, h3, h4⟩
    · rw [h3]; exact Nat.zero_le _
    · have h5 : m.calls = later.reverse ++ [.init] := by
        rw [← List.reverse_reverse m.calls, h3, List.reverse_cons]
      have h6 : (later.reverse.map (createdBy k)).sum = 0 := by
        apply sum_zero_of
        intro f hf
        have hne : f ≠ .init := fun h => h4 (by rw [← h]; exact List.mem_reverse.1 hf)
        rcases hk with rfl | rfl | rfl | rfl <;> cases f <;> first | rfl | exact absurd rfl hne
      rw [h5, List.map_append, List.sum_append, h6]
      rcases hk with rfl | rfl | rfl | rfl <;> decide

/-! ### SCS -/

/-- Outcome of the analysis of SCS's table: `init` is the only root, and `PA` is never called exactly if neither `P` nor `A` changes. -/
theorem scs_roots_mem (quad : Bool) (b : CId → Bool) : ∃ never,
    analyzePus (scs quad).pus genFuel (changesOf (Kind.scs.canonIds quad) b) = .ok ([.init], never) ∧ never.contains .init = false ∧
      never.contains .PA = !((quad && b .P) || b .A) := by
  have h := forall_changes .scs quad (fun ch => (match analyzePus (scs quad).pus genFuel ch with
    | .ok (roots, never) => roots == [.init] && !never.contains .init && (never.contains .PA == !(ch.getD .P || ch.getD .A))
    | .error _ => false) = true) (by cases quad <;> decide +kernel) b
  cases he : analyzePus (scs quad).pus genFuel (changesOf (Kind.scs.canonIds quad) b) with
  | error e => rw [he] at h; cases h
  | ok r =>
    obtain ⟨roots, never⟩ := r
    rw [he] at h
    simp only [Bool.and_eq_true, beq_iff_eq] at h
    obtain ⟨⟨h1, h2⟩, h3⟩ := h
    refine ⟨never, by rw [h1], by simpa using h2, ?_⟩
    rw [h3]
    cases quad <;> simp [changesOf, Changes.getD, Kind.canonIds]

theorem norm_scs (quad : Bool) : norm quad (scs quad).pus =
    [(.init, { params := [], extra := some .notInit, fif := some [.PA] }),
     (.PA, { params := if quad then [.P, .A] else [.A], op := some .or, fif := some [.bc] }),
     (.bc, { params := [.b, .c], op := some .and, fif := some [.b, .c] }),
     (.b, { params := [.b] }),
     (.c, { params := [.c] })] := by
  cases quad <;> decide

/-- Objects created by a list of calls. -/
abbrev made (l : List CId) : Nat := (l.map (createdBy .scs)).sum

theorem run_none (g : Gen Θ V Act) (sv : Solver) (pus : Pus) (never : List CId) (fuel : Nat) (m : Mem Θ V) :
    run (fireOf evMem) (doCall g sv) pus never fuel none m = m := by cases fuel <;> rfl

theorem made_call (g : Gen Θ V Act) (sv : Solver) (f : CId) (m : Mem Θ V) : made (doCall g sv f m).calls = createdBy .scs f + made m.calls := by
  rw [doCall_calls]; simp [made]

theorem scs_leaf (g : Gen Θ V Act) (quad : Bool) (never : List CId) (f : CId) (hf : f = .b ∨ f = .c) (fuel : Nat) (m : Mem Θ V) :
    made (runFn g (scs quad) (norm quad (scs quad).pus) never fuel f m).calls = made m.calls := by
  have hl : ∃ lg, (norm quad (scs quad).pus).lookup f = some lg ∧ lg.fif = none := by
    rw [norm_scs]
    rcases hf with rfl | rfl
    · exact ⟨_, rfl, rfl⟩
    · exact ⟨_, rfl, rfl⟩
  obtain ⟨lg, hl, hfif⟩ := hl
  have hc : createdBy .scs f = 0 := by rcases hf with rfl | rfl <;> rfl
  unfold runFn
  rw [hl]
  simp only [hfif, run_none]
  split
  · rfl
  · split
    · rw [made_call, hc, Nat.zero_add]
    · rfl

theorem scs_bc (g : Gen Θ V Act) (quad : Bool) (never : List CId) (fuel : Nat) (m : Mem Θ V) :
    made (runFn g (scs quad) (norm quad (scs quad).pus) never (fuel + 1) .bc m).calls = made m.calls := by
  have hl : (norm quad (scs quad).pus).lookup .bc = some { params := [.b, .c], op := some .and, fif := some [.b, .c] } := by
    rw [norm_scs]; rfl
  have hr : made (run (fireOf evMem) (doCall g (scs quad)) (norm quad (scs quad).pus) never (fuel + 1) (some [.b, .c]) m).calls = made m.calls := by
    rw [run_succ, show initFirst [CId.b, CId.c] = [.b, .c] by decide]
    simp only [List.foldl_cons, List.foldl_nil]
    rw [scs_leaf g quad never .c (Or.inr rfl), scs_leaf g quad never .b (Or.inl rfl)]
  unfold runFn
  rw [hl]
  dsimp only
  split
  · exact hr
  · split
    · rw [made_call]; simp [createdBy]
    · exact hr

theorem scs_PA (g : Gen Θ V Act) (quad : Bool) (never : List CId) (fuel : Nat) (m : Mem Θ V) :
    made (runFn g (scs quad) (norm quad (scs quad).pus) never (fuel + 2) .PA m).calls =
      (if !never.contains .PA && ((quad && m.flags .P) || m.flags .A) then 1 else 0) + made m.calls := by
  have hl : (norm quad (scs quad).pus).lookup .PA =
      some { params := if quad then [.P, .A] else [.A], op := some .or, fif := some [.bc] } := by
    rw [norm_scs]; rfl
  have hr : made (run (fireOf evMem) (doCall g (scs quad)) (norm quad (scs quad).pus) never (fuel + 2) (some [.bc]) m).calls = made m.calls := by
    rw [run_succ]
    exact scs_bc g quad never fuel m
  have hfire : fireOf evMem { params := if quad then [.P, .A] else [.A], op := some .or, fif := some [.bc] } m =
      ((quad && m.flags .P) || m.flags .A) := by
    cases quad <;> simp [fireOf, fires, flagsHold, evMem]
  unfold runFn
  rw [hl]
  dsimp only
  rw [hfire]
  cases never.contains .PA with
  | true => simpa using hr
  | false =>
    simp only [Bool.false_eq_true, if_false, Bool.not_false, Bool.true_and]
    split
    · rw [made_call]; rfl
    · rw [hr, Nat.zero_add]

/-- What one block of updates creates. -/
theorem scs_block (g : Gen Θ V Act) (quad : Bool) (never : List CId) (hi : never.contains .init = false) (m : Mem Θ V) :
    made (run (fireOf evMem) (doCall g (scs quad)) (norm quad (scs quad).pus) never genFuel (some [.init]) m).calls =
      (if !m.inited || (!never.contains .PA && ((quad && m.flags .P) || m.flags .A)) then 1 else 0) + made m.calls := by
  have hl : (norm quad (scs quad).pus).lookup .init = some { params := [], extra := some .notInit, fif := some [.PA] } := by
    rw [norm_scs]; rfl
  have hr : made (run (fireOf evMem) (doCall g (scs quad)) (norm quad (scs quad).pus) never 5 (some [.PA]) m).calls =
      (if !never.contains .PA && ((quad && m.flags .P) || m.flags .A) then 1 else 0) + made m.calls := by
    rw [run_succ]
    exact scs_PA g quad never 2 m
  have hfire : fireOf evMem { params := [], extra := some .notInit, fif := some [.PA] } m = !m.inited := rfl
  show made (runFn g (scs quad) (norm quad (scs quad).pus) never 5 .init m).calls = _
  unfold runFn
  rw [hl]
  dsimp only
  rw [hi, hfire]
  cases m.inited with
  | false => simp [made_call, createdBy]
  | true => simpa using hr

/-- **C81, SCS.** After any history the number of workspaces on the heap is given by the history: one for the first solve; if `P` or `A` depends
on parameters, one for every later solve after an update that concerns `P` or `A`; and for every later solve without any such update, if one of
`P`, `A` depends on parameters and the other does not. -/
theorem C81_scs {quad lp : Bool} {b : CId → Bool} {g : Gen Θ V Act} (hg : Generated .scs quad lp b g) (order : List CId → List CId)
    (horder : ∀ l, (order l).Perm l) (junk : CId → V) (history : List (Call Act)) :
    ∃ toks pus' m os,
      genBlock (Kind.scs.solver quad lp).pus g.quad g.changes order = .ok (toks, pus') ∧
      g.runCalls (Kind.scs.solver quad lp) toks (g.initMem (Kind.scs.solver quad lp) junk) history = some (m, os) ∧
      live .scs m (solves history) =
        renewals (((quad && b .P) || b .A) && ((quad && !b .P) || !b .A))
          (fun a => ((quad && b .P) || b .A) && ((quad && (g.outdated a).contains .P) || (g.outdated a).contains .A)) false false history := by
  obtain ⟨never, ha, hni, hnp⟩ := scs_roots_mem quad b
  obtain ⟨toks, pus', roots, never', h1, hf, ht⟩ := genBlock_ok g _ order horder hg.static
  have hr : roots = [.init] ∧ never' = never := by
    have h := hf.analyze
    rw [hg.changes] at h
    have h' : (Except.ok (roots, never') : Except PyErr _) = .ok ([.init], never) := h.symm.trans ha
    cases h'
    exact ⟨rfl, rfl⟩
  obtain ⟨rfl, rfl⟩ := hr
  have hord : order [CId.init] = [.init] := List.perm_singleton.1 (horder [.init])
  have hcP : g.changes.getD .P = (quad && b .P) := by rw [hg.changes]; cases quad <;> simp [changesOf, Changes.getD, Kind.canonIds]
  have hcA : g.changes.getD .A = b .A := by rw [hg.changes]; cases quad <;> simp [changesOf, Changes.getD, Kind.canonIds]
  generalize hact : ((quad && b .P) || b .A) = act at *
  generalize halw : ((quad && !b .P) || !b .A) = alw
  have key : ∀ (cs : List (Call Act)) (m m' : Mem Θ V) (os : List (Obs V)) (s d : Bool), Inv g (Kind.scs.solver quad lp) m →
      m.inited = s → (act = true → s = true → ((quad && m.flags .P) || m.flags .A) = d) → (∀ p, g.changes.getD p = false → m.flags p = true) →
      g.runCalls (Kind.scs.solver quad lp) toks m cs = some (m', os) →
      made m'.calls = made m.calls +
        renewals (act && alw) (fun a => act && ((quad && (g.outdated a).contains .P) || (g.outdated a).contains .A)) s (act && d) cs := by
    intro cs
    induction cs with
    | nil =>
      intro m m' os s d _ _ _ _ h
      simp only [Gen.runCalls, Option.some.injEq, Prod.mk.injEq] at h
      rw [← h.1]; rfl
    | cons c cs ih =>
      intro m m' os s d hinv hs hd hfl h
      cases c with
      | update a =>
        have := ih (g.update a m) m' os s (d || ((quad && (g.outdated a).contains .P) || (g.outdated a).contains .A))
          (inv_update g hg.sound _ a m hinv) hs ?_ ?_ h
        · rw [this]
          simp only [renewals]
          rw [Bool.and_or_distrib_left]
          rfl
        · intro h1 h2
          have := hd h1 h2
          rw [← this]
          simp only [Gen.update]
          cases quad <;> cases m.flags .P <;> cases m.flags .A <;> simp
        · intro p hp
          simp only [Gen.update]; rw [hfl p hp, Bool.or_true]
      | solve =>
        obtain ⟨m1, o, h1, h2, _, hin, _⟩ := solve_ok g hg.sound _ _ never' (order [.init]) hf (horder _) toks ht m hinv
        have hset := solve_settled g hg.sound _ _ never' (order [.init]) hf (horder _) toks ht m m1 o hinv hfl h1
        simp only [Gen.runCalls, h1] at h
        cases hr : g.runCalls (Kind.scs.solver quad lp) toks m1 cs with
        | none => simp [hr] at h
        | some r =>
          obtain ⟨m2, os2⟩ := r
          simp only [hr, Option.some.injEq, Prod.mk.injEq] at h
          have hcalls : made m1.calls = (if !m.inited || (!never'.contains .PA && ((quad && m.flags .P) || m.flags .A)) then 1 else 0)
              + made m.calls := by
            simp only [Gen.solve, ht, Option.some.injEq, Prod.mk.injEq] at h1
            rw [← h1.1, hord, hg.mode]
            exact scs_block g quad never' hni (g.canonicalize m)
          have hdue : act = true → ((quad && m1.flags .P) || m1.flags .A) = alw := by
            intro hat
            rw [hset.2 .P, hset.2 .A, hcP, hcA, ← halw]
            cases quad <;> simp
          have := ih m1 m2 os2 true alw h2 hset.1 (fun h _ => hdue h) (fun p hp => by rw [hset.2 p, hp]; rfl) hr
          rw [← h.1, this, hcalls, hs, hnp]
          simp only [renewals]
          have hcond : (!s || (!(!act) && ((quad && m.flags .P) || m.flags .A))) = (!s || (act && d)) := by
            cases s with
            | false => rfl
            | true =>
              cases act with
              | false => rfl
              | true => rw [hd rfl rfl]; simp
          rw [hcond]
          omega
  obtain ⟨m, os, h2, _, _⟩ := runCalls_ok g hg.sound _ _ never' (order [.init]) hf (horder _) toks ht history _ (inv_init g hg.sound _ junk)
  refine ⟨toks, pus', m, os, h1, h2, ?_⟩
  have := key history _ m os false false (inv_init g hg.sound _ junk) rfl (fun _ h => by cases h) (fun _ _ => rfl) h2
  unfold live
  rw [show createdBySolve .scs = 0 from rfl, Nat.mul_zero, Nat.add_zero]
  have h0 : made (g.initMem (Kind.scs.solver quad lp) junk).calls = 0 := rfl
  rw [h0, Nat.zero_add, Bool.and_false] at this
  exact this

theorem renewals_off (marks : Act → Bool) (hm : ∀ a, marks a = false) : ∀ (cs : List (Call Act)),
    renewals false marks true false cs = 0 ∧ renewals false marks false false cs ≤ 1 := by
  intro cs
  induction cs with
  | nil => exact ⟨rfl, Nat.zero_le _⟩
  | cons c cs ih =>
    cases c with
    | update a => simp only [renewals, hm, Bool.or_false]; exact ih
    | solve => simp only [renewals]; rw [ih.1]; decide

/-- **C81, SCS with constant matrices.** At most one workspace after any history. -/
theorem C81_scs_partial {quad lp : Bool} {b : CId → Bool} {g : Gen Θ V Act} (hg : Generated .scs quad lp b g)
    (hP : (quad && b .P) = false) (hA : b .A = false) (order : List CId → List CId)
    (horder : ∀ l, (order l).Perm l) (junk : CId → V) (history : List (Call Act)) :
    ∃ toks pus' m os,
      genBlock (Kind.scs.solver quad lp).pus g.quad g.changes order = .ok (toks, pus') ∧
      g.runCalls (Kind.scs.solver quad lp) toks (g.initMem (Kind.scs.solver quad lp) junk) history = some (m, os) ∧
      live .scs m (solves history) ≤ 1 := by
  obtain ⟨toks, pus', m, os, h1, h2, h3⟩ := C81_scs hg order horder junk history
  refine ⟨toks, pus', m, os, h1, h2, ?_⟩
  rw [h3, hP, hA]
  exact (renewals_off _ (fun _ => rfl) history).2

theorem renewals_on (marks : Act → Bool) : ∀ (cs : List (Call Act)) (s : Bool), renewals true marks s true cs = solves cs := by
  intro cs
  induction cs with
  | nil => intro s; rfl
  | cons c cs ih =>
    intro s
    cases c with
    | update a => simp only [renewals, solves, Bool.true_or]; exact ih s
    | solve => simp only [renewals, solves, Bool.or_true, if_true]; rw [ih true]

theorem renewals_on' (marks : Act → Bool) : ∀ (cs : List (Call Act)) (d : Bool), renewals true marks false d cs = solves cs := by
  intro cs
  induction cs with
  | nil => intro d; rfl
  | cons c cs ih =>
    intro d
    cases c with
    | update a => simp only [renewals, solves]; exact ih _
    | solve => simp only [renewals, solves, Bool.not_false, Bool.true_or, if_true]; rw [renewals_on]

/-- **C81 fails: SCS.** With a quadratic objective, if exactly one of `P` and `A` depends on parameters, every solve creates a workspace and
releases none, even without any update. -/
theorem C81_fails_scs {lp : Bool} {b : CId → Bool} {g : Gen Θ V Act} (hg : Generated .scs true lp b g) (hb : b .P = !b .A)
    (order : List CId → List CId) (horder : ∀ l, (order l).Perm l) (junk : CId → V) (history : List (Call Act)) :
    ∃ toks pus' m os,
      genBlock (Kind.scs.solver true lp).pus g.quad g.changes order = .ok (toks, pus') ∧
      g.runCalls (Kind.scs.solver true lp) toks (g.initMem (Kind.scs.solver true lp) junk) history = some (m, os) ∧
      live .scs m (solves history) = solves history := by
  obtain ⟨toks, pus', m, os, h1, h2, h3⟩ := C81_scs hg order horder junk history
  refine ⟨toks, pus', m, os, h1, h2, ?_⟩
  rw [h3, hb]
  cases b .A <;> exact renewals_on' _ history false

/-- An update and a solve, `n` times. -/
def rounds (a : Act) : Nat → List (Call Act)
  | 0 => []
  | n + 1 => .update a :: .solve :: rounds a n

theorem renewals_rounds (always : Bool) (marks : Act → Bool) (a : Act) (ha : marks a = true) : ∀ (n : Nat) (s d : Bool),
    renewals always marks s d (rounds a n) = n := by
  intro n
  induction n with
  | zero => intro s d; rfl
  | succ n ih =>
    intro s d
    simp only [rounds, renewals, ha, Bool.or_true, if_true]
    rw [ih]; omega

/-- **C81 fails: SCS with updates.** Updating a parameter on which `P` or `A` depends and solving, `n` times, leaves `n` workspaces: there is no
bound. -/
theorem C81_fails_updates {quad lp : Bool} {b : CId → Bool} {g : Gen Θ V Act} (hg : Generated .scs quad lp b g)
    (hb : ((quad && b .P) || b .A) = true) (a : Act) (ha : ((quad && (g.outdated a).contains .P) || (g.outdated a).contains .A) = true)
    (order : List CId → List CId) (horder : ∀ l, (order l).Perm l) (junk : CId → V) (n : Nat) :
    ∃ toks pus' m os,
      genBlock (Kind.scs.solver quad lp).pus g.quad g.changes order = .ok (toks, pus') ∧
      g.runCalls (Kind.scs.solver quad lp) toks (g.initMem (Kind.scs.solver quad lp) junk) (rounds a n) = some (m, os) ∧
      live .scs m (solves (rounds a n)) = n := by
  obtain ⟨toks, pus', m, os, h1, h2, h3⟩ := C81_scs hg order horder junk (rounds a n)
  refine ⟨toks, pus', m, os, h1, h2, ?_⟩
  rw [h3]
  exact renewals_rounds _ _ a (by rw [hb]; exact ha) n false false

/-- **C81 fails: Clarabel.** Every solve creates a solver and releases none. -/
theorem C81_fails_clarabel {quad lp : Bool} {b : CId → Bool} {g : Gen Θ V Act} (hg : Generated .clarabel quad lp b g)
    (order : List CId → List CId) (horder : ∀ l, (order l).Perm l) (junk : CId → V) (history : List (Call Act)) :
    ∃ toks pus' m os,
      genBlock (Kind.clarabel.solver quad lp).pus g.quad g.changes order = .ok (toks, pus') ∧
      g.runCalls (Kind.clarabel.solver quad lp) toks (g.initMem (Kind.clarabel.solver quad lp) junk) history = some (m, os) ∧
      live .clarabel m (solves history) = solves history := by
  obtain ⟨toks, pus', m, os, h1, h2, _⟩ := C01_every_solve_uses_current_parameters hg order horder junk history
  refine ⟨toks, pus', m, os, h1, h2, ?_⟩
  unfold live
  rw [sum_zero_of _ fun f _ => rfl]
  simp [createdBySolve]

/-! The problem of `exGen` has a vector `b` and a matrix `A` that depend on parameters; `P` does not. -/

/-- The hypotheses of `C81_fails_scs` hold with a quadratic objective: three solves without updates leave three workspaces. -/
example : ∃ toks pus' m os,
    genBlock (Kind.scs.solver true false).pus true (exGen true).changes id = .ok (toks, pus') ∧
    (exGen true).runCalls (Kind.scs.solver true false) toks ((exGen true).initMem (Kind.scs.solver true false) fun _ => 0)
      [.solve, .solve, .solve] = some (m, os) ∧ live .scs m 3 = 3 := by
  refine ⟨_, _, _, _, rfl, rfl, ?_⟩
  decide

/-- Without: one workspace for three solves, two after an update of `A`. -/
example : ∃ toks pus' m os m' os',
    genBlock (Kind.scs.solver false false).pus false (exGen false).changes id = .ok (toks, pus') ∧
    (exGen false).runCalls (Kind.scs.solver false false) toks ((exGen false).initMem (Kind.scs.solver false false) fun _ => 0)
      [.solve, .update (true, 3), .solve, .solve] = some (m, os) ∧ live .scs m 3 = 1 ∧
    (exGen false).runCalls (Kind.scs.solver false false) toks ((exGen false).initMem (Kind.scs.solver false false) fun _ => 0)
      [.solve, .update (false, 3), .solve, .solve] = some (m', os') ∧ live .scs m' 3 = 2 := by
  refine ⟨_, _, _, _, _, _, rfl, rfl, ?_, rfl, ?_⟩ <;> decide

/-- Hypotheses of `C81_scs`, `C81_fails_updates`. -/
example : Generated .scs false false (pat false false false false true true false false false false) (exGen false) ∧
    ((false && ((exGen false).outdated (false, 3)).contains .P) || ((exGen false).outdated (false, 3)).contains .A) = true :=
  ⟨exGen_generated false, by decide⟩

end Verif.Props
