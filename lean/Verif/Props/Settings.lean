import Verif.Props.Memory
import Verif.Spec.Settings
import Mathlib.Data.List.Forall2
/-! C86: settings functions of the C interface. -/
namespace Verif.Props
open Verif.Model Verif.Spec Verif.Lemmas Verif.Model.Memory Verif.Spec.Memory Verif.Model.Settings Verif.Spec.Settings
variable {Θ V Act S : Type}

theorem compiles_tail {en : List String} {op : Op Act S} {ops : List (Op Act S)} (h : Compiles en (op :: ops)) : Compiles en ops :=
  fun n v hm => h n v (List.mem_cons_of_mem _ hm)

/-- Settings functions do not interfere with data: a program runs exactly as without them. -/
theorem run_of_calls (k : Kind) (e : Env S) (g : Gen Θ V Act) (sv : Solver) (toks : List Tok) : ∀ (ops : List (Op Act S)) (st : State Θ V S)
    (m : Mem Θ V) (os : List (Obs V)), Compiles e.enabled ops → g.runCalls sv toks st.mem (calls ops) = some (m, os) →
    ∃ st' outs, Settings.run k e g sv toks st ops = some (st', outs) ∧ st'.mem = m ∧ outs.map Prod.fst = os := by
  intro ops
  induction ops with
  | nil =>
    intro st m os _ h
    simp only [calls, Gen.runCalls, Option.some.injEq, Prod.mk.injEq] at h
    exact ⟨st, [], rfl, h.1, h.2⟩
  | cons op ops ih =>
    intro st m os hc h
    cases op with
    | update a =>
      obtain ⟨st', outs, h1, h2, h3⟩ := ih { st with mem := g.update a st.mem } m os (compiles_tail hc) h
      exact ⟨st', outs, by simp only [Settings.run, Settings.step, h1, List.nil_append], h2, h3⟩
    | set n v =>
      obtain ⟨st', outs, h1, h2, h3⟩ := ih { st with store := setTo st.store n v } m os (compiles_tail hc) h
      have hn : e.enabled.contains n = true := by simpa using hc n v List.mem_cons_self
      exact ⟨st', outs, by simp only [Settings.run, Settings.step, hn, if_true, h1, List.nil_append], h2, h3⟩
    | reset =>
      obtain ⟨st', outs, h1, h2, h3⟩ := ih { st with store := e.resetTo k st.store } m os (compiles_tail hc) h
      exact ⟨st', outs, by simp only [Settings.run, Settings.step, h1, List.nil_append], h2, h3⟩
    | solve =>
      simp only [calls, Gen.runCalls] at h
      cases hs : g.solve sv toks st.mem with
      | none => rw [hs] at h; cases h
      | some r =>
        obtain ⟨m1, o⟩ := r
        simp only [hs] at h
        cases hr : g.runCalls sv toks m1 (calls ops) with
        | none => rw [hr] at h; cases h
        | some r2 =>
          obtain ⟨m2, os2⟩ := r2
          simp only [hr, Option.some.injEq, Prod.mk.injEq] at h
          let new := m1.calls.take (m1.calls.length - st.mem.calls.length)
          let store := e.afterCalls k new st.store
          let used := e.handOver k new store st.used
          obtain ⟨st', outs, h1, h2, h3⟩ := ih { mem := m1, store := store, used := used } m2 os2 (compiles_tail hc) hr
          refine ⟨st', (o, used) :: outs, ?_, h2.trans h.1, by rw [List.map_cons, h3]; exact h.2⟩
          simp only [Settings.run, Settings.step, hs]
          rw [h1]
          rfl

/-- The property: whatever the program does, every solve works with the settings that were asked for. -/
def SettingsHold (k : Kind) (quad lp : Bool) (g : Gen Θ V Act) (e : Env S) (order : List CId → List CId) (junk : CId → V) : Prop :=
  ∀ ops : List (Op Act S), Compiles e.enabled ops → ∃ toks pus' st outs,
    genBlock (k.solver quad lp).pus g.quad g.changes order = .ok (toks, pus') ∧
    Settings.run k e g (k.solver quad lp) toks (e.init k g (k.solver quad lp) junk) ops = some (st, outs) ∧
    List.Forall₂ (Agree (· ∈ e.enabled)) (requested e.table e.table ops) (outs.map Prod.snd)

/-- **C86, data.** Programs that compile run, and the data the solver works on are the same as without the calls of settings functions. -/
theorem C86_data {k : Kind} {quad lp : Bool} {b : CId → Bool} {g : Gen Θ V Act} (hg : Generated k quad lp b g) (e : Env S)
    (order : List CId → List CId) (horder : ∀ l, (order l).Perm l) (junk : CId → V) (ops : List (Op Act S)) (hc : Compiles e.enabled ops) :
    ∃ toks pus' st outs,
      genBlock (k.solver quad lp).pus g.quad g.changes order = .ok (toks, pus') ∧
      Settings.run k e g (k.solver quad lp) toks (e.init k g (k.solver quad lp) junk) ops = some (st, outs) ∧
      g.runCalls (k.solver quad lp) toks (g.initMem (k.solver quad lp) junk) (calls ops) = some (st.mem, outs.map Prod.fst) ∧
      List.Forall₂ (Fresh g.canonOf (k.solver quad lp).uses) (solveParams g.assign g.θ0 (calls ops)) (outs.map Prod.fst) := by
  obtain ⟨toks, pus', m, os, h1, h2, _, h4⟩ := C01_every_solve_uses_current_parameters hg order horder junk (calls ops)
  obtain ⟨st, outs, h5, h6, h7⟩ := run_of_calls k e g _ toks ops (e.init k g (k.solver quad lp) junk) m os hc h2
  exact ⟨toks, pus', st, outs, h1, h5, by rw [h6, h7]; exact h2, by rw [h7]; exact h4⟩

/-- A program that does not compile does not run. -/
theorem C86_compiles (k : Kind) (e : Env S) (g : Gen Θ V Act) (sv : Solver) (toks : List Tok) : ∀ (ops : List (Op Act S)) (st : State Θ V S)
    (r : State Θ V S × List (Obs V × (String → S))), Settings.run k e g sv toks st ops = some r → Compiles e.enabled ops := by
  intro ops
  induction ops with
  | nil => intro st r _ n v h; cases h
  | cons op ops ih =>
    intro st r h
    simp only [Settings.run] at h
    cases hs : Settings.step k e g sv toks st op with
    | none => rw [hs] at h; cases h
    | some r1 =>
      obtain ⟨st1, o⟩ := r1
      simp only [hs] at h
      cases hr : Settings.run k e g sv toks st1 ops with
      | none => rw [hr] at h; cases h
      | some r2 =>
        have := ih st1 r2 hr
        intro n v hm
        rcases List.mem_cons.1 hm with heq | hm
        · subst heq
          simp only [Settings.step] at hs
          split at hs
          · rename_i hc; simpa using hc
          · cases hs
        · exact this n v hm

/-- Value after a reset. -/
def resetValue (k : Kind) (e : Env S) : String → S := if k.hasReset then e.lib else e.table

theorem resetTo_eq (k : Kind) (e : Env S) (store : String → S) (n : String) (hn : n ∈ e.enabled) : e.resetTo k store n = resetValue k e n := by
  unfold Env.resetTo resetValue
  split
  · rfl
  · simp [hn]

/-- One step of a run. -/
theorem run_cons {k : Kind} {e : Env S} {g : Gen Θ V Act} {sv : Solver} {toks : List Tok} {op : Op Act S} {ops : List (Op Act S)}
    {st st' : State Θ V S} {outs : List (Obs V × (String → S))} (h : Settings.run k e g sv toks st (op :: ops) = some (st', outs)) :
    ∃ st1 o os, Settings.step k e g sv toks st op = some (st1, o) ∧ Settings.run k e g sv toks st1 ops = some (st', os) ∧ outs = o ++ os := by
  simp only [Settings.run] at h
  cases hs : Settings.step k e g sv toks st op with
  | none => rw [hs] at h; cases h
  | some r1 =>
    obtain ⟨st1, o⟩ := r1
    simp only [hs] at h
    cases hr : Settings.run k e g sv toks st1 ops with
    | none => rw [hr] at h; cases h
    | some r2 =>
      obtain ⟨st2, os⟩ := r2
      simp only [hr, Option.some.injEq, Prod.mk.injEq] at h
      exact ⟨st1, o, os, rfl, by rw [hr, h.1], h.2.symm⟩

/-- Outcome of a solve. -/
theorem step_solve {k : Kind} {e : Env S} {g : Gen Θ V Act} {sv : Solver} {toks : List Tok} {st st1 : State Θ V S}
    {o : List (Obs V × (String → S))} (h : Settings.step k e g sv toks st .solve = some (st1, o)) :
    ∃ m ob new, g.solve sv toks st.mem = some (m, ob) ∧ new = m.calls.take (m.calls.length - st.mem.calls.length) ∧
      st1 = ⟨m, e.afterCalls k new st.store, e.handOver k new (e.afterCalls k new st.store) st.used⟩ ∧ o = [(ob, st1.used)] := by
  simp only [Settings.step] at h
  cases hs : g.solve sv toks st.mem with
  | none => rw [hs] at h; cases h
  | some r =>
    obtain ⟨m, ob⟩ := r
    simp only [hs, Option.some.injEq, Prod.mk.injEq] at h
    refine ⟨m, ob, _, rfl, rfl, h.1.symm, ?_⟩
    rw [← h.1]
    exact h.2.symm

/-- Settings that reach the solver at every solve. -/
def passed (k : Kind) (e : Env S) (n : String) : Prop := n ∈ e.enabled ∧ ¬ (setUpBefore k = true ∧ n ∈ e.atSetup)

theorem current_run {k : Kind} (hk : k ≠ .scs ∧ k ≠ .qocogen) (e : Env S) (g : Gen Θ V Act) (sv : Solver) (toks : List Tok) :
    ∀ (ops : List (Op Act S)) (st st' : State Θ V S) (outs : List (Obs V × (String → S))) (cur : String → S),
    Settings.run k e g sv toks st ops = some (st', outs) → (∀ n ∈ e.enabled, st.store n = cur n) →
    List.Forall₂ (Agree (passed k e)) (requested (resetValue k e) cur ops) (outs.map Prod.snd) := by
  intro ops
  induction ops with
  | nil =>
    intro st st' outs cur h _
    simp only [Settings.run, Option.some.injEq, Prod.mk.injEq] at h
    rw [← h.2]
    exact List.Forall₂.nil
  | cons op ops ih =>
    intro st st' outs cur h hst
    obtain ⟨st1, o, os, h1, h2, rfl⟩ := run_cons h
    cases op with
    | update a =>
      simp only [Settings.step, Option.some.injEq, Prod.mk.injEq] at h1
      rw [← h1.2, List.nil_append]
      exact ih st1 st' os cur h2 (by rw [← h1.1]; exact hst)
    | set n v =>
      simp only [Settings.step] at h1
      split at h1
      · simp only [Option.some.injEq, Prod.mk.injEq] at h1
        rw [← h1.2, List.nil_append]
        refine ih st1 st' os _ h2 ?_
        intro n' hn'
        rw [← h1.1]
        show setTo st.store n v n' = _
        unfold setTo
        rw [hst n' hn']
      · cases h1
    | reset =>
      simp only [Settings.step, Option.some.injEq, Prod.mk.injEq] at h1
      rw [← h1.2, List.nil_append]
      exact ih st1 st' os _ h2 (by intro n hn; rw [← h1.1]; exact resetTo_eq k e _ n hn)
    | solve =>
      obtain ⟨m, ob, new, _, _, hs, ho⟩ := step_solve h1
      have ha : e.afterCalls k new st.store = st.store := by
        unfold Env.afterCalls
        rw [if_neg fun h => hk.2 h.1]
      rw [ha] at hs
      rw [ho]
      refine List.Forall₂.cons ?_ (ih st1 st' os cur h2 (by rw [hs]; exact hst))
      intro n hn
      show cur n = st1.used n
      rw [hs]
      show _ = e.handOver k new st.store st.used n
      rw [← hst n hn.1]
      unfold Env.handOver
      have hp : (e.enabled.contains n && !(setUpBefore k && e.atSetup.contains n)) = true := by
        have h1 : e.enabled.contains n = true := by simpa using hn.1
        rw [h1]
        have h2 := hn.2
        cases hs : setUpBefore k with
        | false => rfl
        | true => simp only [hs, true_and] at h2; simpa using h2
      cases k with
      | scs => exact absurd rfl hk.1
      | qocogen => exact absurd rfl hk.2
      | osqp => rfl
      | ecos => simp only [Kind.delivery]; rw [if_pos hp]
      | clarabel => simp only [Kind.delivery]; rw [if_pos hp]
      | qoco => simp only [Kind.delivery]; rw [if_pos hp]

/-- **C86, OSQP, ECOS, Clarabel, QOCO.** The exact settings of every solve, for every setting that the library does not read while it sets up an
object before: those asked for, starting with the values before `main`, where a reset stores the library's values for OSQP. -/
theorem C86_exact {k : Kind} (hk : k ≠ .scs ∧ k ≠ .qocogen) {quad lp : Bool} {b : CId → Bool} {g : Gen Θ V Act} (hg : Generated k quad lp b g)
    (e : Env S) (order : List CId → List CId) (horder : ∀ l, (order l).Perm l) (junk : CId → V) (ops : List (Op Act S))
    (hc : Compiles e.enabled ops) :
    ∃ toks pus' st outs,
      genBlock (k.solver quad lp).pus g.quad g.changes order = .ok (toks, pus') ∧
      Settings.run k e g (k.solver quad lp) toks (e.init k g (k.solver quad lp) junk) ops = some (st, outs) ∧
      List.Forall₂ (Agree (passed k e)) (requested (if k = .osqp then e.lib else e.table) (if k = .osqp then e.compiled else e.table) ops)
        (outs.map Prod.snd) := by
  obtain ⟨toks, pus', st, outs, h1, h2, _⟩ := C86_data hg e order horder junk ops hc
  refine ⟨toks, pus', st, outs, h1, h2, ?_⟩
  have hr : resetValue k e = if k = .osqp then e.lib else e.table := by
    cases k <;> first | rfl | exact absurd rfl hk.1 | exact absurd rfl hk.2
  rw [← hr]
  refine current_run hk e g _ toks ops _ st outs _ h2 ?_
  intro n hn
  have hn' : e.enabled.contains n = true := by simpa using hn
  cases k <;> first | rfl | exact absurd rfl hk.1 | exact absurd rfl hk.2 | simp [Env.init, Env.initStore, hn]

theorem agree_mono {p q : String → Prop} (h : ∀ n, q n → p n) {ls ms : List (String → S)} (hf : List.Forall₂ (Agree p) ls ms) :
    List.Forall₂ (Agree q) ls ms := hf.imp fun _ _ hs n hn => hs n (h n hn)

/-- **C86, ECOS, Clarabel and QOCO.** The property holds, if no enabled setting is read only while the object of ECOS or QOCO is set up. -/
theorem C86_partial {k : Kind} (hk : k = .ecos ∨ k = .clarabel ∨ k = .qoco) {quad lp : Bool} {b : CId → Bool} {g : Gen Θ V Act}
    (hg : Generated k quad lp b g) (e : Env S) (hs : k = .clarabel ∨ ∀ n ∈ e.enabled, n ∉ e.atSetup)
    (order : List CId → List CId) (horder : ∀ l, (order l).Perm l) (junk : CId → V) : SettingsHold k quad lp g e order junk := by
  intro ops hc
  obtain ⟨toks, pus', st, outs, h1, h2, h3⟩ := C86_exact (k := k) (by rcases hk with rfl | rfl | rfl <;> decide) hg e order horder junk ops hc
  refine ⟨toks, pus', st, outs, h1, h2, ?_⟩
  have ho : k ≠ .osqp := by rcases hk with rfl | rfl | rfl <;> decide
  rw [if_neg ho, if_neg ho] at h3
  refine agree_mono ?_ h3
  intro n hn
  refine ⟨hn, fun h => ?_⟩
  rcases hs with rfl | hs
  · cases h.1
  · exact hs n hn h.2

/-- Which update functions a solve calls: the one that sets up the object exactly if there is none. -/
theorem solve_new {k : Kind} {quad lp : Bool} {b : CId → Bool} {g : Gen Θ V Act} (hg : Generated k quad lp b g)
    (hns : (k.solver quad lp).static = false) (hcl : ¬ (k = .clarabel ∧ lp = true)) {roots never order : List CId}
    (hf : StaticFacts (k.solver quad lp) g.quad g.changes roots never) (hperm : order.Perm roots) {toks : List Tok}
    (ht : ∀ s : Mem Θ V, execText evMem (doCall g (k.solver quad lp)) toks s
        = some (Verif.Spec.run (fireOf evMem) (doCall g (k.solver quad lp)) (norm g.quad (k.solver quad lp).pus) never genFuel (some order) s))
    {m m1 : Mem Θ V} {o : Obs V} (h : g.solve (k.solver quad lp) toks m = some (m1, o)) :
    (m1.calls.take (m1.calls.length - m.calls.length)).contains .init = !m.inited := by
  have hgd : initGuard (norm g.quad (k.solver quad lp).pus) = true := by rw [hg.mode]; exact guard_all k quad lp hg.possible hcl
  have hcalls : m1.calls = (Verif.Spec.run (fireOf evMem) (doCall g (k.solver quad lp)) (norm g.quad (k.solver quad lp).pus) never genFuel
      (some order) (g.canonicalize m)).calls := by
    simp only [Gen.solve, ht, Option.some.injEq, Prod.mk.injEq] at h
    rw [← h.1]; rfl
  cases hi : m.inited with
  | true =>
    obtain ⟨new, h3, h4⟩ := (run_calls g _ _ never hf.eff hgd genFuel).1 (some order) (g.canonicalize m) hi
    rw [hcalls, h3]
    show (List.take ((new ++ m.calls).length - m.calls.length) (new ++ m.calls)).contains .init = false
    rw [List.length_append, Nat.add_sub_cancel, List.take_left]
    simpa using h4
  | false =>
    have hio : initOK (k.solver quad lp) (norm g.quad (k.solver quad lp).pus) roots never = true := by
      have := hf.ini; rw [hns, Bool.false_or] at this; exact this
    obtain ⟨new, h3, h4⟩ := run_calls_first g _ roots never order _ hperm hf.eff hgd hio hf.one (g.canonicalize m) hi
    rw [hcalls, h3]
    show (List.take ((new ++ CId.init :: m.calls).length - m.calls.length) (new ++ CId.init :: m.calls)).contains .init = true
    have hl : (new ++ CId.init :: m.calls).length - m.calls.length = (new ++ [CId.init]).length := by
      simp only [List.length_append, List.length_cons, List.length_nil]; omega
    rw [hl, show new ++ CId.init :: m.calls = (new ++ [CId.init]) ++ m.calls by simp, List.take_left]
    simp

/-- A setting that is read only while the object is set up keeps the library's value. -/
theorem atSetup_run {k : Kind} (hk : k = .ecos ∨ k = .qoco) {quad lp : Bool} {b : CId → Bool} {g : Gen Θ V Act} (hg : Generated k quad lp b g)
    (e : Env S) {roots never order : List CId} (hf : StaticFacts (k.solver quad lp) g.quad g.changes roots never) (hperm : order.Perm roots)
    {toks : List Tok}
    (ht : ∀ s : Mem Θ V, execText evMem (doCall g (k.solver quad lp)) toks s
        = some (Verif.Spec.run (fireOf evMem) (doCall g (k.solver quad lp)) (norm g.quad (k.solver quad lp).pus) never genFuel (some order) s))
    (n : String) (hn : n ∈ e.atSetup) :
    ∀ (ops : List (Op Act S)) (st st' : State Θ V S) (outs : List (Obs V × (String → S))),
    Settings.run k e g (k.solver quad lp) toks st ops = some (st', outs) → Inv g (k.solver quad lp) st.mem →
    (st.mem.inited = true → st.used n = e.lib n) → ∀ x ∈ outs, x.2 n = e.lib n := by
  have hns : (k.solver quad lp).static = false := by rcases hk with rfl | rfl <;> rfl
  have hcl : ¬ (k = .clarabel ∧ lp = true) := by rcases hk with rfl | rfl <;> rintro ⟨h, _⟩ <;> cases h
  intro ops
  induction ops with
  | nil =>
    intro st st' outs h _ _ x hx
    simp only [Settings.run, Option.some.injEq, Prod.mk.injEq] at h
    rw [← h.2] at hx; cases hx
  | cons op ops ih =>
    intro st st' outs h hinv hu
    obtain ⟨st1, o, os, h1, h2, rfl⟩ := run_cons h
    cases op with
    | update a =>
      simp only [Settings.step, Option.some.injEq, Prod.mk.injEq] at h1
      rw [← h1.2, List.nil_append]
      refine ih st1 st' os h2 ?_ ?_ <;> rw [← h1.1]
      · exact inv_update g hg.sound _ a _ hinv
      · exact hu
    | set n' v =>
      simp only [Settings.step] at h1
      split at h1
      · simp only [Option.some.injEq, Prod.mk.injEq] at h1
        rw [← h1.2, List.nil_append]
        refine ih st1 st' os h2 ?_ ?_ <;> rw [← h1.1]
        · exact hinv
        · exact hu
      · cases h1
    | reset =>
      simp only [Settings.step, Option.some.injEq, Prod.mk.injEq] at h1
      rw [← h1.2, List.nil_append]
      refine ih st1 st' os h2 ?_ ?_ <;> rw [← h1.1]
      · exact hinv
      · exact hu
    | solve =>
      obtain ⟨m, ob, new, hsol, hnew, hs, ho⟩ := step_solve h1
      obtain ⟨m1, o1, h3, hinv1, _, _, _⟩ := solve_ok g hg.sound _ roots never order hf hperm toks ht st.mem hinv
      rw [hsol] at h3
      simp only [Option.some.injEq, Prod.mk.injEq] at h3
      have hi := solve_new hg hns hcl hf hperm ht hsol
      rw [← hnew] at hi
      have hused : st1.used n = e.lib n := by
        rw [hs]
        show e.handOver k new _ st.used n = _
        have hat : e.atSetup.contains n = true := by simpa using hn
        have hsu : setUpBefore k = true := by rcases hk with rfl | rfl <;> rfl
        have hd : k.delivery = .copied := by rcases hk with rfl | rfl <;> rfl
        unfold Env.handOver
        rw [hd]
        simp only [hat, hsu, Bool.and_self, Bool.not_true, Bool.and_false, Bool.false_eq_true, if_false]
        rw [hi]
        cases hmi : st.mem.inited with
        | false => rfl
        | true => simpa using hu hmi
      intro x hx
      rcases List.mem_append.1 hx with hx | hx
      · rw [ho] at hx
        rw [List.mem_singleton.1 hx]
        exact hused
      · refine ih st1 st' os h2 ?_ (fun _ => hused) x hx
        rw [hs, h3.1]; exact hinv1

/-- **C86, ECOS and QOCO.** The property holds exactly if no enabled setting is read only while the object is set up: for those the library's value
is used at every solve, whatever the program does. (QOCO's setting `ruiz_iters` concerns scaling of data in `qoco_setup`.) -/
theorem C86_setup_iff {k : Kind} (hk : k = .ecos ∨ k = .qoco) {quad lp : Bool} {b : CId → Bool} {g : Gen Θ V Act}
    (hg : Generated k quad lp b g) (e : Env S) (hS : ∀ s : S, ∃ t, t ≠ s)
    (order : List CId → List CId) (horder : ∀ l, (order l).Perm l) (junk : CId → V) :
    SettingsHold k quad lp g e order junk ↔ ∀ n ∈ e.enabled, n ∉ e.atSetup := by
  constructor
  · intro h n hn hat
    obtain ⟨v, hv⟩ := hS (e.lib n)
    have hc : Compiles e.enabled ([.set n v, .solve] : List (Op Act S)) := by
      intro n' v' hm
      rcases List.mem_cons.1 hm with hm | hm
      · cases hm; exact hn
      · cases List.mem_singleton.1 hm
    obtain ⟨toks, pus', st, outs, h1, h2, h3⟩ := h _ hc
    obtain ⟨toks', pus'', roots, never, h1', hf, ht⟩ := genBlock_ok g _ order horder hg.static
    rw [h1] at h1'
    simp only [Except.ok.injEq, Prod.mk.injEq] at h1'
    rw [← h1'.1] at ht
    have hns : (k.solver quad lp).static = false := by rcases hk with rfl | rfl <;> rfl
    have hall := atSetup_run hk hg e hf (horder roots) ht n hat _ _ st outs h2 (inv_init g hg.sound _ junk)
      (fun hi => by
        have : (k.solver quad lp).static = true := hi
        rw [hns] at this; cases this)
    obtain ⟨x, xs, hx, hxs, heq⟩ := List.forall₂_cons_left_iff.1 h3
    have hm : ∃ y ∈ outs, y.2 = x := by
      have : x ∈ outs.map Prod.snd := by rw [heq]; exact List.mem_cons_self
      simpa using this
    obtain ⟨y, hy, hyx⟩ := hm
    have h5 := hall y hy
    rw [hyx, ← hx n hn] at h5
    exact hv (by simpa using h5)
  · intro h
    exact C86_partial (by rcases hk with rfl | rfl <;> simp) hg e (Or.inr h) order horder junk

theorem requested_congr (ns : String → Prop) (d d' : String → S) (hd : Agree ns d d') : ∀ (ops : List (Op Act S)) (c c' : String → S),
    Agree ns c c' → List.Forall₂ (Agree ns) (requested d c ops) (requested d' c' ops) := by
  intro ops
  induction ops with
  | nil => intro c c' _; exact List.Forall₂.nil
  | cons op ops ih =>
    intro c c' h
    cases op with
    | update a => exact ih c c' h
    | set n v =>
      refine ih _ _ ?_
      intro n' hn'
      dsimp only
      rw [h n' hn']
    | reset => exact ih d d' hd
    | solve => exact List.Forall₂.cons h (ih c c' h)

theorem agree_trans {ns : String → Prop} {as bs cs : List (String → S)} (h1 : List.Forall₂ (Agree ns) as bs) (h2 : List.Forall₂ (Agree ns) bs cs) :
    List.Forall₂ (Agree ns) as cs := by
  induction h1 generalizing cs with
  | nil => exact h2
  | cons h _ ih =>
    cases h2 with
    | cons h' t => exact List.Forall₂.cons (fun n hn => (h n hn).trans (h' n hn)) (ih t)

theorem agree_symm {ns : String → Prop} {as bs : List (String → S)} (h1 : List.Forall₂ (Agree ns) as bs) : List.Forall₂ (Agree ns) bs as := by
  induction h1 with
  | nil => exact List.Forall₂.nil
  | cons h _ ih => exact List.Forall₂.cons (fun n hn => (h n hn).symm) ih

/-- **C86, OSQP.** The property holds exactly if the values in the code that OSQP generates and those that its reset function stores are the
defaults in the interface's table, for the enabled settings. -/
theorem C86_osqp_iff {quad lp : Bool} {b : CId → Bool} {g : Gen Θ V Act} (hg : Generated .osqp quad lp b g) (e : Env S)
    (order : List CId → List CId) (horder : ∀ l, (order l).Perm l) (junk : CId → V) :
    SettingsHold .osqp quad lp g e order junk ↔ ∀ n ∈ e.enabled, e.compiled n = e.table n ∧ e.lib n = e.table n := by
  have hpass : ∀ n, n ∈ e.enabled → passed .osqp e n := fun n hn => ⟨hn, fun h => by cases h.1⟩
  constructor
  · intro h n hn
    have main : ∀ ops : List (Op Act S), Compiles e.enabled ops →
        List.Forall₂ (Agree (· ∈ e.enabled)) (requested e.table e.table ops) (requested e.lib e.compiled ops) := by
      intro ops hc
      obtain ⟨toks, pus', st, outs, h1, h2, h3⟩ := h ops hc
      obtain ⟨toks', pus'', st', outs', h1', h2', h3'⟩ := C86_exact (k := .osqp) (by decide) hg e order horder junk ops hc
      rw [h1] at h1'
      simp only [Except.ok.injEq, Prod.mk.injEq] at h1'
      rw [← h1'.1, h2] at h2'
      simp only [Option.some.injEq, Prod.mk.injEq] at h2'
      rw [← h2'.2] at h3'
      have h4 := agree_mono hpass h3'
      rw [if_pos rfl, if_pos rfl] at h4
      exact agree_trans h3 (agree_symm h4)
    constructor
    · have := main [.solve] (fun n v hm => by cases List.mem_singleton.1 hm)
      simp only [requested, List.forall₂_cons, List.forall₂_nil_left_iff, and_true] at this
      exact (this n hn).symm
    · have := main [.reset, .solve] (fun n v hm => by
        rcases List.mem_cons.1 hm with hm | hm
        · cases hm
        · cases List.mem_singleton.1 hm)
      simp only [requested, List.forall₂_cons, List.forall₂_nil_left_iff, and_true] at this
      exact (this n hn).symm
  · intro h ops hc
    obtain ⟨toks, pus', st, outs, h1, h2, h3⟩ := C86_exact (k := .osqp) (by decide) hg e order horder junk ops hc
    refine ⟨toks, pus', st, outs, h1, h2, ?_⟩
    rw [if_pos rfl, if_pos rfl] at h3
    exact agree_trans (requested_congr _ e.table e.lib (fun n hn => (h n hn).2.symm) ops e.table e.compiled (fun n hn => (h n hn).1.symm))
      (agree_mono hpass h3)

/-! ### QOCOGEN -/

theorem qocogen_run {quad lp : Bool} {b : CId → Bool} {g : Gen Θ V Act} (hg : Generated .qocogen quad lp b g)
    (e : Env S) {roots never order : List CId} (hf : StaticFacts (Kind.qocogen.solver quad lp) g.quad g.changes roots never)
    (hperm : order.Perm roots) {toks : List Tok}
    (ht : ∀ s : Mem Θ V, execText evMem (doCall g (Kind.qocogen.solver quad lp)) toks s = some (Verif.Spec.run (fireOf evMem)
      (doCall g (Kind.qocogen.solver quad lp)) (norm g.quad (Kind.qocogen.solver quad lp).pus) never genFuel (some order) s)) :
    ∀ (ops : List (Op Act S)) (st st' : State Θ V S) (outs : List (Obs V × (String → S))),
    Settings.run .qocogen e g (Kind.qocogen.solver quad lp) toks st ops = some (st', outs) → Inv g (Kind.qocogen.solver quad lp) st.mem →
    outs.map Prod.snd = overwritten e.load e.lib st.store st.mem.inited ops := by
  intro ops
  induction ops with
  | nil =>
    intro st st' outs h _
    simp only [Settings.run, Option.some.injEq, Prod.mk.injEq] at h
    rw [← h.2]; rfl
  | cons op ops ih =>
    intro st st' outs h hinv
    obtain ⟨st1, o, os, h1, h2, rfl⟩ := run_cons h
    cases op with
    | update a =>
      simp only [Settings.step, Option.some.injEq, Prod.mk.injEq] at h1
      rw [← h1.2, List.nil_append, ih st1 st' os h2 (by rw [← h1.1]; exact inv_update g hg.sound _ a _ hinv), ← h1.1]
      rfl
    | set n' v =>
      simp only [Settings.step] at h1
      split at h1
      · simp only [Option.some.injEq, Prod.mk.injEq] at h1
        rw [← h1.2, List.nil_append, ih st1 st' os h2 (by rw [← h1.1]; exact hinv), ← h1.1]
        rfl
      · cases h1
    | reset =>
      simp only [Settings.step, Option.some.injEq, Prod.mk.injEq] at h1
      rw [← h1.2, List.nil_append, ih st1 st' os h2 (by rw [← h1.1]; exact hinv), ← h1.1]
      rfl
    | solve =>
      obtain ⟨m, ob, new, hsol, hnew, hs, ho⟩ := step_solve h1
      obtain ⟨m1, o1, h3, hinv1, _, hin, _⟩ := solve_ok g hg.sound _ roots never order hf hperm toks ht st.mem hinv
      rw [hsol] at h3
      simp only [Option.some.injEq, Prod.mk.injEq] at h3
      have hi := solve_new hg rfl (by rintro ⟨h, _⟩; cases h) hf hperm ht hsol
      rw [← hnew] at hi
      have hst : st1.store = if st.mem.inited then st.store else fun n => (e.load n).getD (st.store n) := by
        rw [hs]
        show e.afterCalls .qocogen new st.store = _
        unfold Env.afterCalls
        rw [hi]
        cases st.mem.inited <;> simp
      have hus : st1.used = st1.store := by rw [hs]; rfl
      have hmi : st1.mem.inited = true := by rw [hs, h3.1]; exact hin
      rw [ho, List.map_append, ih st1 st' os h2 (by rw [hs, h3.1]; exact hinv1), hmi, hst]
      simp only [overwritten, List.map_cons, List.map_nil, List.cons_append, List.nil_append, hus, hst]

/-- **C86, QOCOGEN.** The exact settings of every solve. The workspace has no initial values, and the first solve calls `load_data`. -/
theorem C86_qocogen {quad lp : Bool} {b : CId → Bool} {g : Gen Θ V Act} (hg : Generated .qocogen quad lp b g) (e : Env S)
    (order : List CId → List CId) (horder : ∀ l, (order l).Perm l) (junk : CId → V) (ops : List (Op Act S)) (hc : Compiles e.enabled ops) :
    ∃ toks pus' st outs,
      genBlock (Kind.qocogen.solver quad lp).pus g.quad g.changes order = .ok (toks, pus') ∧
      Settings.run .qocogen e g (Kind.qocogen.solver quad lp) toks (e.init .qocogen g (Kind.qocogen.solver quad lp) junk) ops = some (st, outs) ∧
      outs.map Prod.snd = overwritten e.load e.lib (fun _ => e.zero) false ops := by
  obtain ⟨toks, pus', st, outs, h1, h2, _⟩ := C86_data hg e order horder junk ops hc
  obtain ⟨toks', pus'', roots, never, h1', hf, ht⟩ := genBlock_ok g _ order horder hg.static
  rw [h1] at h1'
  simp only [Except.ok.injEq, Prod.mk.injEq] at h1'
  rw [← h1'.1] at ht
  exact ⟨toks, pus', st, outs, h1, h2, qocogen_run hg e hf (horder roots) ht ops _ st outs h2 (inv_init g hg.sound _ junk)⟩

/-- Outcomes of one program are determined. -/
theorem hold_of_exact {k : Kind} {quad lp : Bool} {g : Gen Θ V Act} {e : Env S} {order : List CId → List CId} {junk : CId → V}
    (h : SettingsHold k quad lp g e order junk) (ops : List (Op Act S)) (hc : Compiles e.enabled ops) {res : List (String → S)}
    (hx : ∃ toks pus' st outs,
      genBlock (k.solver quad lp).pus g.quad g.changes order = .ok (toks, pus') ∧
      Settings.run k e g (k.solver quad lp) toks (e.init k g (k.solver quad lp) junk) ops = some (st, outs) ∧ outs.map Prod.snd = res) :
    List.Forall₂ (Agree (· ∈ e.enabled)) (requested e.table e.table ops) res := by
  obtain ⟨toks, pus', st, outs, h1, h2, h3⟩ := h ops hc
  obtain ⟨toks', pus'', st', outs', h1', h2', h3'⟩ := hx
  rw [h1] at h1'
  simp only [Except.ok.injEq, Prod.mk.injEq] at h1'
  rw [← h1'.1, h2] at h2'
  simp only [Option.some.injEq, Prod.mk.injEq] at h2'
  rw [← h3', ← h2'.2]
  exact h3

theorem compiles_of {en : List String} {n : String} {v : S} (hn : n ∈ en) (pre post : List (Op Act S))
    (h : ∀ n v, Op.set n v ∉ pre ++ post) : Compiles en (pre ++ .set n v :: post) := by
  intro n' v' hm
  rcases List.mem_append.1 hm with hm | hm
  · exact absurd (List.mem_append_left _ hm) (h n' v')
  · rcases List.mem_cons.1 hm with hm | hm
    · cases hm; exact hn
    · exact absurd (List.mem_append_right _ hm) (h n' v')

/-- **C86 fails for QOCOGEN**, whatever `load_data` stores: if it leaves a setting alone, the first solve of a program that sets nothing works
with 0 instead of the default; if it stores the default, a value set before the first solve is lost. -/
theorem C86_fails_qocogen {quad lp : Bool} {b : CId → Bool} {g : Gen Θ V Act} (hg : Generated .qocogen quad lp b g) (e : Env S)
    (order : List CId → List CId) (horder : ∀ l, (order l).Perm l) (junk : CId → V) (n : String) (hn : n ∈ e.enabled) (hz : e.table n ≠ e.zero) :
    ¬ SettingsHold .qocogen quad lp g e order junk := by
  intro h
  have hc1 : Compiles e.enabled ([.solve] : List (Op Act S)) := fun n v hm => by cases List.mem_singleton.1 hm
  have hc2 : Compiles e.enabled ([.set n e.zero, .solve] : List (Op Act S)) :=
    compiles_of hn [] [.solve] fun n v hm => by cases List.mem_singleton.1 hm
  have h1 := hold_of_exact h _ hc1 (C86_qocogen hg e order horder junk _ hc1)
  have h2 := hold_of_exact h _ hc2 (C86_qocogen hg e order horder junk _ hc2)
  simp only [requested, overwritten, List.forall₂_cons, List.forall₂_nil_left_iff, and_true] at h1 h2
  have h1 := h1 n hn
  have h2 := h2 n hn
  cases hl : e.load n with
  | none => simp [hl] at h1; exact hz h1
  | some c => simp [hl] at h1 h2; exact hz (h1.trans h2.symm)

/-- As asked for, from a first reset on, if `load_data` leaves settings alone. -/
theorem overwritten_none (load : String → Option S) (ns : String → Prop) (hl : ∀ n, ns n → load n = none) (d : String → S) :
    ∀ (ops : List (Op Act S)) (c c' : String → S) (s : Bool), Agree ns c c' →
      List.Forall₂ (Agree ns) (requested d c ops) (overwritten load d c' s ops) := by
  intro ops
  induction ops with
  | nil => intro c c' s _; exact List.Forall₂.nil
  | cons op ops ih =>
    intro c c' s h
    cases op with
    | update a => exact ih c c' s h
    | set n v =>
      refine ih _ _ s ?_
      intro n' hn'
      dsimp only
      rw [h n' hn']
    | reset => exact ih d d s fun _ _ => rfl
    | solve =>
      have hc : Agree ns c (if s then c' else fun n => (load n).getD (c' n)) := by
        intro n hn
        cases s with
        | true => exact h n hn
        | false => simp only [Bool.false_eq_true, if_false, hl n hn, Option.getD_none]; exact h n hn
      exact List.Forall₂.cons hc (ih _ _ true hc)

/-- **C86, QOCOGEN, programs that reset first.** If `load_data` leaves the enabled settings alone and the reset function stores the defaults,
all is well for programs that call `cpg_set_solver_default_settings` before anything else. -/
theorem C86_qocogen_partial {quad lp : Bool} {b : CId → Bool} {g : Gen Θ V Act} (hg : Generated .qocogen quad lp b g) (e : Env S)
    (hl : ∀ n ∈ e.enabled, e.load n = none) (hd : ∀ n ∈ e.enabled, e.lib n = e.table n)
    (order : List CId → List CId) (horder : ∀ l, (order l).Perm l) (junk : CId → V) (ops : List (Op Act S)) (hc : Compiles e.enabled ops) :
    ∃ toks pus' st outs,
      genBlock (Kind.qocogen.solver quad lp).pus g.quad g.changes order = .ok (toks, pus') ∧
      Settings.run .qocogen e g (Kind.qocogen.solver quad lp) toks (e.init .qocogen g (Kind.qocogen.solver quad lp) junk) (.reset :: ops)
        = some (st, outs) ∧
      List.Forall₂ (Agree (· ∈ e.enabled)) (requested e.table e.table ops) (outs.map Prod.snd) := by
  have hc' : Compiles e.enabled (.reset :: ops) := by
    intro n v hm
    rcases List.mem_cons.1 hm with hm | hm
    · cases hm
    · exact hc n v hm
  obtain ⟨toks, pus', st, outs, h1, h2, h3⟩ := C86_qocogen hg e order horder junk _ hc'
  refine ⟨toks, pus', st, outs, h1, h2, ?_⟩
  rw [h3]
  have hd' : Agree (· ∈ e.enabled) e.table e.lib := fun n hn => (hd n hn).symm
  exact agree_trans (requested_congr _ _ _ hd' ops _ _ hd') (overwritten_none e.load _ hl e.lib ops _ _ false fun _ _ => rfl)

/-! ### SCS -/

theorem any_made (l : List CId) : l.any [CId.init, CId.PA].contains = decide (made l ≠ 0) := by
  induction l with
  | nil => rfl
  | cons f l ih =>
    rw [List.any_cons, ih]
    cases f <;> simp [made, createdBy]

/-- When SCS's workspace is created in a solve. -/
theorem scs_new {quad lp : Bool} {b : CId → Bool} {g : Gen Θ V Act} (hg : Generated .scs quad lp b g) {never order : List CId}
    (hni : never.contains .init = false) (hord : order = [.init])
    (hf : StaticFacts (Kind.scs.solver quad lp) g.quad g.changes [.init] never) {toks : List Tok}
    (ht : ∀ s : Mem Θ V, execText evMem (doCall g (Kind.scs.solver quad lp)) toks s = some (Verif.Spec.run (fireOf evMem)
      (doCall g (Kind.scs.solver quad lp)) (norm g.quad (Kind.scs.solver quad lp).pus) never genFuel (some order) s))
    {m m1 : Mem Θ V} {o : Obs V} (h : g.solve (Kind.scs.solver quad lp) toks m = some (m1, o)) :
    (m1.calls.take (m1.calls.length - m.calls.length)).any [CId.init, CId.PA].contains =
      (!m.inited || (!never.contains .PA && ((quad && m.flags .P) || m.flags .A))) := by
  have hgd : initGuard (norm g.quad (Kind.scs.solver quad lp).pus) = true := by
    rw [hg.mode]; exact guard_all .scs quad lp hg.possible (by rintro ⟨h, _⟩; cases h)
  have hcalls : m1.calls = (Verif.Spec.run (fireOf evMem) (doCall g (Kind.scs.solver quad lp)) (norm g.quad (Kind.scs.solver quad lp).pus) never
      genFuel (some order) (g.canonicalize m)).calls := by
    simp only [Gen.solve, ht, Option.some.injEq, Prod.mk.injEq] at h
    rw [← h.1]; rfl
  have hmade : made m1.calls = (if !m.inited || (!never.contains .PA && ((quad && m.flags .P) || m.flags .A)) then 1 else 0) + made m.calls := by
    rw [hcalls, hord, hg.mode]
    exact scs_block g quad never hni (g.canonicalize m)
  have hnew : ∃ new, m1.calls = new ++ m.calls := by
    rw [hcalls]
    cases hi : m.inited with
    | true =>
      obtain ⟨new, h3, _⟩ := (run_calls g _ _ never hf.eff hgd genFuel).1 (some order) (g.canonicalize m) hi
      exact ⟨new, h3⟩
    | false =>
      have hio : initOK (Kind.scs.solver quad lp) (norm g.quad (Kind.scs.solver quad lp).pus) [.init] never = true := by
        have := hf.ini
        rw [show (Kind.scs.solver quad lp).static = false from rfl, Bool.false_or] at this; exact this
      obtain ⟨new, h3, _⟩ := run_calls_first g _ [.init] never order _ (by rw [hord]) hf.eff hgd hio hf.one (g.canonicalize m) hi
      exact ⟨new ++ [.init], by rw [h3, List.append_assoc]; rfl⟩
  obtain ⟨new, hnew⟩ := hnew
  rw [hnew, List.length_append, Nat.add_sub_cancel, List.take_left, any_made]
  rw [hnew] at hmade
  simp only [made, List.map_append, List.sum_append] at hmade ⊢
  cases hc : (!m.inited || (!never.contains .PA && ((quad && m.flags .P) || m.flags .A))) with
  | true => rw [hc, if_pos rfl] at hmade; simp only [decide_eq_true_eq]; omega
  | false => rw [hc] at hmade; simp only [Bool.false_eq_true, if_false] at hmade; simp only [decide_eq_false_iff_not, not_not]; omega

/-- **C86, SCS.** The exact settings of every solve: those asked for when the workspace was last created, except for `warm_start`, which is current.
The workspace is created at the first solve; if `P` or `A` depends on parameters, at every later solve after an update that concerns `P` or `A`;
and at every later solve, if one of `P`, `A` depends on parameters and the other does not. -/
theorem C86_scs {quad lp : Bool} {b : CId → Bool} {g : Gen Θ V Act} (hg : Generated .scs quad lp b g) (e : Env S)
    (order : List CId → List CId) (horder : ∀ l, (order l).Perm l) (junk : CId → V) (ops : List (Op Act S)) (hc : Compiles e.enabled ops) :
    ∃ toks pus' st outs,
      genBlock (Kind.scs.solver quad lp).pus g.quad g.changes order = .ok (toks, pus') ∧
      Settings.run .scs e g (Kind.scs.solver quad lp) toks (e.init .scs g (Kind.scs.solver quad lp) junk) ops = some (st, outs) ∧
      outs.map Prod.snd = atCreation (fun n => n == "warm_start") (((quad && b .P) || b .A) && ((quad && !b .P) || !b .A))
        (fun a => ((quad && b .P) || b .A) && ((quad && (g.outdated a).contains .P) || (g.outdated a).contains .A)) e.lib
        (e.initStore .scs) (e.initStore .scs) false false ops := by
  obtain ⟨toks, pus', st, outs, h1, h2, _⟩ := C86_data hg e order horder junk ops hc
  refine ⟨toks, pus', st, outs, h1, h2, ?_⟩
  obtain ⟨never, ha, hni, hnp⟩ := scs_roots_mem quad b
  obtain ⟨toks', pus'', roots, never', h1', hf, ht⟩ := genBlock_ok g _ order horder hg.static
  rw [h1] at h1'
  simp only [Except.ok.injEq, Prod.mk.injEq] at h1'
  rw [← h1'.1] at ht
  have hr : roots = [.init] ∧ never' = never := by
    have h := hf.analyze
    rw [hg.changes] at h
    have h' : (Except.ok (roots, never') : Except PyErr _) = .ok ([.init], never) := h.symm.trans ha
    cases h'
    exact ⟨rfl, rfl⟩
  obtain ⟨rfl, rfl⟩ := hr
  have hord : order [CId.init] = [.init] := List.perm_singleton.1 (horder [.init])
  have hcP : g.changes.getD .P = (quad && b .P) := by rw [hg.changes]; cases quad <;> simp [changesOf, Changes.getD, Kind.canonIds]
  have hcA : g.changes.getD .A = b .A := by rw [hg.changes]; cases quad <;> simp [changesOf, Changes.getD, Kind.canonIds]
  generalize hact : ((quad && b .P) || b .A) = act at *
  generalize halw : ((quad && !b .P) || !b .A) = alw
  have key : ∀ (ops : List (Op Act S)) (st st' : State Θ V S) (outs : List (Obs V × (String → S))) (s d : Bool),
      Settings.run .scs e g (Kind.scs.solver quad lp) toks st ops = some (st', outs) → Inv g (Kind.scs.solver quad lp) st.mem →
      st.mem.inited = s → (act = true → s = true → ((quad && st.mem.flags .P) || st.mem.flags .A) = d) →
      (∀ p, g.changes.getD p = false → st.mem.flags p = true) →
      outs.map Prod.snd = atCreation (fun n => n == "warm_start") (act && alw)
        (fun a => act && ((quad && (g.outdated a).contains .P) || (g.outdated a).contains .A)) e.lib st.store st.used s (act && d) ops := by
    intro ops
    induction ops with
    | nil =>
      intro st st' outs s d h _ _ _ _
      simp only [Settings.run, Option.some.injEq, Prod.mk.injEq] at h
      rw [← h.2]; rfl
    | cons op ops ih =>
      intro st st' outs s d h hinv hs hd hfl
      obtain ⟨st1, o, os, h1, h2, rfl⟩ := run_cons h
      cases op with
      | update a =>
        simp only [Settings.step, Option.some.injEq, Prod.mk.injEq] at h1
        rw [← h1.2, List.nil_append]
        have := ih st1 st' os s (d || ((quad && (g.outdated a).contains .P) || (g.outdated a).contains .A)) h2
          (by rw [← h1.1]; exact inv_update g hg.sound _ a _ hinv) (by rw [← h1.1]; exact hs) ?_ ?_
        · rw [this, ← h1.1]
          simp only [atCreation]
          rw [Bool.and_or_distrib_left]
        · intro h3 h4
          rw [← hd h3 h4, ← h1.1]
          simp only [Gen.update]
          cases quad <;> cases st.mem.flags .P <;> cases st.mem.flags .A <;> simp
        · intro p hp
          rw [← h1.1]
          simp only [Gen.update]; rw [hfl p hp, Bool.or_true]
      | set n v =>
        simp only [Settings.step] at h1
        split at h1
        · simp only [Option.some.injEq, Prod.mk.injEq] at h1
          rw [← h1.2, List.nil_append, ih st1 st' os s d h2 (by rw [← h1.1]; exact hinv) (by rw [← h1.1]; exact hs) (by rw [← h1.1]; exact hd)
            (by rw [← h1.1]; exact hfl), ← h1.1]
          rfl
        · cases h1
      | reset =>
        simp only [Settings.step, Option.some.injEq, Prod.mk.injEq] at h1
        rw [← h1.2, List.nil_append, ih st1 st' os s d h2 (by rw [← h1.1]; exact hinv) (by rw [← h1.1]; exact hs) (by rw [← h1.1]; exact hd)
            (by rw [← h1.1]; exact hfl), ← h1.1]
        rfl
      | solve =>
        obtain ⟨m, ob, new, hsol, hnew, hst, ho⟩ := step_solve h1
        obtain ⟨m1, o1, h3, hinv1, _, _, _⟩ := solve_ok g hg.sound _ [.init] never' (order [.init]) hf (horder _) toks ht st.mem hinv
        rw [hsol] at h3
        simp only [Option.some.injEq, Prod.mk.injEq] at h3
        have hset := solve_settled g hg.sound _ [.init] never' (order [.init]) hf (horder _) toks ht st.mem m ob hinv hfl hsol
        have hany := scs_new hg hni hord hf ht hsol
        rw [← hnew, hnp] at hany
        have hcond : (!st.mem.inited || (!(!act) && ((quad && st.mem.flags .P) || st.mem.flags .A))) = (!s || (act && d)) := by
          rw [hs]
          cases s with
          | false => rfl
          | true =>
            cases act with
            | false => rfl
            | true => rw [hd rfl rfl]; simp
        rw [hcond] at hany
        have hstore : st1.store = st.store := by rw [hst]; rfl
        have hused : st1.used = if !s || (act && d) then st.store else fun n => if n == "warm_start" then st.store n else st.used n := by
          rw [hst]
          show e.handOver .scs new st.store st.used = _
          unfold Env.handOver
          simp only [Kind.delivery]
          rw [hany]
          split
          · rfl
          · funext n
            by_cases hn : n = "warm_start" <;> simp [hn]
        have hdue : act = true → ((quad && m.flags .P) || m.flags .A) = alw := by
          intro hat
          rw [hset.2 .P, hset.2 .A, hcP, hcA, ← halw]
          cases quad <;> simp
        have := ih st1 st' os true alw h2 (by rw [hst, h3.1]; exact hinv1) (by rw [hst]; exact hset.1)
          (fun h _ => by rw [hst]; exact hdue h) (fun p hp => by rw [hst]; show m.flags p = true; rw [hset.2 p, hp]; rfl)
        rw [ho, List.map_append, this, hstore, hused]
        rfl
  have := key ops _ st outs false false h2 (inv_init g hg.sound _ junk) rfl (fun _ h => by cases h) (fun _ _ => rfl)
  rw [Bool.and_false] at this
  exact this

theorem atCreation_always (live : String → Bool) (marks : Act → Bool) (d : String → S) : ∀ (ops : List (Op Act S)) (c u : String → S) (s w : Bool),
    (s = true → w = true) → atCreation live true marks d c u s w ops = requested d c ops := by
  intro ops
  induction ops with
  | nil => intros; rfl
  | cons op ops ih =>
    intro c u s w h
    cases op with
    | update a => exact ih c u s _ fun hs => by rw [h hs]; rfl
    | set n v => exact ih _ u s w h
    | reset => exact ih d u s w h
    | solve =>
      have hc : (!s || w) = true := by
        cases s with
        | false => rfl
        | true => rw [h rfl]; rfl
      simp only [atCreation, requested, hc, if_true]
      rw [ih c c true true fun _ => rfl]

/-- **C86, SCS.** The property holds exactly if the objective is quadratic, one of `P` and `A` depends on parameters and the other does not
(the case in which every solve creates a workspace), and SCS's reset function stores the defaults in the interface's table. -/
theorem C86_scs_iff {quad lp : Bool} {b : CId → Bool} {g : Gen Θ V Act} (hg : Generated .scs quad lp b g) (e : Env S) (hS : ∀ s : S, ∃ t, t ≠ s)
    (hn : ∃ n ∈ e.enabled, n ≠ "warm_start") (order : List CId → List CId) (horder : ∀ l, (order l).Perm l) (junk : CId → V) :
    SettingsHold .scs quad lp g e order junk ↔ (quad = true ∧ b .P ≠ b .A) ∧ ∀ n ∈ e.enabled, e.lib n = e.table n := by
  have hq : (quad = true ∧ b .P ≠ b .A) ↔ (((quad && b .P) || b .A) && ((quad && !b .P) || !b .A)) = true := by
    cases quad <;> cases b .P <;> cases b .A <;> simp
  have hinit : Agree (· ∈ e.enabled) e.table (e.initStore .scs) := by
    intro n hn
    simp [Env.initStore, hn]
  rw [hq]
  constructor
  · intro h
    constructor
    · obtain ⟨n, hn, hw⟩ := hn
      obtain ⟨v, hv⟩ := hS (e.table n)
      have hc : Compiles e.enabled ([.solve, .set n v, .solve] : List (Op Act S)) :=
        compiles_of hn [.solve] [.solve] fun n v hm => by
          rcases List.mem_cons.1 hm with hm | hm
          · cases hm
          · cases List.mem_singleton.1 hm
      have h1 := hold_of_exact h _ hc (C86_scs hg e order horder junk _ hc)
      cases ha : (((quad && b .P) || b .A) && ((quad && !b .P) || !b .A)) with
      | true => rfl
      | false =>
        rw [ha] at h1
        simp only [requested, atCreation, List.forall₂_cons, List.forall₂_nil_left_iff, and_true] at h1
        have h2 := h1.2 n hn
        have hw' : (n == "warm_start") = false := by simpa using hw
        simp [hw'] at h2
        exact absurd (h2.trans (hinit n hn).symm) hv
    · intro n hn
      have hc : Compiles e.enabled ([.reset, .solve] : List (Op Act S)) := fun n v hm => by
        rcases List.mem_cons.1 hm with hm | hm
        · cases hm
        · cases List.mem_singleton.1 hm
      have h1 := hold_of_exact h _ hc (C86_scs hg e order horder junk _ hc)
      simp only [requested, atCreation, List.forall₂_cons, List.forall₂_nil_left_iff, and_true] at h1
      exact (h1 n hn).symm
  · rintro ⟨ha, hl⟩ ops hc
    obtain ⟨toks, pus', st, outs, h1, h2, h3⟩ := C86_scs hg e order horder junk ops hc
    refine ⟨toks, pus', st, outs, h1, h2, ?_⟩
    rw [h3, ha, atCreation_always _ _ _ ops _ _ false false fun h => by cases h]
    exact requested_congr _ _ _ (fun n hn => (hl n hn).symm) ops _ _ hinit

/-- Neither set nor reset. -/
def quiet : Op Act S → Bool
  | .set _ _ => false
  | .reset => false
  | _ => true

theorem atCreation_quiet (live : String → Bool) (always : Bool) (marks : Act → Bool) (d : String → S) : ∀ (ops : List (Op Act S)),
    (∀ op ∈ ops, quiet op = true) → ∀ (c u : String → S) (s w : Bool), (s = true → u = c) →
    atCreation live always marks d c u s w ops = requested d c ops := by
  intro ops
  induction ops with
  | nil => intros; rfl
  | cons op ops ih =>
    intro hq c u s w h
    have ih := ih fun op hm => hq op (List.mem_cons_of_mem _ hm)
    cases op with
    | update a => exact ih c u s _ h
    | set n v => cases hq (.set n v) List.mem_cons_self
    | reset => cases hq .reset List.mem_cons_self
    | solve =>
      have hu : (if !s || w then c else fun n => if live n then c n else u n) = c := by
        cases s with
        | false => rfl
        | true => rw [h rfl]; cases w <;> simp
      simp only [atCreation, requested, hu]
      rw [ih c c true always fun _ => rfl]

theorem atCreation_early (live : String → Bool) (always : Bool) (marks : Act → Bool) (d : String → S) (post : List (Op Act S))
    (hq : ∀ op ∈ post, quiet op = true) : ∀ (pre : List (Op Act S)), .solve ∉ pre → ∀ (c u : String → S) (w : Bool),
    atCreation live always marks d c u false w (pre ++ post) = requested d c (pre ++ post) := by
  intro pre
  induction pre with
  | nil => intro _ c u w; exact atCreation_quiet live always marks d post hq c u false w fun h => by cases h
  | cons op pre ih =>
    intro hs c u w
    have ih := ih fun hm => hs (List.mem_cons_of_mem _ hm)
    cases op with
    | update a => exact ih c u _
    | set n v => exact ih _ u w
    | reset => exact ih d u w
    | solve => exact absurd List.mem_cons_self hs

/-- **C86, SCS, settings before the first solve.** Programs that call settings functions only before the first solve work with the settings they
ask for at every solve, if SCS's reset function stores the defaults in the interface's table. -/
theorem C86_scs_partial {quad lp : Bool} {b : CId → Bool} {g : Gen Θ V Act} (hg : Generated .scs quad lp b g) (e : Env S)
    (hl : ∀ n ∈ e.enabled, e.lib n = e.table n) (order : List CId → List CId) (horder : ∀ l, (order l).Perm l) (junk : CId → V)
    (pre post : List (Op Act S)) (hpre : .solve ∉ pre) (hpost : ∀ op ∈ post, quiet op = true) (hc : Compiles e.enabled (pre ++ post)) :
    ∃ toks pus' st outs,
      genBlock (Kind.scs.solver quad lp).pus g.quad g.changes order = .ok (toks, pus') ∧
      Settings.run .scs e g (Kind.scs.solver quad lp) toks (e.init .scs g (Kind.scs.solver quad lp) junk) (pre ++ post) = some (st, outs) ∧
      List.Forall₂ (Agree (· ∈ e.enabled)) (requested e.table e.table (pre ++ post)) (outs.map Prod.snd) := by
  obtain ⟨toks, pus', st, outs, h1, h2, h3⟩ := C86_scs hg e order horder junk _ hc
  refine ⟨toks, pus', st, outs, h1, h2, ?_⟩
  rw [h3, atCreation_early _ _ _ _ post hpost pre hpre]
  refine requested_congr _ _ _ (fun n hn => (hl n hn).symm) _ _ _ ?_
  intro n hn
  simp [Env.initStore, hn]

/-! ### Examples -/

/-- Two settings, defaults 1 and 2. -/
def exSet : Env Int where
  enabled := ["eps", "warm_start"]
  table := fun n => if n = "eps" then 1 else 2
  lib := fun n => if n = "eps" then 1 else 2
  compiled := fun n => if n = "eps" then 1 else 2
  zero := 0
  load := fun _ => none
  atSetup := []

/-- A program for SCS. Without quadratic objective a value set between two solves has no effect, with it and constant `P` it has, since the workspace is
created again. The last solve follows an update that concerns `A`. -/
example (quad : Bool) : ∃ toks pus' st outs,
    genBlock (Kind.scs.solver quad false).pus quad (exGen quad).changes id = .ok (toks, pus') ∧
    Settings.run .scs exSet (exGen quad) (Kind.scs.solver quad false) toks (exSet.init .scs (exGen quad) (Kind.scs.solver quad false) fun _ => 0)
      [.solve, .set "eps" 5, .set "warm_start" 6, .solve, .update (false, 3), .solve] = some (st, outs) ∧
    outs.map (fun o => (o.2 "eps", o.2 "warm_start")) = [(1, 2), (if quad then 5 else 1, 6), (5, 6)] := by
  cases quad
  · refine ⟨_, _, _, _, rfl, rfl, ?_⟩
    decide
  · refine ⟨_, _, _, _, rfl, rfl, ?_⟩
    decide

/-- Both sides of the characterisation for SCS. -/
example : SettingsHold .scs true false (exGen true) exSet id (fun _ => 0) ∧ ¬ SettingsHold .scs false false (exGen false) exSet id (fun _ => 0) := by
  have hS : ∀ s : Int, ∃ t, t ≠ s := fun s => ⟨s + 1, by omega⟩
  have hn : ∃ n ∈ exSet.enabled, n ≠ "warm_start" := ⟨"eps", by decide, by decide⟩
  rw [C86_scs_iff (exGen_generated true) exSet hS hn id (fun l => List.Perm.refl l), C86_scs_iff (exGen_generated false) exSet hS hn id (fun l => List.Perm.refl l)]
  exact ⟨⟨⟨rfl, by decide⟩, fun _ _ => rfl⟩, fun h => by cases h.1.1⟩

/-- A problem of which nothing depends on parameters. -/
def exConst (k : Kind) : Gen Unit Int Unit where
  canonOf _ _ := 0
  assign _ θ := θ
  outdated _ := []
  changes := changesOf (k.canonIds true) (fun _ => false)
  quad := true
  θ0 := ()
  canon0 _ := 0

theorem exConst_generated (k : Kind) (hk : k = .osqp ∨ k = .qoco ∨ k = .qocogen ∨ k = .clarabel) :
    Generated k true false (fun _ => false) (exConst k) := by
  refine ⟨by rcases hk with rfl | rfl | rfl | rfl <;> rfl, rfl, rfl, ?_, ?_, ?_⟩
  · intro a p θ _; rfl
  · intro p θ θ' _; rfl
  · intro p θ _; rfl

/-- QOCO with and without a setting that is read only at set-up; OSQP with equal defaults, and with another value in the generated code; Clarabel;
QOCOGEN fails. -/
example : SettingsHold .qoco true false (exConst .qoco) exSet id (fun _ => 0) ∧
    ¬ SettingsHold .qoco true false (exConst .qoco) { exSet with atSetup := ["eps"] } id (fun _ => 0) ∧
    SettingsHold .osqp true false (exConst .osqp) exSet id (fun _ => 0) ∧
    ¬ SettingsHold .osqp true false (exConst .osqp) { exSet with compiled := fun _ => 7 } id (fun _ => 0) ∧
    SettingsHold .clarabel true false (exConst .clarabel) { exSet with atSetup := ["eps"] } id (fun _ => 0) ∧
    ¬ SettingsHold .qocogen true false (exConst .qocogen) exSet id (fun _ => 0) ∧
    ¬ SettingsHold .qocogen true false (exConst .qocogen) { exSet with load := fun n => some (exSet.table n) } id (fun _ => 0) := by
  have hS : ∀ s : Int, ∃ t, t ≠ s := fun s => ⟨s + 1, by omega⟩
  have hp : ∀ l : List CId, (id l).Perm l := fun l => List.Perm.refl l
  refine ⟨?_, ?_, ?_, ?_, ?_, ?_, ?_⟩
  · rw [C86_setup_iff (Or.inr rfl) (exConst_generated .qoco (by simp)) _ hS id hp]
    intro n _ h; cases h
  · rw [C86_setup_iff (Or.inr rfl) (exConst_generated .qoco (by simp)) _ hS id hp]
    intro h
    exact h "eps" (by decide) (by decide)
  · rw [C86_osqp_iff (exConst_generated .osqp (by simp)) _ id hp]
    exact fun _ _ => ⟨rfl, rfl⟩
  · rw [C86_osqp_iff (exConst_generated .osqp (by simp)) _ id hp]
    intro h
    have := (h "eps" (by decide)).1
    revert this
    decide
  · exact C86_partial (Or.inr (Or.inl rfl)) (exConst_generated .clarabel (by simp)) _ (Or.inl rfl) id hp _
  · exact C86_fails_qocogen (exConst_generated .qocogen (by simp)) _ id hp _ "eps" (by decide) (by decide)
  · exact C86_fails_qocogen (exConst_generated .qocogen (by simp)) _ id hp _ "eps" (by decide) (by decide)

end Verif.Props
