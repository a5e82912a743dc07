import Verif.Props.ExactK
import Verif.Props.Memory
/-!
# C04: exactly which programs initialise the solver once; C83: exactly when two programs do the same; C81: exactly when memory is bounded; C05: exactly which programs
hand over data again
-/
namespace Verif.Props
open Verif.Model Verif.Spec Verif.Lemmas Verif.Model.Memory
open Verif.Spec.Memory (solves renewals)

variable {Θ V Act : Type}

/-- Clarabel without quadratic part: the update block is the initialisation, in every state. -/
theorem clarabel_lp_block {quad : Bool} {b : CId → Bool} {g : Gen Θ V Act} (hg : Generated .clarabel quad true b g)
    (order : List CId → List CId) (horder : ∀ l, (order l).Perm l) : ∃ toks pus',
    genBlock (Kind.clarabel.solver quad true).pus g.quad g.changes order = .ok (toks, pus') ∧
    ∀ m : Mem Θ V, execText evMem (doCall g (Kind.clarabel.solver quad true)) toks m =
      some (doCall g (Kind.clarabel.solver quad true) .init m) := by
  obtain ⟨toks, pus', roots, never, h1, hf, ht⟩ := genBlock_ok g _ order horder hg.static
  have h := forall_changes .clarabel quad (fun ch => (match analyzePus (Kind.clarabel.solver quad true).pus genFuel ch with
    | .ok (roots, never) => roots == [.init] && !never.contains .init
    | .error _ => false) = true)
    (by clear ht hf h1 hg; cases quad <;> decide +kernel) b
  rw [← hg.changes, hf.analyze] at h
  simp only [Bool.and_eq_true, beq_iff_eq, Bool.not_eq_true'] at h
  obtain ⟨rfl, hn⟩ := h
  refine ⟨toks, pus', h1, fun m => ?_⟩
  rw [ht m, List.perm_singleton.1 (horder _)]
  have hl : (norm g.quad (Kind.clarabel.solver quad true).pus).lookup .init =
      some { params := [], extra := some .always, fif := some [.A, .q, .b] } := by
    rw [lookup_norm]; rfl
  congr 1
  show run _ _ _ _ (5 + 1) _ _ = _
  simp only [run]
  show List.foldl _ m [CId.init] = _
  simp only [List.foldl_cons, List.foldl_nil, hl, hn, Bool.false_eq_true, if_false]
  rfl

theorem clarabel_lp_calls {quad : Bool} {g : Gen Θ V Act} (toks : List Tok)
    (ht : ∀ m : Mem Θ V, execText evMem (doCall g (Kind.clarabel.solver quad true)) toks m =
      some (doCall g (Kind.clarabel.solver quad true) .init m)) (history : List (Call Act)) : ∀ m : Mem Θ V,
    ∃ m' os, g.runCalls (Kind.clarabel.solver quad true) toks m history = some (m', os) ∧
      m'.calls = List.replicate (solves history) .init ++ m.calls := by
  induction history with
  | nil => exact fun m => ⟨m, [], rfl, rfl⟩
  | cons c cs ih =>
    intro m
    cases c with
    | update a => exact ih (g.update a m)
    | solve =>
      have hs : g.solve (Kind.clarabel.solver quad true) toks m =
          some (g.resetFlags (doCall g (Kind.clarabel.solver quad true) .init (g.canonicalize m)),
            { data := (doCall g (Kind.clarabel.solver quad true) .init (g.canonicalize m)).solver,
              offset := (doCall g (Kind.clarabel.solver quad true) .init (g.canonicalize m)).canon .d }) := by
        unfold Gen.solve; rw [ht]
      obtain ⟨m', os, h1, h2⟩ := ih (g.resetFlags (doCall g (Kind.clarabel.solver quad true) .init (g.canonicalize m)))
      refine ⟨m', _, by simp only [Gen.runCalls, hs, h1]; rfl, ?_⟩
      rw [h2]
      show _ ++ CId.init :: m.calls = _
      rw [solves, Nat.add_comm, List.replicate_succ', List.append_assoc]
      rfl

/-- **C04, Clarabel without quadratic part, exactly.** For every program and history the calls are one initialisation per solve and nothing
else. -/
theorem C04_clarabel_lp_exact {quad : Bool} {b : CId → Bool} {g : Gen Θ V Act} (hg : Generated .clarabel quad true b g)
    (order : List CId → List CId) (horder : ∀ l, (order l).Perm l) (junk : CId → V) (history : List (Call Act)) :
    ∃ toks pus' m os,
      genBlock (Kind.clarabel.solver quad true).pus g.quad g.changes order = .ok (toks, pus') ∧
      g.runCalls (Kind.clarabel.solver quad true) toks (g.initMem (Kind.clarabel.solver quad true) junk) history = some (m, os) ∧
      m.calls = List.replicate (solves history) .init := by
  obtain ⟨toks, pus', h1, ht⟩ := clarabel_lp_block hg order horder
  obtain ⟨m, os, h2, h3⟩ := clarabel_lp_calls toks ht history (g.initMem (Kind.clarabel.solver quad true) junk)
  exact ⟨toks, pus', m, os, h1, h2, by rw [h3]; exact List.append_nil _⟩

/-- **C04, exactly.** A solver that is not set up at generation is initialised at most once in every history, before all other calls, exactly if
it is not Clarabel on a problem without quadratic part. -/
theorem C04_iff {k : Kind} {quad lp : Bool} {b : CId → Bool} {g : Gen Θ V Act} (hg : Generated k quad lp b g)
    (hns : (k.solver quad lp).static = false) (order : List CId → List CId) (horder : ∀ l, (order l).Perm l) (junk : CId → V) :
    (∀ (history : List (Call Act)) toks pus' m os, genBlock (k.solver quad lp).pus g.quad g.changes order = .ok (toks, pus') →
      g.runCalls (k.solver quad lp) toks (g.initMem (k.solver quad lp) junk) history = some (m, os) →
      m.calls = [] ∨ ∃ later, m.calls.reverse = .init :: later ∧ CId.init ∉ later) ↔ ¬ (k = .clarabel ∧ lp = true) := by
  constructor
  · rintro hall ⟨rfl, rfl⟩
    obtain ⟨toks, pus', m, os, h1, h2, h3⟩ := C04_clarabel_lp_exact hg order horder junk [.solve, .solve]
    rcases hall _ _ _ _ _ h1 h2 with h | ⟨later, h, hn⟩
    · rw [h3] at h; cases h
    · rw [h3] at h
      have h : [CId.init, CId.init] = .init :: later := h
      injection h with _ h
      subst h
      exact hn (by decide)
  · intro hk history toks pus' m os h1 h2
    obtain ⟨toks', pus'', m', os', h1', h2', h3⟩ := C04_initialisation_first_and_once_partial hg hns hk order horder junk history
    rw [h1] at h1'
    injection h1' with h1'
    injection h1' with ht hp
    subst ht
    rw [h2] at h2'
    injection h2' with h2'
    injection h2' with hm ho
    subst hm
    exact h3

/-! A linear program for Clarabel: the parameters give `A` and `b`. -/

def exLp : Gen (Int × Int) Int (Bool × Int) :=
  { exOther .clarabel true with changes := changesOf (Kind.clarabel.canonIds false) (exOtherB true), quad := false }

theorem exLp_generated : Generated .clarabel false true (exOtherB true) exLp := by
  refine ⟨rfl, rfl, rfl, ?_, ?_, ?_⟩
  · rintro ⟨a, v⟩ p θ hp
    cases a <;> cases p <;> simp_all [exLp, exOther]
  · intro p θ θ' hp
    cases p <;> simp_all [exLp, exOther, exOtherB, changesOf, pat, Changes.getD, Kind.canonIds]
  · intro p θ hp
    cases p <;> simp_all [exLp, exOther, exOtherB, changesOf, pat, Changes.getD, Kind.canonIds]

/-- Three solves, one of them without an update before it: three initialisations. -/
example : ∃ toks pus' m os,
    genBlock (Kind.clarabel.solver false true).pus exLp.quad exLp.changes id = .ok (toks, pus') ∧
    exLp.runCalls (Kind.clarabel.solver false true) toks (exLp.initMem (Kind.clarabel.solver false true) fun _ => 0)
      [.solve, .update (true, 3), .solve, .solve] = some (m, os) ∧ m.calls = [.init, .init, .init] :=
  C04_clarabel_lp_exact exLp_generated id (fun l => List.Perm.refl l) _ _

/-- Both sides of `C04_iff` occur. -/
example : (¬ ∀ (history : List (Call (Bool × Int))) toks pus' m os,
      genBlock (Kind.clarabel.solver false true).pus exLp.quad exLp.changes id = .ok (toks, pus') →
      exLp.runCalls (Kind.clarabel.solver false true) toks (exLp.initMem (Kind.clarabel.solver false true) fun _ => 0) history = some (m, os) →
      m.calls = [] ∨ ∃ later, m.calls.reverse = .init :: later ∧ CId.init ∉ later) ∧
    ∀ (history : List (Call (Bool × Int))) toks pus' m os,
      genBlock (Kind.clarabel.solver true false).pus (exOther .clarabel true).quad (exOther .clarabel true).changes id = .ok (toks, pus') →
      (exOther .clarabel true).runCalls (Kind.clarabel.solver true false) toks
        ((exOther .clarabel true).initMem (Kind.clarabel.solver true false) fun _ => 0) history = some (m, os) →
      m.calls = [] ∨ ∃ later, m.calls.reverse = .init :: later ∧ CId.init ∉ later := by
  rw [C04_iff exLp_generated rfl id (fun l => List.Perm.refl l), C04_iff (exOther_generated .clarabel (by simp) true) rfl id fun l => List.Perm.refl l]
  decide

theorem alike_iff (canonOf : CId → Θ → V) (uses : List CId) : ∀ (θs θs' : List Θ) (os os' : List (Obs V)),
    List.Forall₂ (Fresh canonOf uses) θs os → List.Forall₂ (Fresh canonOf uses) θs' os' →
    (List.Forall₂ (Repeat.Alike uses) os os' ↔
      List.Forall₂ (fun θ θ' => (∀ p ∈ uses, canonOf p θ = canonOf p θ') ∧ canonOf .d θ = canonOf .d θ') θs θs') := by
  intro θs
  induction θs with
  | nil =>
    intro θs' os os' h h'
    cases h
    cases h' with
    | nil => exact ⟨fun _ => .nil, fun _ => .nil⟩
    | cons _ _ => exact ⟨fun h => (nomatch h), fun h => (nomatch h)⟩
  | cons θ θs ih =>
    intro θs' os os' h h'
    cases h with
    | cons h1 h2 =>
      cases h' with
      | nil => exact ⟨fun h => (nomatch h), fun h => (nomatch h)⟩
      | cons h1' h2' =>
        rw [List.forall₂_cons, List.forall₂_cons, ih _ _ _ h2 h2']
        refine and_congr_left fun _ => ?_
        unfold Repeat.Alike
        rw [h1.2, h1'.2]
        refine and_congr_left fun _ => forall₂_congr fun p hp => ?_
        rw [h1.1 p hp, h1'.1 p hp]

/-- **C83, exactly.** Two programs generated from one problem do the same at every solve of a history exactly if, at each of its solves, the data
used and the constant are equal at the two parameter vectors. -/
theorem C83_iff {k : Kind} {quad lp : Bool} {b : CId → Bool} {g g' : Gen Θ V Act} (hg : Generated k quad lp b g)
    (hg' : Generated k quad lp b g') (hmaps : g'.canonOf = g.canonOf)
    (order order' : List CId → List CId) (horder : ∀ l, (order l).Perm l) (horder' : ∀ l, (order' l).Perm l) (junk junk' : CId → V)
    (history : List (Call Act)) :
    ∃ toks pus1 m os toks' pus1' m' os',
      genBlock (k.solver quad lp).pus g.quad g.changes order = .ok (toks, pus1) ∧
      genBlock (k.solver quad lp).pus g'.quad g'.changes order' = .ok (toks', pus1') ∧
      g.runCalls (k.solver quad lp) toks (g.initMem (k.solver quad lp) junk) history = some (m, os) ∧
      g'.runCalls (k.solver quad lp) toks' (g'.initMem (k.solver quad lp) junk') history = some (m', os') ∧
      (List.Forall₂ (Repeat.Alike (k.solver quad lp).uses) os os' ↔
        List.Forall₂ (fun θ θ' => (∀ p ∈ (k.solver quad lp).uses, g.canonOf p θ = g.canonOf p θ') ∧ g.canonOf .d θ = g.canonOf .d θ')
          (solveParams g.assign g.θ0 history) (solveParams g'.assign g'.θ0 history)) := by
  obtain ⟨toks, pus1, m, os, h1, h2, _, h3⟩ := C01_every_solve_uses_current_parameters hg order horder junk history
  obtain ⟨toks', pus1', m', os', h1', h2', _, h3'⟩ := C01_every_solve_uses_current_parameters hg' order' horder' junk' history
  refine ⟨toks, pus1, m, os, toks', pus1', m', os', h1, h1', h2, h2', ?_⟩
  rw [hmaps] at h3'
  exact alike_iff _ _ _ _ _ _ h3 h3'

/-- Two generations of the problem of `exGen` with different values: alike after an update of both parameters, not before. -/
example : List.Forall₂ (fun θ θ' => (∀ p ∈ (Kind.scs.solver false false).uses, (exGen false).canonOf p θ = (exGen false).canonOf p θ') ∧
      (exGen false).canonOf .d θ = (exGen false).canonOf .d θ')
      (solveParams (exGen false).assign (exGen false).θ0 [.update (true, 3), .update (false, 4), .solve])
      (solveParams (exGen' false).assign (exGen' false).θ0 [.update (true, 3), .update (false, 4), .solve]) ∧
    Generated .scs false false (pat false false false false true true false false false false) (exGen false) ∧
    Generated .scs false false (pat false false false false true true false false false false) (exGen' false) :=
  ⟨.cons ⟨fun _ _ => rfl, rfl⟩ .nil, exGen_generated false, exGen'_generated false⟩

theorem solves_replicate (n : Nat) : solves (List.replicate n (Call.solve (Act := Act))) = n := by
  induction n with
  | zero => rfl
  | succ n ih => rw [List.replicate_succ, solves, ih, Nat.add_comm]

/-- **C81, exactly.** The number of solver objects on the heap is bounded over all histories exactly if the solver is not Clarabel and, if it is SCS,
not exactly one of `P` and `A` depends on parameters with a quadratic objective, and no update concerns `P` or `A` if one of them does. -/
theorem C81_iff {k : Kind} {quad lp : Bool} {b : CId → Bool} {g : Gen Θ V Act} (hg : Generated k quad lp b g)
    (order : List CId → List CId) (horder : ∀ l, (order l).Perm l) (junk : CId → V) :
    (∃ N, ∀ (history : List (Call Act)) toks pus' m os, genBlock (k.solver quad lp).pus g.quad g.changes order = .ok (toks, pus') →
      g.runCalls (k.solver quad lp) toks (g.initMem (k.solver quad lp) junk) history = some (m, os) → live k m (solves history) ≤ N) ↔
    k ≠ .clarabel ∧ (k = .scs → ¬ (quad = true ∧ b .P = !b .A) ∧ ∀ a, ((quad && b .P) || b .A) = true →
      ((quad && (g.outdated a).contains .P) || (g.outdated a).contains .A) = false) := by
  constructor
  · rintro ⟨N, hN⟩
    refine ⟨?_, ?_⟩
    · rintro rfl
      obtain ⟨toks, pus', m, os, h1, h2, h3⟩ := C81_fails_clarabel hg order horder junk (List.replicate (N + 1) .solve)
      have := hN _ _ _ _ _ h1 h2
      rw [h3, solves_replicate] at this
      omega
    · rintro rfl
      refine ⟨?_, ?_⟩
      · rintro ⟨rfl, hb⟩
        obtain ⟨toks, pus', m, os, h1, h2, h3⟩ := C81_fails_scs hg hb order horder junk (List.replicate (N + 1) .solve)
        have := hN _ _ _ _ _ h1 h2
        rw [h3, solves_replicate] at this
        omega
      · intro a hb
        rw [← Bool.not_eq_true]
        intro ha
        obtain ⟨toks, pus', m, os, h1, h2, h3⟩ := C81_fails_updates hg hb a ha order horder junk (N + 1)
        have := hN _ _ _ _ _ h1 h2
        omega
  · rintro ⟨hc, hs⟩
    have key : ∀ history : List (Call Act), ∃ toks pus' m os, genBlock (k.solver quad lp).pus g.quad g.changes order = .ok (toks, pus') ∧
        g.runCalls (k.solver quad lp) toks (g.initMem (k.solver quad lp) junk) history = some (m, os) ∧ live k m (solves history) ≤ 1 := by
      intro history
      by_cases hk : k = .scs
      · subst hk
        obtain ⟨hx, hm⟩ := hs rfl
        obtain ⟨toks, pus', m, os, h1, h2, h3⟩ := C81_scs hg order horder junk history
        refine ⟨toks, pus', m, os, h1, h2, ?_⟩
        have ha : (((quad && b .P) || b .A) && ((quad && !b .P) || !b .A)) = false := by
          revert hx
          cases quad <;> cases b .P <;> cases b .A <;> simp
        rw [h3, ha]
        refine (renewals_off _ (fun a => ?_) history).2
        cases hb : ((quad && b .P) || b .A) with
        | false => rfl
        | true => rw [hm a hb]; rfl
      · obtain ⟨toks, pus', m, os, h1, h2, h3, _⟩ := C81_partial (k := k)
          (by cases k <;> simp at hc hk ⊢) hg order horder junk history
        exact ⟨toks, pus', m, os, h1, h2, h3⟩
    refine ⟨1, fun history toks pus' m os h1 h2 => ?_⟩
    obtain ⟨toks', pus'', m', os', h1', h2', h3⟩ := key history
    rw [h1] at h1'
    cases h1'
    rw [h2] at h2'
    cases h2'
    exact h3

/-- Both sides occur: QOCO with `A` and `b`, and SCS with the problem of `exGen`. -/
example : (∃ N, ∀ (history : List (Call (Bool × Int))) toks pus' m os,
      genBlock (Kind.qoco.solver true false).pus (exOther .qoco true).quad (exOther .qoco true).changes id = .ok (toks, pus') →
      (exOther .qoco true).runCalls (Kind.qoco.solver true false) toks ((exOther .qoco true).initMem (Kind.qoco.solver true false) fun _ => 0)
        history = some (m, os) → live .qoco m (solves history) ≤ N) ∧
    ¬ ∃ N, ∀ (history : List (Call (Bool × Int))) toks pus' m os,
      genBlock (Kind.scs.solver false false).pus (exGen false).quad (exGen false).changes id = .ok (toks, pus') →
      (exGen false).runCalls (Kind.scs.solver false false) toks ((exGen false).initMem (Kind.scs.solver false false) fun _ => 0)
        history = some (m, os) → live .scs m (solves history) ≤ N := by
  rw [C81_iff (exOther_generated .qoco (by simp) true) id fun l => List.Perm.refl l, C81_iff (exGen_generated false) id fun l => List.Perm.refl l]
  exact ⟨⟨by decide, fun h => by cases h⟩, fun h => absurd ((h.2 rfl).2 (false, 0) rfl) (by decide)⟩

/-- **C05, exactly.** A solve right after a solve makes no call that hands over data, exactly if: with SCS and a quadratic objective, both or none
of `P` and `A` depend on parameters; with ECOS, all or none of `A`, `b` and `G` do; with Clarabel, the objective has a quadratic part. -/
theorem C05_iff {k : Kind} {quad lp : Bool} {b : CId → Bool} {g : Gen Θ V Act} (hg : Generated k quad lp b g)
    (order : List CId → List CId) (horder : ∀ l, (order l).Perm l) (junk : CId → V) (history : List (Call Act)) {toks : List Tok} {pus' : Pus}
    {m0 m1 m2 : Mem Θ V} {os : List (Obs V)} {o1 o2 : Obs V}
    (hb : genBlock (k.solver quad lp).pus g.quad g.changes order = .ok (toks, pus'))
    (h0 : g.runCalls (k.solver quad lp) toks (g.initMem (k.solver quad lp) junk) history = some (m0, os))
    (h1 : g.solve (k.solver quad lp) toks m0 = some (m1, o1)) (h2 : g.solve (k.solver quad lp) toks m1 = some (m2, o2)) :
    m2.calls = m1.calls ↔ (k = .scs → quad = true → b .P = b .A) ∧ (k = .ecos → b .A = b .b ∧ b .A = b .G) ∧ (k = .clarabel → lp = false) := by
  obtain ⟨toks', pus'', m0', os', m1', o1', m2', o2', e1, e2, e3, e4, e5⟩ := C05_idle_solve_makes_no_call_partial hg order horder junk history
  rw [hb] at e1
  cases e1
  rw [h0] at e2
  cases e2
  rw [h1] at e3
  cases e3
  rw [h2] at e4
  cases e4
  rw [e5]
  have hp := hg.possible
  clear e5 h0 h1 h2 hb hg
  cases k <;> cases quad <;> cases lp <;> simp_all [idlePattern, changesOf, Changes.getD, Kind.canonIds, Kind.possible]

/-- The hypotheses of `C05_iff` are met, with both results: SCS creates its workspace again without an update, QOCO is not called. -/
example : ∃ toks pus' m0 os m1 o1 m2 o2,
    genBlock (Kind.scs.solver true false).pus (exGen true).quad (exGen true).changes id = .ok (toks, pus') ∧
    (exGen true).runCalls (Kind.scs.solver true false) toks ((exGen true).initMem (Kind.scs.solver true false) fun _ => 0)
      [.update (true, 5)] = some (m0, os) ∧
    (exGen true).solve (Kind.scs.solver true false) toks m0 = some (m1, o1) ∧ (exGen true).solve (Kind.scs.solver true false) toks m1 = some (m2, o2) ∧
    m2.calls = .PA :: m1.calls := by
  refine ⟨_, _, _, _, _, _, _, _, rfl, rfl, rfl, rfl, ?_⟩
  decide

example : ∃ toks pus' m0 os m1 o1 m2 o2,
    genBlock (Kind.qoco.solver true false).pus (exOther .qoco true).quad (exOther .qoco true).changes id = .ok (toks, pus') ∧
    (exOther .qoco true).runCalls (Kind.qoco.solver true false) toks ((exOther .qoco true).initMem (Kind.qoco.solver true false) fun _ => 0)
      [.update (true, 5)] = some (m0, os) ∧
    (exOther .qoco true).solve (Kind.qoco.solver true false) toks m0 = some (m1, o1) ∧
    (exOther .qoco true).solve (Kind.qoco.solver true false) toks m1 = some (m2, o2) ∧ m2.calls = m1.calls := by
  refine ⟨_, _, _, _, _, _, _, _, rfl, rfl, rfl, rfl, ?_⟩
  decide

end Verif.Props
