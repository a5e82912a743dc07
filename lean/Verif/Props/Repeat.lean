import Verif.Props.UpdateSolve
import Verif.Spec.Repeat
/-! C83: programs generated from the same problem behave alike.

Two runs of code generation can differ in the iteration order of sets of strings (Python's hashes of strings differ from process to process;
`analyze_pus`, /repo/cvxpygen/utils.py:371-419) and in the random values of parameters without a value
(/repo/cvxpygen/canonicalizer.py:249-254); two runs of a program can differ in what is in memory that is not initialised. -/
namespace Verif.Props
open Verif.Model Verif.Spec Verif.Lemmas Verif.Spec.Repeat
variable {Θ V Act : Type}

theorem solveParams_pre (assign : Act → Θ → Θ) (rest : List (Call Act)) : ∀ (pre : List Act) (θ : Θ),
    solveParams assign θ (pre.map Call.update ++ rest) = solveParams assign (after assign θ pre) rest := by
  intro pre
  induction pre with
  | nil => intro θ; rfl
  | cons a pre ih => intro θ; exact ih _

theorem alike_of_fresh (canonOf : CId → Θ → V) (uses : List CId) : ∀ (θs : List Θ) (os os' : List (Obs V)),
    List.Forall₂ (Fresh canonOf uses) θs os → List.Forall₂ (Fresh canonOf uses) θs os' → List.Forall₂ (Alike uses) os os' := by
  intro θs
  induction θs with
  | nil => intro os os' h h'; cases h; cases h'; exact .nil
  | cons θ θs ih =>
    intro os os' h h'
    cases h with
    | cons h1 h2 =>
      cases h' with
      | cons h1' h2' =>
        exact .cons ⟨fun p hp => (h1.1 p hp).trans (h1'.1 p hp).symm, h1.2.trans h1'.2.symm⟩ (ih _ _ h2 h2')

/-- **C83.** Two programs generated from one problem, with any two orders of sets, any two contents of memory, and any two vectors of values at
generation, do the same at every solve of every history, once updates have made the parameters equal. -/
theorem C83_partial {k : Kind} {quad lp : Bool} {b : CId → Bool} {g g' : Gen Θ V Act} (hg : Generated k quad lp b g)
    (hg' : Generated k quad lp b g') (hmaps : g'.canonOf = g.canonOf) (hassign : g'.assign = g.assign)
    (order order' : List CId → List CId) (horder : ∀ l, (order l).Perm l) (horder' : ∀ l, (order' l).Perm l) (junk junk' : CId → V)
    (pre : List Act) (hpre : after g.assign g'.θ0 pre = after g.assign g.θ0 pre) (rest : List (Call Act)) :
    ∃ toks pus1 m os toks' pus1' m' os',
      genBlock (k.solver quad lp).pus g.quad g.changes order = .ok (toks, pus1) ∧
      genBlock (k.solver quad lp).pus g'.quad g'.changes order' = .ok (toks', pus1') ∧
      g.runCalls (k.solver quad lp) toks (g.initMem (k.solver quad lp) junk) (pre.map Call.update ++ rest) = some (m, os) ∧
      g'.runCalls (k.solver quad lp) toks' (g'.initMem (k.solver quad lp) junk') (pre.map Call.update ++ rest) = some (m', os') ∧
      List.Forall₂ (Alike (k.solver quad lp).uses) os os' := by
  obtain ⟨toks, pus1, m, os, h1, h2, _, h3⟩ := C01_every_solve_uses_current_parameters hg order horder junk (pre.map Call.update ++ rest)
  obtain ⟨toks', pus1', m', os', h1', h2', _, h3'⟩ :=
    C01_every_solve_uses_current_parameters hg' order' horder' junk' (pre.map Call.update ++ rest)
  refine ⟨toks, pus1, m, os, toks', pus1', m', os', h1, h1', h2, h2', ?_⟩
  rw [solveParams_pre] at h3
  rw [hassign, hmaps, solveParams_pre, hpre] at h3'
  exact alike_of_fresh _ _ _ _ _ h3 h3'

/-- **C83, all parameters with values.** Then programs generated from one problem do the same at every solve of every history. -/
theorem C83_values {k : Kind} {quad lp : Bool} {b : CId → Bool} {g : Gen Θ V Act} (hg : Generated k quad lp b g)
    (order order' : List CId → List CId) (horder : ∀ l, (order l).Perm l) (horder' : ∀ l, (order' l).Perm l) (junk junk' : CId → V)
    (history : List (Call Act)) :
    ∃ toks pus1 m os toks' pus1' m' os',
      genBlock (k.solver quad lp).pus g.quad g.changes order = .ok (toks, pus1) ∧
      genBlock (k.solver quad lp).pus g.quad g.changes order' = .ok (toks', pus1') ∧
      g.runCalls (k.solver quad lp) toks (g.initMem (k.solver quad lp) junk) history = some (m, os) ∧
      g.runCalls (k.solver quad lp) toks' (g.initMem (k.solver quad lp) junk') history = some (m', os') ∧
      List.Forall₂ (Alike (k.solver quad lp).uses) os os' :=
  C83_partial hg hg rfl rfl order order' horder horder' junk junk' [] rfl history

/-- **C83 fails: parameters without values.** If the values drawn at two generations give different data, the first solve without updates
does so. -/
theorem C83_fails {k : Kind} {quad lp : Bool} {b : CId → Bool} {g g' : Gen Θ V Act} (hg : Generated k quad lp b g)
    (hg' : Generated k quad lp b g') (hmaps : g'.canonOf = g.canonOf) (p : CId) (hp : p ∈ (k.solver quad lp).uses)
    (hne : g.canonOf p g.θ0 ≠ g.canonOf p g'.θ0)
    (order order' : List CId → List CId) (horder : ∀ l, (order l).Perm l) (horder' : ∀ l, (order' l).Perm l) (junk junk' : CId → V) :
    ∃ toks pus1 m os toks' pus1' m' os',
      genBlock (k.solver quad lp).pus g.quad g.changes order = .ok (toks, pus1) ∧
      genBlock (k.solver quad lp).pus g'.quad g'.changes order' = .ok (toks', pus1') ∧
      g.runCalls (k.solver quad lp) toks (g.initMem (k.solver quad lp) junk) [.solve] = some (m, os) ∧
      g'.runCalls (k.solver quad lp) toks' (g'.initMem (k.solver quad lp) junk') [.solve] = some (m', os') ∧
      ¬ List.Forall₂ (Alike (k.solver quad lp).uses) os os' := by
  obtain ⟨toks, pus1, m, os, h1, h2, _, h3⟩ := C01_every_solve_uses_current_parameters hg order horder junk [.solve]
  obtain ⟨toks', pus1', m', os', h1', h2', _, h3'⟩ := C01_every_solve_uses_current_parameters hg' order' horder' junk' [.solve]
  refine ⟨toks, pus1, m, os, toks', pus1', m', os', h1, h1', h2, h2', fun h => ?_⟩
  cases h3 with
  | cons h3 _ =>
    cases h3' with
    | cons h3' _ =>
      cases h with
      | cons h _ =>
        have := h.1 p hp
        rw [h3.1 p hp, h3'.1 p hp, hmaps] at this
        exact hne this

theorem single_root (k : Kind) (hk : k = .scs ∨ k = .ecos) (quad lp : Bool) (hp : k.possible quad lp = true) (b : CId → Bool) : ∃ r never,
    analyzePus (k.solver quad lp).pus genFuel (changesOf (k.canonIds quad) b) = .ok ([r], never) := by
  have h := forall_changes k quad (fun ch => (match analyzePus (k.solver quad lp).pus genFuel ch with
    | .ok (roots, _) => roots == [.init]
    | .error _ => false) = true)
    (by rcases hk with rfl | rfl <;> cases quad <;> cases lp <;> first | decide +kernel | (revert hp; decide)) b
  cases he : analyzePus (k.solver quad lp).pus genFuel (changesOf (k.canonIds quad) b) with
  | error e => rw [he] at h; cases h
  | ok r =>
    obtain ⟨roots, never⟩ := r
    rw [he] at h
    exact ⟨.init, never, by rw [show roots = [.init] by simpa using h]⟩

/-- **C83, text.** For SCS and ECOS the text of the updates does not depend on the order of sets. -/
theorem C83_text {k : Kind} (hk : k = .scs ∨ k = .ecos) {quad lp : Bool} {b : CId → Bool} {g : Gen Θ V Act} (hg : Generated k quad lp b g)
    (order order' : List CId → List CId) (horder : ∀ l, (order l).Perm l) (horder' : ∀ l, (order' l).Perm l) :
    genBlock (k.solver quad lp).pus g.quad g.changes order = genBlock (k.solver quad lp).pus g.quad g.changes order' := by
  obtain ⟨r, never, h⟩ := single_root k hk quad lp hg.possible b
  unfold genBlock
  rw [hg.changes, h]
  show writeUpdate _ _ _ _ (some (order [r])) 0 = writeUpdate _ _ _ _ (some (order' [r])) 0
  rw [List.perm_singleton.1 (horder [r]), List.perm_singleton.1 (horder' [r])]

/-- **C83, text: other solvers.** For OSQP it does: the same problem gives different files in different processes (which do the same). -/
theorem C83_text_fails : genBlock (Kind.osqp.solver true false).pus true (changesOf (Kind.osqp.canonIds true) fun _ => true) id ≠
    genBlock (Kind.osqp.solver true false).pus true (changesOf (Kind.osqp.canonIds true) fun _ => true) List.reverse := by
  decide

/-! Two generations of `exGen` with different initial values. -/

def exGen' (quad : Bool) : Gen (Int × Int) Int (Bool × Int) := { exGen quad with θ0 := (5, 6) }

theorem exGen'_generated (quad : Bool) : Generated .scs quad false
    (pat false false false false true true false false false false) (exGen' quad) := by
  obtain ⟨h1, h2, h3, h4, h5, h6⟩ := exGen_generated quad
  exact ⟨h1, h2, h3, h4, h5, h6⟩

/-- Updates of both parameters make them equal; the first solve without updates differs. -/
example : after (exGen true).assign (exGen' true).θ0 [(true, 1), (false, 2)] = after (exGen true).assign (exGen true).θ0 [(true, 1), (false, 2)] ∧
    (exGen true).canonOf .b (exGen true).θ0 ≠ (exGen true).canonOf .b (exGen' true).θ0 ∧ .b ∈ (Kind.scs.solver true false).uses := by decide

end Verif.Props
