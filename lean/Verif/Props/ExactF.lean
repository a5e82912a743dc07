import Verif.Props.Wrapper
import Verif.Model.Retrieve
import Verif.Props.Assign
/-!
# C15, C18, C20: what each solver takes and returns; which exception a missing value raises. C82: exactly when parameters change
-/
namespace Verif.Props
open Verif.Model Verif.Spec Verif.Lemmas

variable {R S : Type} [CommRing R] [DecidableEq R]

/-- **C18** The duals of a solver come in two vectors exactly if it takes equalities (`A`, `b`) and
inequalities (`G`, `h`) as separate data; whether the objective is quadratic does not matter. -/
theorem C18_split_iff (k : Kind) (quad : Bool) :
    (k.dualSplit = true ↔ CId.G ∈ k.canonIds quad) ∧ (CId.G ∈ k.canonIds quad ↔ CId.h ∈ k.canonIds quad) := by
  cases k <;> cases quad <;> decide

/-- **C15** For every solver the canonical parameters include the constant of the objective, the matrix of
constraints and exactly one linear cost; there is a quadratic one exactly if the objective is quadratic and
the solver is not ECOS. -/
theorem C15_objective_present (k : Kind) (quad : Bool) :
    CId.d ∈ k.canonIds quad ∧ CId.A ∈ k.canonIds quad ∧
      (CId.q ∈ k.canonIds quad ↔ CId.c ∉ k.canonIds quad) ∧
      (CId.P ∈ k.canonIds quad ↔ quad = true ∧ k ≠ .ecos) := by
  cases k <;> cases quad <;> decide

/-- Whatever a solver function pushes or initialization reads (`Solver.uses`) is among the canonical
parameters, for the combinations for which generation is intended. -/
theorem C15_used_present (k : Kind) (quad lp : Bool) (h : k.possible quad lp = true) (hl : quad = true → lp = false) :
    ∀ c ∈ (k.solver quad lp).uses, c ∈ k.canonIds quad := by
  revert h hl
  cases k <;> cases quad <;> cases lp <;> decide

theorem readVals_missing (vals : String → Option (List R)) (pre post : List UParam) (p : UParam)
    (hpre : ∀ q ∈ pre, vals q.name ≠ none) (hp : vals p.name = none) :
    readVals vals (pre ++ p :: post) = some (if p.size = 1 then .typeError else .attributeError) := by
  induction pre with
  | nil => simp [readVals, hp]
  | cons q pre ih =>
    have hq := hpre q (by simp)
    cases hv : vals q.name with
    | none => exact absurd hv hq
    | some v =>
      show readVals vals (q :: (pre ++ p :: post)) = _
      unfold readVals
      rw [hv]
      exact ih (fun r hr => hpre r (by simp [hr]))

theorem readVals_none_iff (vals : String → Option (List R)) (ps : List UParam) :
    readVals vals ps = none ↔ ∀ p ∈ ps, vals p.name ≠ none := by
  induction ps with
  | nil => simp [readVals]
  | cons q ps ih =>
    unfold readVals
    cases hv : vals q.name with
    | none => simp [hv]
    | some v => simp [hv, ih]

/-- **C20** Solving while a parameter has no value raises an exception, whether or not that parameter is
among the updated ones: `TypeError` if the first parameter without a value has one entry and `AttributeError`
otherwise. Parameters, solver and stored solution are unchanged. -/
theorem C20_missing_value (k : Kind) (quad lp : Bool) (pre post : List UParam) (p : UParam)
    (maps : CId → Option (RawMap R)) (θ0 : { θ : List R // θ.length = totalSize (pre ++ p :: post) })
    (sg : Stgs S) (toks : List Tok) (st : PySt R S (pre ++ p :: post)) (L : Option (List String))
    (kw : List (String × S)) (hL : ∀ L', L = some L' → ∀ n ∈ L', ∃ q ∈ pre ++ p :: post, q.name = n)
    (hd : "default_settings" ∉ sg.enabled)
    (hkw : ∀ e ∈ kw, (sg.translate.lookup e.1).getD e.1 ∈ sg.enabled ∧
      sg.accepts ((sg.translate.lookup e.1).getD e.1) e.2 = true)
    (hpre : ∀ q ∈ pre, st.vals q.name ≠ none) (hp : st.vals p.name = none) :
    ∃ store, pySolve k quad lp (pre ++ p :: post) maps θ0 sg toks st L kw
      = some ({ st with store := store }, .error (if p.size = 1 then .typeError else .attributeError)) := by
  have hnone := setKwargs_none sg hd kw (resetStore k sg st.store)
  unfold pySolve
  rw [if_neg]
  · generalize hsk : setKwargs sg (resetStore k sg st.store) kw = res at hnone
    obtain ⟨store, err⟩ := res
    have : err = none := hnone.mpr hkw
    subst this
    refine ⟨store, ?_⟩
    simp only
    rw [readVals_missing st.vals pre post p hpre hp]
  · rw [List.any_eq_true]
    rintro ⟨n, hn, hc⟩
    cases L with
    | none => simp at hn hc; grind
    | some L' =>
      obtain ⟨q, hq, hqn⟩ := hL L' rfl n (by simpa using hn)
      simp at hc
      simp at hq
      grind

/-- Exceptions for a missing scalar (first), and for a missing vector. -/
example : exRun .ecos [.solve none []] = some [.error .typeError] ∧
    exRun .ecos [.setVal "a" [3], .solve (some ["a"]) []] = some [.error .attributeError] := by
  constructor <;> decide +kernel

section
open Verif.Model.Assign Verif.Spec.Assign
variable {Attr V Raw T : Type}

/-- **C82 (iff)** A sequence of generations leaves the parameters of the problem alone exactly if all of them had values or every call
raised before parameters were listed. -/
theorem C82_iff (e : Env Attr V Raw T) (js : List (Job Attr)) (w : World Attr V T) :
    Untouched w.params (js.foldl (fun w j => (Assign.generate e j w).2) w).params ↔
      Full w.params ∨ ∀ j ∈ js, j.before ≠ none := by
  constructor
  · intro h
    by_cases hj : ∀ j ∈ js, j.before ≠ none
    · exact .inr hj
    · left
      induction js with
      | nil => exact absurd (fun _ h => by cases h) hj
      | cons j js ih =>
        rw [List.foldl_cons] at h
        cases hb : j.before with
        | none =>
          rw [C82_again e j hb w js] at h
          have : Full (Assign.generate e j w).2.params := by
            rw [generate_params, hb]
            exact assign_full e _ _
          rw [h] at this
          exact this
        | some err =>
          rw [C82_early e j w err hb] at h
          exact ih h fun hall => hj fun k hk => by
            rcases List.mem_cons.1 hk with rfl | hk
            · rw [hb]; simp
            · exact hall k hk
  · intro h
    induction js generalizing w with
    | nil => rfl
    | cons j js ih =>
      rw [List.foldl_cons]
      have hw : (Assign.generate e j w).2.params = w.params := by
        rw [generate_params]
        cases hb : j.before with
        | some err => rfl
        | none =>
          rcases h with h | h
          · exact congrArg Prod.fst (assign_of_full e _ w.rng h)
          · exact absurd hb (h j (by simp))
      have := ih (Assign.generate e j w).2 (by
        rcases h with h | h
        · exact .inl (by rw [hw]; exact h)
        · exact .inr fun k hk => h k (by simp [hk]))
      rw [hw] at this
      exact this

/-- Neither side is trivial: a call that raises early, and one that does not. -/
example (e : Env Unit Nat Nat Nat) (x : PyErr) : let w : World Unit Nat Nat := ⟨[⟨(), none⟩], 0⟩
    Untouched w.params (Assign.generate e ⟨some x, none, none, none⟩ w).2.params ∧
      ¬ Untouched w.params (Assign.generate e ⟨none, none, none, none⟩ w).2.params := by
  refine ⟨(C82_iff e [⟨some x, none, none, none⟩] _).mpr (.inr (by simp)), fun h => ?_⟩
  rcases (C82_iff e [⟨none, none, none, none⟩] _).mp h with h | h
  · have := h ⟨(), none⟩ (by simp)
    cases this
  · exact h ⟨none, none, none, none⟩ (by simp) rfl

end

end Verif.Props
