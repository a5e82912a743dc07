import Verif.Spec.Failed
import Verif.Props.Wrapper
/-!
C89: a call of the generated solve method that raises an exception leaves no trace.
-/
namespace Verif.Props
open Verif.Model Verif.Spec.Failed

variable {R S : Type}

/-- States that differ in settings which the next call overwrites. -/
structure SameBut {V Θ : Type} (k : Kind) (sg : Stgs S) (st st' : PyState R S V Θ) : Prop where
  vals : st'.vals = st.vals
  mem : st'.mem = st.mem
  used : st'.used = st.used
  saved : st'.saved = st.saved
  reset : resetStore k sg st'.store = resetStore k sg st.store

/-- Settings functions only touch settings that the next reset overwrites. -/
theorem setKwargs_reset (k : Kind) (sg : Stgs S) (store : String → S) : ∀ kw : List (String × S),
    resetStore k sg (setKwargs sg store kw).1 = resetStore k sg store := by
  intro kw
  induction kw generalizing store with
  | nil => rfl
  | cons p kw ih =>
    obtain ⟨key, v⟩ := p
    simp only [setKwargs]
    split
    · rfl
    · split
      · rfl
      · rename_i h1 h2
        split
        · rfl
        · rw [ih]
          unfold resetStore
          split
          · rfl
          · funext n
            by_cases hn : n = sg.translated key
            · subst hn
              simp only [Bool.not_eq_true', Bool.not_eq_false] at h2
              simp only [h2, if_true]
            · simp only [hn, if_false]

theorem reset_reset (k : Kind) (sg : Stgs S) (store : String → S) :
    resetStore k sg (resetStore k sg store) = resetStore k sg store := by
  unfold resetStore
  split
  · rfl
  · funext n
    split
    · rfl
    · rename_i h
      exact if_neg h

variable [CommRing R] [DecidableEq R]

/-- **C89, one call.** A call that raises changes neither values of parameters, nor the memory of the C program, nor what the solver works with, nor
the stored solution, and of the settings only what the next call overwrites. -/
theorem C89_call (k : Kind) (quad lp : Bool) (ps : List UParam) (maps : CId → Option (RawMap R))
    (θ0 : { θ : List R // θ.length = totalSize ps }) (sg : Stgs S) (toks : List Tok) (st st' : PySt R S ps)
    (u : Option (List String)) (kw : List (String × S)) (e : PyErr)
    (h : pySolve k quad lp ps maps θ0 sg toks st u kw = some (st', .error e)) : SameBut k sg st st' := by
  unfold pySolve at h
  simp only at h
  split at h
  · cases h; exact ⟨rfl, rfl, rfl, rfl, rfl⟩
  · have hr := setKwargs_reset k sg (resetStore k sg st.store) kw
    rw [reset_reset] at hr
    generalize setKwargs sg (resetStore k sg st.store) kw = res at h hr
    obtain ⟨store, err⟩ := res
    cases err with
    | some e' => cases h; exact ⟨rfl, rfl, rfl, rfl, hr⟩
    | none =>
      simp only at h
      split at h
      · cases h; exact ⟨rfl, rfl, rfl, rfl, hr⟩
      · split at h
        · cases h
        · cases h

/-- Such a difference does not show in the next call. -/
theorem solve_same (k : Kind) (quad lp : Bool) (ps : List UParam) (maps : CId → Option (RawMap R))
    (θ0 : { θ : List R // θ.length = totalSize ps }) (sg : Stgs S) (toks : List Tok) (st st' : PySt R S ps) (hs : SameBut k sg st st')
    (u : Option (List String)) (kw : List (String × S)) (t : PySt R S ps) (r : Except PyErr (PyObs S (Option (List R))))
    (h : pySolve k quad lp ps maps θ0 sg toks st u kw = some (t, r)) :
    ∃ t', pySolve k quad lp ps maps θ0 sg toks st' u kw = some (t', r) ∧ SameBut k sg t t' := by
  obtain ⟨h1, h2, h3, h4, h5⟩ := hs
  unfold pySolve at h ⊢
  simp only at h ⊢
  split at h
  · rename_i hu
    cases h
    rw [if_pos hu]
    exact ⟨_, rfl, h1, h2, h3, h4, h5⟩
  · rename_i hu
    rw [if_neg hu, h5]
    generalize setKwargs sg (resetStore k sg st.store) kw = res at h
    obtain ⟨store, err⟩ := res
    cases err with
    | some e' => cases h; exact ⟨_, rfl, h1, h2, h3, h4, rfl⟩
    | none =>
      simp only at h ⊢
      rw [h1]
      cases hv : readVals st.vals ps with
      | some e' => rw [hv] at h; cases h; exact ⟨_, rfl, rfl, h2, h3, h4, rfl⟩
      | none =>
        rw [hv] at h
        simp only at h ⊢
        rw [h2]
        split at h
        · rename_i m o hm
          cases h
          rw [h3]
          exact ⟨_, rfl, rfl, rfl, rfl, rfl, rfl⟩
        · cases h

/-- **C89.** For every history of assignments and calls: leaving out the calls that raised, all other calls have the same outcomes, and in the end
values, memory of the C program and stored solution are the same. -/
theorem C89_no_trace (k : Kind) (quad lp : Bool) (ps : List UParam) (maps : CId → Option (RawMap R))
    (θ0 : { θ : List R // θ.length = totalSize ps }) (sg : Stgs S) (toks : List Tok) (st t : PySt R S ps) (ops : List (PyOp R S))
    (rs : List (Except PyErr (PyObs S (Option (List R))))) (h : pyRun k quad lp ps maps θ0 sg toks st ops = some (t, rs)) :
    ∃ t', pyRun k quad lp ps maps θ0 sg toks st (succeeded ops rs) = some (t', results rs) ∧
      t'.vals = t.vals ∧ t'.mem = t.mem ∧ t'.used = t.used ∧ t'.saved = t.saved := by
  suffices key : ∀ (ops : List (PyOp R S)) (st st' t : PySt R S ps) rs, SameBut k sg st st' →
      pyRun k quad lp ps maps θ0 sg toks st ops = some (t, rs) →
      ∃ t', pyRun k quad lp ps maps θ0 sg toks st' (succeeded ops rs) = some (t', results rs) ∧ SameBut k sg t t' by
    obtain ⟨t', h1, h2⟩ := key ops st st t rs ⟨rfl, rfl, rfl, rfl, rfl⟩ h
    exact ⟨t', h1, h2.vals, h2.mem, h2.used, h2.saved⟩
  intro ops
  induction ops with
  | nil =>
    intro st st' t rs hs h
    cases h
    exact ⟨st', rfl, hs⟩
  | cons op ops ih =>
    intro st st' t rs hs h
    cases op with
    | setVal n v =>
      simp only [pyRun] at h
      obtain ⟨t', h1, h2⟩ := ih { st with vals := fun m => if m = n then some v else st.vals m }
        { st' with vals := fun m => if m = n then some v else st'.vals m } t rs
        ⟨by simp only [hs.vals], hs.mem, hs.used, hs.saved, hs.reset⟩ h
      exact ⟨t', by simp only [succeeded, pyRun]; exact h1, h2⟩
    | solve u kw =>
      simp only [pyRun] at h
      cases hc : pySolve k quad lp ps maps θ0 sg toks st u kw with
      | none => rw [hc] at h; cases h
      | some p =>
        obtain ⟨s1, r⟩ := p
        rw [hc] at h
        simp only at h
        cases hr : pyRun k quad lp ps maps θ0 sg toks s1 ops with
        | none => rw [hr] at h; cases h
        | some p =>
          obtain ⟨s2, rs'⟩ := p
          rw [hr] at h
          cases h
          cases r with
          | error e =>
            have hc1 := C89_call k quad lp ps maps θ0 sg toks st s1 u kw e hc
            have hs1 : SameBut k sg s1 st' :=
              ⟨hs.vals.trans hc1.vals.symm, hs.mem.trans hc1.mem.symm, hs.used.trans hc1.used.symm, hs.saved.trans hc1.saved.symm,
                hs.reset.trans hc1.reset.symm⟩
            obtain ⟨t', h1, h2⟩ := ih s1 st' t rs' hs1 hr
            exact ⟨t', h1, h2⟩
          | ok o =>
            obtain ⟨s1', h1, h2⟩ := solve_same k quad lp ps maps θ0 sg toks st st' hs u kw s1 _ hc
            obtain ⟨t', h3, h4⟩ := ih s1 s1' t rs' h2 hr
            refine ⟨t', ?_, h4⟩
            show pyRun k quad lp ps maps θ0 sg toks st' (.solve u kw :: succeeded ops rs') = some (t', .ok o :: results rs')
            simp only [pyRun, h1, h3]

/-- All outcomes are in one list: the two definitions leave out the same calls. -/
theorem results_ok {O : Type} (rs : List (Except PyErr O)) : ∀ r ∈ results rs, ∃ o, r = .ok o := by
  intro r hr
  have := (List.mem_filter.1 hr).2
  cases r with
  | ok o => exact ⟨o, rfl⟩
  | error e => cases this

/-- The calls of the history `exOps` that do not raise, with their assignments. -/
example : succeeded exOps [.error .typeError, .ok (some [3, 9], (7 : Int)), .ok (some [3, 2], 100), .error .attributeError,
      .error .attributeError, .error .typeError, .ok (some [(3 : Int), 2], 9)]
    = [.setVal "a" [3], .setVal "s" [4, 5], .solve none [("maxit", 7)], .setVal "a" [8], .setVal "s" [1, 1], .solve (some ["s"]) [],
      .solve (some []) [("max_iters", 9)]] := rfl

/-- Four of seven calls raise; without them the other three have the same outcomes. -/
example : exRun .ecos exOps = some [.error .typeError, .ok (some [3, 9], 7), .ok (some [3, 2], 100), .error .attributeError,
      .error .attributeError, .error .typeError, .ok (some [3, 2], 9)] ∧
    exRun .ecos [.setVal "a" [3], .setVal "s" [4, 5], .solve none [("maxit", 7)], .setVal "a" [8], .setVal "s" [1, 1],
      .solve (some ["s"]) [], .solve (some []) [("max_iters", 9)]]
    = some [.ok (some [3, 9], 7), .ok (some [3, 2], 100), .ok (some [3, 2], 9)] := by constructor <;> decide +kernel

end Verif.Props
