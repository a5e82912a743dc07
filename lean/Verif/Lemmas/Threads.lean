import Verif.Spec.Threads
import Verif.Props.Wrapper
/-!
Helper lemmas for threads.
-/
namespace Verif.Lemmas.Threads
open Verif.Model Verif.Model.Threads Verif.Spec.Threads
open Verif.Spec hiding run

variable {R S : Type}

theorem setKwargs_cons (sg : Stgs S) (store : String → S) (key : String) (v : S) (kw : List (String × S)) :
    setKwargs sg store ((key, v) :: kw) = (if sg.translated key = "default_settings" then (store, some .typeError)
      else if !sg.enabled.contains (sg.translated key) then (store, some .attributeError)
      else if !sg.accepts (sg.translated key) v then (store, some .typeError)
      else setKwargs sg (fun m => if m = sg.translated key then v else store m) kw) := rfl

/-- Keyword arguments in two portions. -/
theorem setKwargs_append (sg : Stgs S) (b : List (String × S)) :
    ∀ (a : List (String × S)) (store : String → S), (setKwargs sg store a).2 = none →
      setKwargs sg store (a ++ b) = setKwargs sg (setKwargs sg store a).1 b := by
  intro a
  induction a with
  | nil => intro store _; rfl
  | cons kv a ih =>
    obtain ⟨key, v⟩ := kv
    intro store h
    rw [setKwargs_cons] at h
    split at h
    · cases h
    · rename_i h1
      split at h
      · cases h
      · rename_i h2
        split at h
        · cases h
        · rename_i h3
          rw [List.cons_append, setKwargs_cons sg store key v (a ++ b), setKwargs_cons sg store key v a,
            if_neg h1, if_neg h2, if_neg h3, if_neg h1, if_neg h2, if_neg h3]
          exact ih _ h

/-- Whether and how keyword arguments fail does not depend on what is stored. -/
theorem setKwargs_err (sg : Stgs S) :
    ∀ (a : List (String × S)) (s s' : String → S), (setKwargs sg s a).2 = (setKwargs sg s' a).2 := by
  intro a
  induction a with
  | nil => intro _ _; rfl
  | cons kv a ih =>
    obtain ⟨key, v⟩ := kv
    intro s s'
    unfold setKwargs
    simp only
    split
    · rfl
    · split
      · rfl
      · split
        · rfl
        · exact ih _ _

theorem setKwargs_fail (sg : Stgs S) (kv : String × S) (b : List (String × S)) (s s' : String → S)
    (e : PyErr) (h : (setKwargs sg s [kv]).2 = some e) : (setKwargs sg s' (kv :: b)).2 = some e := by
  obtain ⟨key, v⟩ := kv
  unfold setKwargs at h ⊢
  simp only at h ⊢
  split at h
  · rename_i h1; rw [if_pos h1]; exact h
  · rename_i h1
    split at h
    · rename_i h2; rw [if_neg h1, if_pos h2]; exact h
    · rename_i h2
      split at h
      · rename_i h3; rw [if_neg h1, if_neg h2, if_pos h3]; exact h
      · cases h

/-- One keyword argument that is accepted. -/
theorem setKwargs_one (sg : Stgs S) (kv : String × S) (s s' : String → S)
    (h : setKwargs sg s [kv] = (s', none)) :
    s' = fun m => if m = sg.translated kv.1 then kv.2 else s m := by
  obtain ⟨key, v⟩ := kv
  unfold setKwargs at h
  simp only at h
  split at h
  · cases h
  · split at h
    · cases h
    · split at h
      · cases h
      · simp only [setKwargs, Prod.mk.injEq, and_true] at h
        exact h.symm

/-- One keyword argument that is rejected. -/
theorem setKwargs_one_fail (sg : Stgs S) (kv : String × S) (s s' : String → S) (e : PyErr)
    (h : setKwargs sg s [kv] = (s', some e)) : s' = s := by
  obtain ⟨key, v⟩ := kv
  unfold setKwargs at h
  simp only at h
  split at h
  · cases h; rfl
  · split at h
    · cases h; rfl
    · split at h
      · cases h; rfl
      · cases h

variable [CommRing R] [DecidableEq R]

/-- State of a process for parameters `ps`. -/
abbrev TSys (R S : Type) (ps : List UParam) :=
  Sys R S (Option (List R)) { θ : List R // θ.length = totalSize ps }

variable {k : Kind} {quad lp : Bool} {ps : List UParam} {maps : CId → Option (RawMap R)}
  {θ0 : { θ : List R // θ.length = totalSize ps }} {sg : Stgs S} {toks : List Tok}

/-- Where a thread inside a call stands. -/
def Inside (ps : List UParam) (sg : Stgs S) (t : Thread R S (Option (List R))) : Prop :=
  ∀ rest, t.pending = some rest → ∃ u done ops, t.todo = .solve u (done ++ rest) :: ops ∧
    unknown ps u = false ∧ ∀ store, (setKwargs sg store done).2 = none

theorem set_same (s : TSys R S ps) (i : Nat) (t : Thread R S (Option (List R))) :
    (s.set i t).threads i = t := by simp [Sys.set]

theorem set_other (s : TSys R S ps) {i j : Nat} (h : j ≠ i) (t : Thread R S (Option (List R))) :
    (s.set i t).threads j = s.threads j := by simp [Sys.set, h]

/-- Every kind of step. -/
inductive Steps (k : Kind) (quad lp : Bool) (ps : List UParam) (maps : CId → Option (RawMap R))
    (θ0 : { θ : List R // θ.length = totalSize ps }) (sg : Stgs S) (toks : List Tok)
    (s : TSys R S ps) (i : Nat) : TSys R S ps → Prop
  | nothing : (s.threads i).todo = [] → Steps k quad lp ps maps θ0 sg toks s i s
  | setVal (n v ops) : (s.threads i).todo = .setVal n v :: ops →
      Steps k quad lp ps maps θ0 sg toks s i
        (s.set i { (s.threads i).done with vals := fun m => if m = n then some v else (s.threads i).vals m })
  | reject (u kw ops) : (s.threads i).todo = .solve u kw :: ops → (s.threads i).pending = none →
      unknown ps u = true →
      Steps k quad lp ps maps θ0 sg toks s i (s.set i ((s.threads i).fail .attributeError))
  | start (u kw ops) : (s.threads i).todo = .solve u kw :: ops → (s.threads i).pending = none →
      unknown ps u = false →
      Steps k quad lp ps maps θ0 sg toks s i
        { s.set i { s.threads i with pending := some kw } with store := resetStore k sg s.store }
  | setting (u kw ops kv rest store) : (s.threads i).todo = .solve u kw :: ops →
      (s.threads i).pending = some (kv :: rest) → setKwargs sg s.store [kv] = (store, none) →
      Steps k quad lp ps maps θ0 sg toks s i
        { s.set i { s.threads i with pending := some rest } with store := store }
  | refuse (u kw ops kv rest store e) : (s.threads i).todo = .solve u kw :: ops →
      (s.threads i).pending = some (kv :: rest) → setKwargs sg s.store [kv] = (store, some e) →
      Steps k quad lp ps maps θ0 sg toks s i { s.set i ((s.threads i).fail e) with store := store }
  | missing (u kw ops e) : (s.threads i).todo = .solve u kw :: ops → (s.threads i).pending = some [] →
      readVals (s.threads i).vals ps = some e →
      Steps k quad lp ps maps θ0 sg toks s i (s.set i ((s.threads i).fail e))
  | solve (u kw ops m o) : (s.threads i).todo = .solve u kw :: ops → (s.threads i).pending = some [] →
      readVals (s.threads i).vals ps = none →
      (canonGen ps (k.canonIds quad) quad maps θ0).runCalls (k.solver quad lp) toks s.mem
        ((updateActs ps (u.getD (ps.map UParam.name)) (s.threads i).vals).map Call.update ++ [Call.solve])
        = some (m, [o]) →
      Steps k quad lp ps maps θ0 sg toks s i
        { s.set i ((s.threads i).succeed ⟨o, deliver k sg (m.calls.take (m.calls.length - s.mem.calls.length))
            s.store s.used⟩) with
          mem := m
          used := deliver k sg (m.calls.take (m.calls.length - s.mem.calls.length)) s.store s.used }

theorem steps_of (s s' : TSys R S ps) (i : Nat) (h : step k quad lp ps maps θ0 sg toks s i = some s') :
    Steps k quad lp ps maps θ0 sg toks s i s' := by
  unfold step at h
  simp only at h
  split at h
  · rename_i h1
    cases h; exact .nothing h1
  · rename_i n v ops h1
    cases h; exact .setVal n v ops h1
  · rename_i u kw ops h1
    split at h
    · rename_i h2
      split at h
      · rename_i h3; cases h; exact .reject u kw ops h1 h2 h3
      · rename_i h3; cases h; exact .start u kw ops h1 h2 (by simpa using h3)
    · rename_i h2
      unfold solveNow at h
      simp only at h
      split at h
      · rename_i e h3; cases h; exact .missing u kw ops e h1 h2 h3
      · rename_i h3
        split at h
        · rename_i m o h4; cases h; exact .solve u kw ops m o h1 h2 h3 h4
        · cases h
    · rename_i kv rest h2
      split at h
      · rename_i store h3; cases h; exact .setting u kw ops kv rest store h1 h2 h3
      · rename_i store e h3; cases h; exact .refuse u kw ops kv rest store e h1 h2 h3

/-- Threads stay well placed. -/
theorem inside_step (s s' : TSys R S ps) (i : Nat)
    (hs : Steps k quad lp ps maps θ0 sg toks s i s') (h : ∀ j, Inside ps sg (s.threads j)) :
    ∀ j, Inside ps sg (s'.threads j) := by
  have other : ∀ (t : Thread R S (Option (List R))), Inside ps sg t →
      ∀ j, Inside ps sg ((s.set i t).threads j) := by
    intro t ht j
    by_cases hj : j = i
    · subst hj; rw [set_same]; exact ht
    · rw [set_other s hj]; exact h j
  cases hs with
  | nothing _ => exact h
  | setVal n v ops _ => exact other _ (by intro rest hr; cases hr)
  | reject u kw ops _ _ _ => exact other _ (by intro rest hr; cases hr)
  | start u kw ops h1 h2 h3 =>
    exact other _ (by
      intro rest hr
      cases hr
      exact ⟨u, [], ops, h1, h3, fun _ => rfl⟩)
  | setting u kw ops kv rest store h1 h2 h3 =>
    exact other _ (by
      intro rest' hr
      cases hr
      obtain ⟨u', done, ops', h4, h5, h6⟩ := h i _ h2
      refine ⟨u', done ++ [kv], ops', ?_, h5, ?_⟩
      · show (s.threads i).todo = _
        rw [h4, List.append_assoc, List.singleton_append]
      · intro st
        rw [setKwargs_append sg [kv] done st (h6 st), setKwargs_err sg [kv] _ s.store, h3])
  | refuse u kw ops kv rest store e _ _ _ => exact other _ (by intro rest hr; cases hr)
  | missing u kw ops e _ _ _ => exact other _ (by intro rest hr; cases hr)
  | solve u kw ops m o _ _ _ _ => exact other _ (by intro rest hr; cases hr)

/-- A process and one in which no call is interrupted agree in all but settings. -/
structure Rel (ps : List UParam) (s w : TSys R S ps) : Prop where
  mem : s.mem = w.mem
  threads : ∀ j, SameThread (s.threads j) (w.threads j)

theorem Rel.set {s w : TSys R S ps} (h : Rel ps s w) (i : Nat)
    {t u : Thread R S (Option (List R))} (htu : SameThread t u) : ∀ j,
    SameThread ((s.set i t).threads j) ((w.set i u).threads j) := by
  intro j
  by_cases hj : j = i
  · subst hj; rw [set_same, set_same]; exact htu
  · rw [set_other s hj, set_other w hj]; exact h.threads j

theorem Rel.left {s w : TSys R S ps} (h : Rel ps s w) (i : Nat)
    {t : Thread R S (Option (List R))} (htu : SameThread t (w.threads i)) : ∀ j,
    SameThread ((s.set i t).threads j) (w.threads j) := by
  intro j
  by_cases hj : j = i
  · subst hj; rw [set_same]; exact htu
  · rw [set_other s hj]; exact h.threads j

/-- A step is no whole operation yet, or the end of one. -/
theorem step_whole (s s' w : TSys R S ps) (i : Nat) (hs : Steps k quad lp ps maps θ0 sg toks s i s')
    (hin : ∀ j, Inside ps sg (s.threads j)) (h : Rel ps s w) :
    Rel ps s' w ∨ ∃ w', whole k quad lp ps maps θ0 sg toks w i = some w' ∧ Rel ps s' w' := by
  have hi := h.threads i
  cases hs with
  | nothing _ => exact Or.inl h
  | setVal n v ops h1 =>
    right
    unfold whole
    simp only [← hi.todo, h1]
    refine ⟨_, rfl, h.mem, h.set i ⟨?_, hi.saved, ?_, hi.out⟩⟩
    · simp only [hi.vals]
    · simp [Thread.done, h1]
  | reject u kw ops h1 h2 h3 =>
    right
    unfold whole
    have : pySolve k quad lp ps maps θ0 sg toks
        ⟨(w.threads i).vals, w.mem, w.store, w.used, (w.threads i).saved⟩ u kw
        = some (⟨(w.threads i).vals, w.mem, w.store, w.used, (w.threads i).saved⟩,
          .error .attributeError) := by
      unfold pySolve
      exact if_pos h3
    simp only [← hi.todo, h1, this]
    refine ⟨_, rfl, h.mem, h.set i ⟨hi.vals, hi.saved, ?_, ?_⟩⟩
    · simp [Thread.fail, Thread.done, h1]
    · simp [Thread.fail, Thread.done, hi.out, dataOf]
  | start u kw ops h1 h2 h3 =>
    left
    exact ⟨h.mem, h.left i ⟨hi.vals, hi.saved, hi.todo, hi.out⟩⟩
  | setting u kw ops kv rest store h1 h2 h3 =>
    left
    exact ⟨h.mem, h.left i ⟨hi.vals, hi.saved, hi.todo, hi.out⟩⟩
  | refuse u kw ops kv rest store e h1 h2 h3 =>
    right
    obtain ⟨u', done, ops', h4, h5, h6⟩ := hin i _ h2
    unfold whole
    have herr : (setKwargs sg (resetStore k sg w.store) (done ++ kv :: rest)).2 = some e := by
      rw [setKwargs_append sg _ done _ (h6 _)]
      exact setKwargs_fail sg kv rest s.store _ e (by rw [h3])
    have : ∃ st, pySolve k quad lp ps maps θ0 sg toks
        ⟨(w.threads i).vals, w.mem, w.store, w.used, (w.threads i).saved⟩ u' (done ++ kv :: rest)
        = some (⟨(w.threads i).vals, w.mem, st, w.used, (w.threads i).saved⟩, .error e) := by
      unfold pySolve
      have hk : ¬ ((u'.getD (ps.map UParam.name)).any fun n => !(ps.map UParam.name).contains n) = true := by
        intro hc; rw [show unknown ps u' = true from hc] at h5; cases h5
      simp only [if_neg hk]
      generalize setKwargs sg (resetStore k sg w.store) (done ++ kv :: rest) = res at herr
      obtain ⟨st, err⟩ := res
      simp only at herr
      subst herr
      exact ⟨st, rfl⟩
    obtain ⟨st, this⟩ := this
    simp only [← hi.todo, h4, this]
    refine ⟨_, rfl, h.mem, h.set i ⟨hi.vals, hi.saved, ?_, ?_⟩⟩
    · simp [Thread.fail, Thread.done, h4]
    · simp [Thread.fail, Thread.done, hi.out, dataOf]
  | missing u kw ops e h1 h2 h3 =>
    right
    obtain ⟨u', done, ops', h4, h5, h6⟩ := hin i _ h2
    rw [List.append_nil] at h4
    unfold whole
    have : ∃ st, pySolve k quad lp ps maps θ0 sg toks
        ⟨(w.threads i).vals, w.mem, w.store, w.used, (w.threads i).saved⟩ u' done
        = some (⟨(w.threads i).vals, w.mem, st, w.used, (w.threads i).saved⟩, .error e) := by
      unfold pySolve
      have hk : ¬ ((u'.getD (ps.map UParam.name)).any fun n => !(ps.map UParam.name).contains n) = true := by
        intro hc; rw [show unknown ps u' = true from hc] at h5; cases h5
      simp only [if_neg hk]
      have herr := h6 (resetStore k sg w.store)
      generalize setKwargs sg (resetStore k sg w.store) done = res at herr
      obtain ⟨st, err⟩ := res
      simp only at herr
      subst herr
      simp only [← hi.vals, h3]
      exact ⟨st, rfl⟩
    obtain ⟨st, this⟩ := this
    simp only [← hi.todo, h4, this]
    refine ⟨_, rfl, h.mem, h.set i ⟨hi.vals, hi.saved, ?_, ?_⟩⟩
    · simp [Thread.fail, Thread.done, h4]
    · simp [Thread.fail, Thread.done, hi.out, dataOf]
  | solve u kw ops m o h1 h2 h3 h7 =>
    right
    obtain ⟨u', done, ops', h4, h5, h6⟩ := hin i _ h2
    rw [List.append_nil] at h4
    have huu : u' = u := by rw [h1] at h4; cases h4; rfl
    subst huu
    unfold whole
    have : ∃ st us, pySolve k quad lp ps maps θ0 sg toks
        ⟨(w.threads i).vals, w.mem, w.store, w.used, (w.threads i).saved⟩ u' done
        = some (⟨(w.threads i).vals, m, st, us, some o⟩, .ok ⟨o, us⟩) := by
      unfold pySolve
      have hk : ¬ ((u'.getD (ps.map UParam.name)).any fun n => !(ps.map UParam.name).contains n) = true := by
        intro hc; rw [show unknown ps u' = true from hc] at h5; cases h5
      simp only [if_neg hk]
      have herr := h6 (resetStore k sg w.store)
      generalize setKwargs sg (resetStore k sg w.store) done = res at herr
      obtain ⟨st, err⟩ := res
      simp only at herr
      subst herr
      simp only [← hi.vals, h3, ← h.mem, h7]
      exact ⟨st, _, rfl⟩
    obtain ⟨st, us, this⟩ := this
    simp only [← hi.todo, h4, this]
    refine ⟨_, rfl, rfl, h.set i ⟨hi.vals, rfl, ?_, ?_⟩⟩
    · simp [Thread.succeed, Thread.done, h4]
    · simp [Thread.succeed, Thread.done, hi.out, dataOf, Except.map]

theorem run_serial : ∀ (sched : List Nat) (s s' w : TSys R S ps),
    run k quad lp ps maps θ0 sg toks s sched = some s' → (∀ j, Inside ps sg (s.threads j)) → Rel ps s w →
    ∃ order w', order.Sublist sched ∧ serial k quad lp ps maps θ0 sg toks w order = some w' ∧ Rel ps s' w' := by
  intro sched
  induction sched with
  | nil =>
    intro s s' w h _ hr
    cases h
    exact ⟨[], w, List.Sublist.refl _, rfl, hr⟩
  | cons i sched ih =>
    intro s s' w h hin hr
    unfold run at h
    cases h1 : step k quad lp ps maps θ0 sg toks s i with
    | none => rw [h1] at h; cases h
    | some s1 =>
      rw [h1] at h
      have hst := steps_of s s1 i h1
      rcases step_whole s s1 w i hst hin hr with hr' | ⟨w', hw, hr'⟩
      · obtain ⟨order, w'', h2, h3, h4⟩ := ih s1 s' w h (inside_step s s1 i hst hin) hr'
        exact ⟨order, w'', h2.cons i, h3, h4⟩
      · obtain ⟨order, w'', h2, h3, h4⟩ := ih s1 s' w' h (inside_step s s1 i hst hin) hr'
        refine ⟨i :: order, w'', h2.cons_cons i, ?_, h4⟩
        unfold serial
        rw [hw]
        exact h3

end Verif.Lemmas.Threads
