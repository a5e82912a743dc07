import Verif.Lemmas.Threads
/-!
# C96: several Python threads use one generated module

Any number of threads with any programs (assignments and calls of `cpg_solve` with any arguments, each
thread on its own problem object), interleaved in any way between calls into the module.
-/
namespace Verif.Props
open Verif.Model Verif.Model.Threads Verif.Spec.Threads Verif.Lemmas Verif.Lemmas.Threads
open Verif.Spec hiding run

variable {R S : Type} [CommRing R] [DecidableEq R]

/-- **C96 (data)** Whatever the interleaving: there is an order of whole operations, which keeps the order
in which they were finished, such that executing the operations one after the other without interruption
gives every thread the same exceptions, the same data in all its solves, the same stored solution, and
leaves the solver with the same data. (Only settings may differ.) -/
theorem C96_data_as_if_serial (k : Kind) (quad lp : Bool) (ps : List UParam)
    (maps : CId → Option (RawMap R)) (θ0 : { θ : List R // θ.length = totalSize ps }) (sg : Stgs S)
    (toks : List Tok) (s s' : TSys R S ps) (hidle : Idle s) (sched : List Nat)
    (h : Threads.run k quad lp ps maps θ0 sg toks s sched = some s') :
    ∃ order w, order.Sublist sched ∧ serial k quad lp ps maps θ0 sg toks s order = some w ∧
      s'.mem = w.mem ∧ ∀ i, SameThread (s'.threads i) (w.threads i) := by
  obtain ⟨order, w, h1, h2, h3⟩ := run_serial sched s s' s h
    (fun j rest hr => by rw [hidle j] at hr; cases hr) ⟨rfl, fun _ => ⟨rfl, rfl, rfl, rfl⟩⟩
  exact ⟨order, w, h1, h2, h3.mem, h3.threads⟩

/-- What holds at any time of the shared program and of the threads. -/
structure Healthy {ps : List UParam} (g : Gen { θ : List R // θ.length = totalSize ps } (Option (List R))
    { a : UpdCall R // a.Valid ps }) (sv : Solver) (sg : Stgs S) (s : TSys R S ps) : Prop where
  inv : Inv g sv s.mem
  sent : ∃ sent : String → List R, s.mem.θ.1 = (ps.flatMap fun p => sent p.name) ∧
    ∀ p ∈ ps, (sent p.name).length = p.size
  valLen : ∀ j, ∀ p ∈ ps, ∀ v, (s.threads j).vals p.name = some v → v.length = p.size
  opsOK : ∀ j, OpsOK ps (s.threads j).todo
  inside : ∀ j, Inside ps sg (s.threads j)

/-- The solve of a thread that has stored its settings. -/
theorem solveNow_ok {k : Kind} {quad lp : Bool} (hk : k.possible quad lp = true)
    {ps : List UParam} {maps : CId → Option (RawMap R)} (hw : WFInput ps (k.canonIds quad) maps)
    (θ0 : { θ : List R // θ.length = totalSize ps }) (sg : Stgs S)
    (hd : "default_settings" ∉ sg.enabled) {toks : List Tok} {roots never order : List CId}
    (hf : StaticFacts (k.solver quad lp) (canonGen ps (k.canonIds quad) quad maps θ0).quad
      (canonGen ps (k.canonIds quad) quad maps θ0).changes roots never)
    (hperm : order.Perm roots)
    (ht : ∀ s, execText evMem (doCall (canonGen ps (k.canonIds quad) quad maps θ0) (k.solver quad lp)) toks s
        = some (Verif.Spec.run (fireOf evMem)
            (doCall (canonGen ps (k.canonIds quad) quad maps θ0) (k.solver quad lp))
            (norm (canonGen ps (k.canonIds quad) quad maps θ0).quad (k.solver quad lp).pus) never genFuel
            (some order) s))
    (s : TSys R S ps) (i : Nat) (u : Option (List String)) (hu : unknown ps u = false)
    (sent : String → List R) (hsent : s.mem.θ.1 = ps.flatMap fun p => sent p.name)
    (hlen : ∀ p ∈ ps, (sent p.name).length = p.size)
    (hinv : Inv (canonGen ps (k.canonIds quad) quad maps θ0) (k.solver quad lp) s.mem)
    (hval : ∀ p ∈ ps, ∀ v, (s.threads i).vals p.name = some v → v.length = p.size)
    (hv : HaveValues ps (s.threads i).vals) :
    ∃ m o, (canonGen ps (k.canonIds quad) quad maps θ0).runCalls (k.solver quad lp) toks s.mem
        ((updateActs ps (u.getD (ps.map UParam.name)) (s.threads i).vals).map Call.update ++ [Call.solve])
        = some (m, [o]) ∧
      Inv (canonGen ps (k.canonIds quad) quad maps θ0) (k.solver quad lp) m ∧
      m.θ.1 = ((Abs.mk (s.threads i).vals sent).transfer u).vector ps ∧
      (∀ p ∈ ps, (((Abs.mk (s.threads i).vals sent).transfer u).sent p.name).length = p.size) ∧
      (∀ p ∈ (k.solver quad lp).uses, o.data p
        = canonVal (maps p) p.isUpper (((Abs.mk (s.threads i).vals sent).transfer u).vector ps)) ∧
      o.offset = canonVal (maps .d) CId.d.isUpper
        (((Abs.mk (s.threads i).vals sent).transfer u).vector ps) := by
  have hnk : ¬ ((u.getD (ps.map UParam.name)).any fun n => !(ps.map UParam.name).contains n) = true := by
    intro hc; rw [show unknown ps u = true from hc] at hu; cases hu
  have hga : GoodArgs ps sg u [] := by
    refine ⟨?_, by simp⟩
    rintro L rfl n hn
    simp only [Option.getD_some, List.any_eq_true, not_exists, not_and] at hnk
    have := hnk n hn
    simp at this
    exact this
  obtain ⟨st', r, h1, h2⟩ := pySolve_ok hk hw θ0 sg hd hf hperm ht
    ⟨(s.threads i).vals, s.mem, s.store, s.used, (s.threads i).saved⟩ ⟨(s.threads i).vals, sent⟩ u []
    ⟨hinv, hsent, rfl, hlen, hval⟩
  rcases h2 with ⟨_, _, hsim, hm⟩ | ⟨hn, _⟩
  · unfold pySolve at h1
    simp only [if_neg hnk, setKwargs, (readVals_none (s.threads i).vals ps).2 hv] at h1
    split at h1
    · rename_i m o h3
      simp only [Option.some.injEq, Prod.mk.injEq] at h1
      obtain ⟨rfl, rfl⟩ := h1
      exact ⟨m, o, h3, hsim.inv, hsim.θ, hsim.sentLen, hm.1, hm.2.1⟩
    · cases h1
  · exact absurd ⟨hga, hv⟩ hn

theorem healthy_step {k : Kind} {quad lp : Bool} (hk : k.possible quad lp = true)
    {ps : List UParam} {maps : CId → Option (RawMap R)} (hw : WFInput ps (k.canonIds quad) maps)
    (θ0 : { θ : List R // θ.length = totalSize ps }) (sg : Stgs S)
    (hd : "default_settings" ∉ sg.enabled) {toks : List Tok} {roots never order : List CId}
    (hf : StaticFacts (k.solver quad lp) (canonGen ps (k.canonIds quad) quad maps θ0).quad
      (canonGen ps (k.canonIds quad) quad maps θ0).changes roots never)
    (hperm : order.Perm roots)
    (ht : ∀ s, execText evMem (doCall (canonGen ps (k.canonIds quad) quad maps θ0) (k.solver quad lp)) toks s
        = some (Verif.Spec.run (fireOf evMem)
            (doCall (canonGen ps (k.canonIds quad) quad maps θ0) (k.solver quad lp))
            (norm (canonGen ps (k.canonIds quad) quad maps θ0).quad (k.solver quad lp).pus) never genFuel
            (some order) s))
    (s : TSys R S ps) (i : Nat)
    (h : Healthy (canonGen ps (k.canonIds quad) quad maps θ0) (k.solver quad lp) sg s) :
    ∃ s', step k quad lp ps maps θ0 sg toks s i = some s' ∧
      Healthy (canonGen ps (k.canonIds quad) quad maps θ0) (k.solver quad lp) sg s' := by
  -- the step is possible
  have hex : ∃ s', step k quad lp ps maps θ0 sg toks s i = some s' := by
    unfold step
    simp only
    split
    · exact ⟨_, rfl⟩
    · exact ⟨_, rfl⟩
    · rename_i u kw ops h1
      split
      · split <;> exact ⟨_, rfl⟩
      · rename_i h2
        unfold solveNow
        simp only
        cases hr : readVals (s.threads i).vals ps with
        | some e => exact ⟨_, rfl⟩
        | none =>
          obtain ⟨sent, h3, h4⟩ := h.sent
          obtain ⟨u', done, ops', h5, h6, _⟩ := h.inside i _ h2
          have huu : u' = u := by rw [h1] at h5; cases h5; rfl
          subst huu
          obtain ⟨m, o, h7, _⟩ := solveNow_ok hk hw θ0 sg hd hf hperm ht s i u' h6 sent h3 h4 h.inv
            (h.valLen i) ((readVals_none _ ps).1 hr)
          simp only [h7]
          exact ⟨_, rfl⟩
      · split <;> exact ⟨_, rfl⟩
  obtain ⟨s', hs'⟩ := hex
  refine ⟨s', hs', ?_⟩
  have hst := steps_of s s' i hs'
  have hins := inside_step s s' i hst h.inside
  have vl : ∀ t : Thread R S (Option (List R)),
      (∀ p ∈ ps, ∀ v, t.vals p.name = some v → v.length = p.size) →
      ∀ j, ∀ p ∈ ps, ∀ v, ((s.set i t).threads j).vals p.name = some v → v.length = p.size := by
    intro t ht' j
    by_cases hj : j = i
    · subst hj; rw [set_same]; exact ht'
    · rw [set_other s hj]; exact h.valLen j
  have ol : ∀ t : Thread R S (Option (List R)), OpsOK ps t.todo →
      ∀ j, OpsOK ps ((s.set i t).threads j).todo := by
    intro t ht' j
    by_cases hj : j = i
    · subst hj; rw [set_same]; exact ht'
    · rw [set_other s hj]; exact h.opsOK j
  have tl : OpsOK ps (s.threads i).todo.tail :=
    fun n v hm => h.opsOK i n v (List.mem_of_mem_tail hm)
  cases hst with
  | nothing _ => exact h
  | setVal n v ops h1 =>
    refine ⟨h.inv, h.sent, vl _ ?_, ol _ tl, hins⟩
    intro p hp w hpw
    simp only at hpw
    by_cases hpn : p.name = n
    · rw [if_pos hpn] at hpw
      cases hpw
      exact h.opsOK i n v (by rw [h1]; simp) p hp hpn
    · rw [if_neg hpn] at hpw
      exact h.valLen i p hp w hpw
  | reject u kw ops _ _ _ => exact ⟨h.inv, h.sent, vl _ (h.valLen i), ol _ tl, hins⟩
  | start u kw ops _ _ _ => exact ⟨h.inv, h.sent, vl _ (h.valLen i), ol _ (h.opsOK i), hins⟩
  | setting u kw ops kv rest store _ _ _ => exact ⟨h.inv, h.sent, vl _ (h.valLen i), ol _ (h.opsOK i), hins⟩
  | refuse u kw ops kv rest store e _ _ _ => exact ⟨h.inv, h.sent, vl _ (h.valLen i), ol _ tl, hins⟩
  | missing u kw ops e _ _ _ => exact ⟨h.inv, h.sent, vl _ (h.valLen i), ol _ tl, hins⟩
  | solve u kw ops m o h1 h2 h3 h4 =>
    obtain ⟨sent, h5, h6⟩ := h.sent
    obtain ⟨u', done, ops', h7, h8, _⟩ := h.inside i _ h2
    have huu : u' = u := by rw [h1] at h7; cases h7; rfl
    subst huu
    obtain ⟨m', o', h9, h10, h11, h12, _⟩ := solveNow_ok hk hw θ0 sg hd hf hperm ht s i u' h8 sent h5 h6
      h.inv (h.valLen i) ((readVals_none _ ps).1 h3)
    rw [h4] at h9
    cases h9
    exact ⟨h10, ⟨_, h11, h12⟩, vl _ (h.valLen i), ol _ tl, hins⟩

/-- **C96 (own data)** For every solver, mode, parameters and affine maps, and any threads: every
interleaving can be executed, and whenever a thread is about to solve, its call solves the
canonicalization of the values of its own parameters, if it transfers all of them; the solution is stored
in its own problem, and other threads' problems are left alone. -/
theorem C96_own_data {k : Kind} {quad lp : Bool} (hk : k.possible quad lp = true)
    {ps : List UParam} {maps : CId → Option (RawMap R)} (hw : WFInput ps (k.canonIds quad) maps)
    (θ0 : { θ : List R // θ.length = totalSize ps }) (sg : Stgs S)
    (hd : "default_settings" ∉ sg.enabled)
    (order : List CId → List CId) (horder : ∀ l, (order l).Perm l) (junk : CId → Option (List R))
    (sent : String → List R) (hsent : ∀ p ∈ ps, (sent p.name).length = p.size)
    (hθ0 : θ0.1 = ps.flatMap fun p => sent p.name)
    (threads : Nat → Thread R S (Option (List R))) (hidle : ∀ i, (threads i).pending = none)
    (hvals : ∀ i, ∀ p ∈ ps, ∀ v, (threads i).vals p.name = some v → v.length = p.size)
    (hops : ∀ i, OpsOK ps (threads i).todo) (store used : String → S) :
    let g := canonGen ps (k.canonIds quad) quad maps θ0
    ∃ toks pus', genBlock (k.solver quad lp).pus g.quad g.changes order = .ok (toks, pus') ∧
      ∀ sched, ∃ s, Threads.run k quad lp ps maps θ0 sg toks
          ⟨threads, g.initMem (k.solver quad lp) junk, store, used⟩ sched = some s ∧
        ∀ i u kw ops, (s.threads i).todo = .solve u kw :: ops → (s.threads i).pending = some [] →
          (∀ L, u = some L → ∀ p ∈ ps, p.name ∈ L) → HaveValues ps (s.threads i).vals →
          ∃ s' r, step k quad lp ps maps θ0 sg toks s i = some s' ∧
            (s'.threads i).out = (s.threads i).out ++ [.ok r] ∧ (s'.threads i).saved = some r.obs ∧
            (∀ p ∈ (k.solver quad lp).uses, r.obs.data p = canonVal (maps p) p.isUpper
              (ps.flatMap fun p => ((s.threads i).vals p.name).getD [])) ∧
            r.obs.offset = canonVal (maps .d) CId.d.isUpper
              (ps.flatMap fun p => ((s.threads i).vals p.name).getD []) ∧
            ∀ j, j ≠ i → s'.threads j = s.threads j := by
  intro g
  have hs : Sound g := canonGen_sound ps _ quad maps hw θ0
  have hg : Generated k quad lp (fun p => mapChanges (maps p) p.isUpper) g := ⟨hk, rfl, rfl, hs⟩
  obtain ⟨toks, pus', roots, never, h1, hf, ht⟩ := genBlock_ok g (k.solver quad lp) order horder hg.static
  refine ⟨toks, pus', h1, ?_⟩
  have key : ∀ (sched : List Nat) (s : TSys R S ps), Healthy g (k.solver quad lp) sg s →
      ∃ s', Threads.run k quad lp ps maps θ0 sg toks s sched = some s' ∧ Healthy g (k.solver quad lp) sg s' := by
    intro sched
    induction sched with
    | nil => intro s h; exact ⟨s, rfl, h⟩
    | cons i sched ih =>
      intro s h
      obtain ⟨s1, h2, h3⟩ := healthy_step hk hw θ0 sg hd hf (horder roots) ht s i h
      obtain ⟨s2, h4, h5⟩ := ih s1 h3
      exact ⟨s2, by unfold Threads.run; rw [h2]; exact h4, h5⟩
  intro sched
  obtain ⟨s, h2, h3⟩ := key sched ⟨threads, g.initMem (k.solver quad lp) junk, store, used⟩
    ⟨inv_init g hs _ junk, ⟨sent, hθ0, hsent⟩, hvals, hops, fun j rest hr =>
      absurd ((show (threads j).pending = some rest from hr).symm.trans (hidle j)) (by simp)⟩
  refine ⟨s, h2, ?_⟩
  intro i u kw ops htodo hpend hall hv
  obtain ⟨sent', h5, h6⟩ := h3.sent
  obtain ⟨u', done, ops', h7, h8, _⟩ := h3.inside i _ hpend
  have huu : u' = u := by rw [htodo] at h7; cases h7; rfl
  subst huu
  obtain ⟨m, o, h9, _, _, _, h10, h11⟩ := solveNow_ok hk hw θ0 sg hd hf (horder roots) ht s i u' h8 sent'
    h5 h6 h3.inv (h3.valLen i) hv
  have hvec : ((Abs.mk (s.threads i).vals sent').transfer u').vector ps
      = ps.flatMap fun p => ((s.threads i).vals p.name).getD [] := by
    unfold Abs.vector Abs.transfer
    apply List.flatMap_congr
    intro p hp
    exact if_pos fun L hL => hall L hL p hp
  rw [hvec] at h10 h11
  have hstep : step k quad lp ps maps θ0 sg toks s i = some
      { s.set i ((s.threads i).succeed ⟨o, deliver k sg (m.calls.take (m.calls.length - s.mem.calls.length))
          s.store s.used⟩) with
        mem := m
        used := deliver k sg (m.calls.take (m.calls.length - s.mem.calls.length)) s.store s.used } := by
    unfold step
    simp only [htodo, hpend]
    unfold solveNow
    have h9' := h9
    simp only [(readVals_none _ ps).2 hv]
    rw [h9']
  refine ⟨_, ⟨o, deliver k sg (m.calls.take (m.calls.length - s.mem.calls.length)) s.store s.used⟩, hstep,
    ?_, ?_, h10, h11, ?_⟩
  · show ((s.set i _).threads i).out = _
    rw [set_same]; rfl
  · show ((s.set i _).threads i).saved = _
    rw [set_same]; rfl
  · intro j hj
    show (s.set i _).threads j = _
    rw [set_other s hj]

/-! ### Settings -/

theorem deliver_settled (k : Kind) (sg : Stgs S) (new : List CId) (store used : String → S) (n : String)
    (hn : settled k sg n) : deliver k sg new store used n = store n := by
  unfold deliver
  cases k <;> simp only [Kind.delivery]
  · split
    · rfl
    · simp [hn.2 rfl]
  all_goals simp [hn.1]

/-- What is known of settings during an execution that began in `s0`. -/
structure Origin {ps : List UParam} (k : Kind) (sg : Stgs S) (s0 s : TSys R S ps) : Prop where
  todo : ∀ j, ∀ op ∈ (s.threads j).todo, op ∈ (s0.threads j).todo
  inside : ∀ j, Inside ps sg (s.threads j)
  store : (∃ j, (s.threads j).pending ≠ none) → ∀ n ∈ sg.enabled, s.store n = sg.default n ∨
    ∃ j, ∃ op ∈ (s0.threads j).todo, Passes sg op n (s.store n)
  out : ∀ j, ∀ r, .ok r ∈ (s.threads j).out → .ok r ∈ (s0.threads j).out ∨ ∀ n, settled k sg n →
    (r.settings n = sg.default n ∨ ∃ j, ∃ op ∈ (s0.threads j).todo, Passes sg op n (r.settings n))

theorem origin_step {k : Kind} {quad lp : Bool} {ps : List UParam} {maps : CId → Option (RawMap R)}
    {θ0 : { θ : List R // θ.length = totalSize ps }} {sg : Stgs S} {toks : List Tok}
    (s0 s s' : TSys R S ps) (i : Nat) (hst : Steps k quad lp ps maps θ0 sg toks s i s')
    (h : Origin k sg s0 s) : Origin k sg s0 s' := by
  have hins := inside_step s s' i hst h.inside
  have td : ∀ t : Thread R S (Option (List R)), (∀ op ∈ t.todo, op ∈ (s.threads i).todo) →
      ∀ j, ∀ op ∈ ((s.set i t).threads j).todo, op ∈ (s0.threads j).todo := by
    intro t ht j
    by_cases hj : j = i
    · subst hj; rw [set_same]; exact fun op hop => h.todo j op (ht op hop)
    · rw [set_other s hj]; exact h.todo j
  have tl : ∀ op ∈ (s.threads i).todo.tail, op ∈ (s.threads i).todo := fun op => List.mem_of_mem_tail
  have pend : ∀ t : Thread R S (Option (List R)), t.pending = none →
      (∃ j, ((s.set i t).threads j).pending ≠ none) → ∃ j, (s.threads j).pending ≠ none := by
    rintro t ht ⟨j, hj⟩
    by_cases hji : j = i
    · subst hji; rw [set_same] at hj; exact absurd ht hj
    · rw [set_other s hji] at hj; exact ⟨j, hj⟩
  have ou : ∀ t : Thread R S (Option (List R)), (∀ r, .ok r ∈ t.out → .ok r ∈ (s.threads i).out ∨
        ∀ n, settled k sg n → (r.settings n = sg.default n ∨
          ∃ j, ∃ op ∈ (s0.threads j).todo, Passes sg op n (r.settings n))) →
      ∀ j, ∀ r, .ok r ∈ ((s.set i t).threads j).out → .ok r ∈ (s0.threads j).out ∨
        ∀ n, settled k sg n → (r.settings n = sg.default n ∨
          ∃ j, ∃ op ∈ (s0.threads j).todo, Passes sg op n (r.settings n)) := by
    intro t ht j r hr
    by_cases hj : j = i
    · subst hj; rw [set_same] at hr
      rcases ht r hr with hr' | hr'
      · exact h.out j r hr'
      · exact Or.inr hr'
    · rw [set_other s hj] at hr; exact h.out j r hr
  have fl : ∀ e : PyErr, ∀ r, .ok r ∈ ((s.threads i).fail e).out → .ok r ∈ (s.threads i).out ∨
        ∀ n, settled k sg n → (r.settings n = sg.default n ∨
          ∃ j, ∃ op ∈ (s0.threads j).todo, Passes sg op n (r.settings n)) := by
    intro e r hr
    simp only [Thread.fail, List.mem_append, List.mem_singleton] at hr
    rcases hr with hr | hr
    · exact Or.inl hr
    · cases hr
  cases hst with
  | nothing _ => exact h
  | setVal n v ops h1 =>
    exact ⟨td _ tl, hins, fun hp => h.store (pend _ rfl hp), ou _ fun r hr => Or.inl hr⟩
  | reject u kw ops _ _ _ => exact ⟨td _ tl, hins, fun hp => h.store (pend _ rfl hp), ou _ (fl _)⟩
  | start u kw ops _ _ _ =>
    exact ⟨td _ fun op hop => hop, hins, fun _ n hn => Or.inl (resetStore_enabled k sg s.store n hn),
      ou _ fun r hr => Or.inl hr⟩
  | setting u kw ops kv rest store h1 h2 h3 =>
    refine ⟨td _ fun op hop => hop, hins, fun _ n hn => ?_, ou _ fun r hr => Or.inl hr⟩
    show store n = _ ∨ ∃ j, ∃ op ∈ _, Passes sg op n (store n)
    rw [setKwargs_one sg kv s.store store h3]
    simp only
    by_cases hnk : n = sg.translated kv.1
    · rw [if_pos hnk]
      right
      obtain ⟨u', done, ops', h4, _, _⟩ := h.inside i _ h2
      refine ⟨i, _, h.todo i _ (by rw [h4]; exact List.mem_cons_self), u', _, kv.1, rfl, ?_, hnk.symm⟩
      simp
    · rw [if_neg hnk]
      exact h.store ⟨i, by rw [h2]; simp⟩ n hn
  | refuse u kw ops kv rest store e h1 h2 h3 =>
    have := setKwargs_one_fail sg kv s.store store e h3
    subst this
    exact ⟨td _ tl, hins, fun hp => h.store (pend _ rfl hp), ou _ (fl _)⟩
  | missing u kw ops e _ _ _ => exact ⟨td _ tl, hins, fun hp => h.store (pend _ rfl hp), ou _ (fl _)⟩
  | solve u kw ops m o h1 h2 h3 h4 =>
    refine ⟨td _ tl, hins, fun hp => h.store (pend _ rfl hp), ou _ ?_⟩
    intro r hr
    simp only [Thread.succeed, List.mem_append, List.mem_singleton] at hr
    rcases hr with hr | hr
    · exact Or.inl hr
    · right
      intro n hn
      cases hr
      simp only [deliver_settled k sg _ _ _ n hn]
      exact h.store ⟨i, by rw [h2]; simp⟩ n hn.1

/-- **C96 (settings, partial: see `C96_fails`)** Whatever the interleaving: the value of a setting in a
solve is its default, or a value that some call of some thread passed for this setting. -/
theorem C96_settings_come_from_calls_partial {k : Kind} {quad lp : Bool} {ps : List UParam}
    {maps : CId → Option (RawMap R)} {θ0 : { θ : List R // θ.length = totalSize ps }} {sg : Stgs S}
    {toks : List Tok} (s s' : TSys R S ps) (hidle : Idle s) (hout : ∀ i, (s.threads i).out = [])
    (sched : List Nat) (h : Threads.run k quad lp ps maps θ0 sg toks s sched = some s')
    (i : Nat) (r : PyObs S (Option (List R))) (hr : .ok r ∈ (s'.threads i).out) (n : String)
    (hn : settled k sg n) :
    r.settings n = sg.default n ∨ ∃ j, ∃ op ∈ (s.threads j).todo, Passes sg op n (r.settings n) := by
  have key : ∀ (sched : List Nat) (s1 s2 : TSys R S ps), Origin k sg s s1 →
      Threads.run k quad lp ps maps θ0 sg toks s1 sched = some s2 → Origin k sg s s2 := by
    intro sched
    induction sched with
    | nil => intro s1 s2 h1 h2; cases h2; exact h1
    | cons j sched ih =>
      intro s1 s2 h1 h2
      unfold Threads.run at h2
      cases h3 : step k quad lp ps maps θ0 sg toks s1 j with
      | none => rw [h3] at h2; cases h2
      | some s3 =>
        rw [h3] at h2
        exact ih s3 s2 (origin_step s s1 s3 j (steps_of s1 s3 j h3) h1) h2
  have ho := key sched s s' ⟨fun _ _ h => h, fun j rest hr => (by rw [hidle j] at hr; cases hr),
    fun ⟨j, hj⟩ => absurd (hidle j) hj, fun _ _ h => Or.inl h⟩ h
  rcases ho.out i r hr with h1 | h1
  · rw [hout i] at h1; cases h1
  · exact h1 n hn

/-- **C96 (settings)** A setting for which no thread ever passes a value has its default in every solve. -/
theorem C96_unused_settings_default {k : Kind} {quad lp : Bool} {ps : List UParam}
    {maps : CId → Option (RawMap R)} {θ0 : { θ : List R // θ.length = totalSize ps }} {sg : Stgs S}
    {toks : List Tok} (s s' : TSys R S ps) (hidle : Idle s) (hout : ∀ i, (s.threads i).out = [])
    (sched : List Nat) (h : Threads.run k quad lp ps maps θ0 sg toks s sched = some s')
    (n : String) (hn : settled k sg n) (hno : ∀ j, ∀ op ∈ (s.threads j).todo, ∀ v, ¬ Passes sg op n v)
    (i : Nat) (r : PyObs S (Option (List R))) (hr : .ok r ∈ (s'.threads i).out) :
    r.settings n = sg.default n := by
  rcases C96_settings_come_from_calls_partial s s' hidle hout sched h i r hr n hn with h1 | ⟨j, op, h1, h2⟩
  · exact h1
  · exact absurd h2 (hno j op h1 _)

/-- No step of another thread changes the stored settings. -/
def Undisturbed (k : Kind) (quad lp : Bool) (ps : List UParam) (maps : CId → Option (RawMap R))
    (θ0 : { θ : List R // θ.length = totalSize ps }) (sg : Stgs S) (toks : List Tok) (i : Nat) :
    TSys R S ps → List Nat → Prop
  | _, [] => True
  | s, j :: sched => ∀ s', step k quad lp ps maps θ0 sg toks s j = some s' →
      (j ≠ i → s'.store = s.store) ∧ Undisturbed k quad lp ps maps θ0 sg toks i s' sched

/-- How far the first call in `todo` of thread `i` has come. -/
inductive Progress {ps : List UParam} (k : Kind) (sg : Stgs S) (kw : List (String × S))
    (rest : List (PyOp R S)) (u : Option (List String))
    (out0 : List (Except PyErr (PyObs S (Option (List R))))) (i : Nat) (s : TSys R S ps) : Prop
  | before : (s.threads i).todo = .solve u kw :: rest → (s.threads i).pending = none →
      (s.threads i).out = out0 → Progress k sg kw rest u out0 i s
  | during (done left : List (String × S)) (st : String → S) : (s.threads i).todo = .solve u kw :: rest →
      (s.threads i).pending = some left → kw = done ++ left →
      setKwargs sg (resetStore k sg st) done = (s.store, none) →
      (s.threads i).out = out0 → Progress k sg kw rest u out0 i s
  | after (r) (more) : (s.threads i).out = out0 ++ r :: more →
      (∀ o, r = .ok o → ∀ n, settled k sg n → o.settings n = settingFor sg kw n) →
      Progress k sg kw rest u out0 i s

theorem progress_step {k : Kind} {quad lp : Bool} {ps : List UParam} {maps : CId → Option (RawMap R)}
    {θ0 : { θ : List R // θ.length = totalSize ps }} {sg : Stgs S} {toks : List Tok}
    (s s' : TSys R S ps) (i j : Nat) (hst : Steps k quad lp ps maps θ0 sg toks s j s')
    (hq : j ≠ i → s'.store = s.store) {kw : List (String × S)} {rest : List (PyOp R S)}
    {u : Option (List String)} {out0 : List (Except PyErr (PyObs S (Option (List R))))}
    (h : Progress k sg kw rest u out0 i s) : Progress k sg kw rest u out0 i s' := by
  by_cases hj : j = i
  · subst hj
    cases h with
    | before h1 h2 h3 =>
      cases hst with
      | nothing h4 => rw [h1] at h4; cases h4
      | setVal n v ops h4 => rw [h1] at h4; cases h4
      | reject u' kw' ops h4 h5 h6 =>
        refine .after (.error .attributeError) [] ?_ (fun o ho => by cases ho)
        rw [set_same]; simp [Thread.fail, h3]
      | start u' kw' ops h4 h5 h6 =>
        rw [h1] at h4
        cases h4
        refine .during [] kw s.store ?_ ?_ rfl rfl ?_
        · show ((s.set j _).threads j).todo = _
          rw [set_same]; exact h1
        · show ((s.set j _).threads j).pending = _
          rw [set_same]
        · show ((s.set j _).threads j).out = _
          rw [set_same]; exact h3
      | setting u' kw' ops kv rest' store h4 h5 h6 => rw [h2] at h5; cases h5
      | refuse u' kw' ops kv rest' store e h4 h5 h6 => rw [h2] at h5; cases h5
      | missing u' kw' ops e h4 h5 h6 => rw [h2] at h5; cases h5
      | solve u' kw' ops m o h4 h5 h6 h7 => rw [h2] at h5; cases h5
    | during done left st h1 h2 h3 h8 h9 =>
      cases hst with
      | nothing h4 => rw [h1] at h4; cases h4
      | setVal n v ops h4 => rw [h1] at h4; cases h4
      | reject u' kw' ops h4 h5 h6 => rw [h2] at h5; cases h5
      | start u' kw' ops h4 h5 h6 => rw [h2] at h5; cases h5
      | setting u' kw' ops kv rest' store h4 h5 h6 =>
        rw [h2] at h5
        cases h5
        refine .during (done ++ [kv]) rest' st ?_ ?_ (by rw [h3]; simp) ?_ ?_
        · show ((s.set j _).threads j).todo = _
          rw [set_same]; exact h1
        · show ((s.set j _).threads j).pending = _
          rw [set_same]
        · show setKwargs sg _ _ = (store, none)
          rw [setKwargs_append sg [kv] done _ (by rw [h8]), h8]
          exact h6
        · show ((s.set j _).threads j).out = _
          rw [set_same]; exact h9
      | refuse u' kw' ops kv rest' store e h4 h5 h6 =>
        refine .after (.error e) [] ?_ (fun o ho => by cases ho)
        show ((s.set j _).threads j).out = _
        rw [set_same]; simp [Thread.fail, h9]
      | missing u' kw' ops e h4 h5 h6 =>
        refine .after (.error e) [] ?_ (fun o ho => by cases ho)
        rw [set_same]; simp [Thread.fail, h9]
      | solve u' kw' ops m o h4 h5 h6 h7 =>
        rw [h2] at h5
        cases h5
        rw [List.append_nil] at h3
        subst h3
        refine .after (.ok ⟨o, deliver k sg (m.calls.take (m.calls.length - s.mem.calls.length))
          s.store s.used⟩) [] ?_ ?_
        · show ((s.set j _).threads j).out = _
          rw [set_same]; simp [Thread.succeed, h9]
        · intro o' ho' n hn
          cases ho'
          simp only [deliver_settled k sg _ _ _ n hn]
          have := store_settingFor k sg kw st (by rw [h8]) n hn.1
          rw [h8] at this
          exact this
    | after r more h1 h2 =>
      cases hst with
      | nothing _ => exact .after r more h1 h2
      | setVal n v ops h4 =>
        refine .after r more ?_ h2
        rw [set_same]; exact h1
      | reject u' kw' ops h4 h5 h6 =>
        refine .after r (more ++ [.error .attributeError]) ?_ h2
        rw [set_same]; simp [Thread.fail, h1]
      | start u' kw' ops h4 h5 h6 =>
        refine .after r more ?_ h2
        show ((s.set j _).threads j).out = _
        rw [set_same]; exact h1
      | setting u' kw' ops kv rest' store h4 h5 h6 =>
        refine .after r more ?_ h2
        show ((s.set j _).threads j).out = _
        rw [set_same]; exact h1
      | refuse u' kw' ops kv rest' store e h4 h5 h6 =>
        refine .after r (more ++ [.error e]) ?_ h2
        show ((s.set j _).threads j).out = _
        rw [set_same]; simp [Thread.fail, h1]
      | missing u' kw' ops e h4 h5 h6 =>
        refine .after r (more ++ [.error e]) ?_ h2
        rw [set_same]; simp [Thread.fail, h1]
      | solve u' kw' ops m o h4 h5 h6 h7 =>
        refine .after r (more ++ [.ok ⟨o, deliver k sg
          (m.calls.take (m.calls.length - s.mem.calls.length)) s.store s.used⟩]) ?_ h2
        show ((s.set j _).threads j).out = _
        rw [set_same]; simp [Thread.succeed, h1]
  · have hth : s'.threads i = s.threads i := by
      cases hst with
      | nothing _ => rfl
      | _ => exact set_other s (Ne.symm hj) _
    have hstore := hq hj
    cases h with
    | before h1 h2 h3 => exact .before (by rw [hth]; exact h1) (by rw [hth]; exact h2) (by rw [hth]; exact h3)
    | during done left st h1 h2 h3 h8 h9 =>
      exact .during done left st (by rw [hth]; exact h1) (by rw [hth]; exact h2) h3
        (by rw [hstore]; exact h8) (by rw [hth]; exact h9)
    | after r more h1 h2 => exact .after r more (by rw [hth]; exact h1) h2

/-- **C96 (settings, partial: see `C96_fails`)** If no other thread changes stored settings while a call
runs (others may solve), the call is executed with the default settings overridden by its own keyword
arguments. -/
theorem C96_undisturbed_settings_partial {k : Kind} {quad lp : Bool} {ps : List UParam}
    {maps : CId → Option (RawMap R)} {θ0 : { θ : List R // θ.length = totalSize ps }} {sg : Stgs S}
    {toks : List Tok} (s s' : TSys R S ps) (i : Nat) (u : Option (List String)) (kw : List (String × S))
    (ops : List (PyOp R S)) (htodo : (s.threads i).todo = .solve u kw :: ops)
    (hpend : (s.threads i).pending = none) (sched : List Nat)
    (h : Threads.run k quad lp ps maps θ0 sg toks s sched = some s')
    (hq : Undisturbed k quad lp ps maps θ0 sg toks i s sched)
    (r : PyObs S (Option (List R))) (more : List (Except PyErr (PyObs S (Option (List R)))))
    (hr : (s'.threads i).out = (s.threads i).out ++ .ok r :: more) (n : String) (hn : settled k sg n) :
    r.settings n = settingFor sg kw n := by
  have key : ∀ (sched : List Nat) (s1 s2 : TSys R S ps),
      Progress k sg kw ops u (s.threads i).out i s1 →
      Threads.run k quad lp ps maps θ0 sg toks s1 sched = some s2 →
      Undisturbed k quad lp ps maps θ0 sg toks i s1 sched →
      Progress k sg kw ops u (s.threads i).out i s2 := by
    intro sched
    induction sched with
    | nil => intro s1 s2 h1 h2 _; cases h2; exact h1
    | cons j sched ih =>
      intro s1 s2 h1 h2 h4
      unfold Threads.run at h2
      cases h3 : step k quad lp ps maps θ0 sg toks s1 j with
      | none => rw [h3] at h2; cases h2
      | some s3 =>
        rw [h3] at h2
        obtain ⟨h5, h6⟩ := h4 s3 h3
        exact ih s3 s2 (progress_step s1 s3 i j (steps_of s1 s3 j h3) h5 h1) h2 h6
  rcases key sched s s' (.before htodo hpend rfl) h hq with ⟨h1, _, h3⟩ | ⟨_, _, _, _, _, _, _, h3⟩ | ⟨r', more', h1, h2⟩
  · rw [h3] at hr; simp at hr
  · rw [h3] at hr; simp at hr
  · rw [h1] at hr
    have := List.append_cancel_left hr
    cases this
    exact h2 r rfl n hn

/-! ### Concrete executions -/

/-- Two threads with their own values of the parameters of `exWPs`, the first passing `max_iters = 7`. -/
def trThreads : Nat → Thread Int Int (Option (List Int))
  | 0 => ⟨fun n => if n = "a" then some [3] else some [4, 5], none, [.solve none [("max_iters", 7)]], none, []⟩
  | 1 => ⟨fun n => if n = "a" then some [8] else some [1, 1], none, [.solve none []], none, []⟩
  | _ => ⟨fun _ => none, none, [], none, []⟩

/-- Execution for ECOS; reports `c` and `max_iters` of the calls of thread `i`. -/
def trRun (i : Nat) (sched : List Nat) : Option (List (Except PyErr (Option (List Int) × Int))) :=
  let g := canonGen exWPs (Kind.ecos.canonIds false) false exWMaps ⟨[0, 0, 0], rfl⟩
  match genBlock (Kind.ecos.solver false true).pus false g.changes id with
  | .error _ => none
  | .ok (toks, _) =>
      (Threads.run .ecos false true exWPs exWMaps ⟨[0, 0, 0], rfl⟩ exStgs toks
        ⟨trThreads, g.initMem (Kind.ecos.solver false true) (fun _ => none), fun _ => 1, fun _ => 1⟩ sched).map
        fun s => (s.threads i).out.map fun e => e.map fun o => (o.obs.data .c, o.settings "max_iters")

/-- One after the other, in either order, each thread has its own data and its own settings. -/
example : trRun 0 [0, 0, 0, 1, 1] = some [.ok (some [3, 9], 7)] ∧
    trRun 1 [0, 0, 0, 1, 1] = some [.ok (some [8, 2], 100)] ∧
    trRun 0 [1, 1, 0, 0, 0] = some [.ok (some [3, 9], 7)] ∧
    trRun 1 [1, 1, 0, 0, 0] = some [.ok (some [8, 2], 100)] := by
  refine ⟨?_, ?_, ?_, ?_⟩ <;> decide +kernel

/-- **C96 is false for settings**: if the second thread begins its call after the first has stored its
settings and before it solves, the first is solved with the default; in another interleaving the second
thread, which passes nothing, is solved with the value of the first. The data are right in both cases. -/
theorem C96_fails :
    trRun 0 [0, 0, 1, 0, 1] = some [.ok (some [3, 9], 100)] ∧
    trRun 1 [1, 0, 0, 1, 0] = some [.ok (some [8, 2], 7)] := by
  refine ⟨?_, ?_⟩ <;> decide +kernel

theorem pySolve_settings {k : Kind} {quad lp : Bool} {ps : List UParam} {maps : CId → Option (RawMap R)}
    {θ0 : { θ : List R // θ.length = totalSize ps }} {sg : Stgs S} {toks : List Tok} (st st' : PySt R S ps)
    (u : Option (List String)) (kw : List (String × S)) (r : PyObs S (Option (List R)))
    (h : pySolve k quad lp ps maps θ0 sg toks st u kw = some (st', .ok r)) (n : String)
    (hn : settled k sg n) : r.settings n = settingFor sg kw n := by
  unfold pySolve at h
  simp only at h
  split at h
  · cases h
  · have hstore := store_settingFor k sg kw st.store
    generalize setKwargs sg (resetStore k sg st.store) kw = res at hstore h
    obtain ⟨store, err⟩ := res
    cases err with
    | some e => cases h
    | none =>
      simp only at h
      split at h
      · cases h
      · split at h
        · simp only [Option.some.injEq, Prod.mk.injEq, Except.ok.injEq] at h
          obtain ⟨_, rfl⟩ := h
          simp only [deliver_settled k sg _ _ _ n hn]
          exact hstore rfl n hn.1
        · cases h

/-- Without interruption, a thread's only call has its own settings. -/
theorem serial_own {k : Kind} {quad lp : Bool} {ps : List UParam} {maps : CId → Option (RawMap R)}
    {θ0 : { θ : List R // θ.length = totalSize ps }} {sg : Stgs S} {toks : List Tok}
    (i : Nat) (u : Option (List String)) (kw : List (String × S)) :
    ∀ (order : List Nat) (s w : TSys R S ps), serial k quad lp ps maps θ0 sg toks s order = some w →
      ((s.threads i).todo = [.solve u kw] ∧ (s.threads i).out = [] ∨ ∃ r, (s.threads i).todo = [] ∧
        (s.threads i).out = [r] ∧ ∀ o, r = .ok o → ∀ n, settled k sg n → o.settings n = settingFor sg kw n) →
      ((w.threads i).out = [] ∨ ∃ r, (w.threads i).out = [r] ∧ ∀ o, r = .ok o → ∀ n, settled k sg n →
        o.settings n = settingFor sg kw n) := by
  intro order
  induction order with
  | nil =>
    intro s w h hs
    cases h
    rcases hs with ⟨_, h⟩ | ⟨r, _, h⟩
    · exact Or.inl h
    · exact Or.inr ⟨r, h⟩
  | cons j order ih =>
    intro s w h hs
    unfold serial at h
    cases hw : whole k quad lp ps maps θ0 sg toks s j with
    | none => rw [hw] at h; cases h
    | some s1 =>
      rw [hw] at h
      refine ih s1 w h ?_
      unfold whole at hw
      simp only at hw
      by_cases hj : i = j
      · subst hj
        rcases hs with ⟨h1, h2⟩ | ⟨r, h1, h2, h3⟩
        · rw [h1] at hw
          simp only at hw
          split at hw
          · cases hw
          · rename_i st r hp
            cases hw
            right
            refine ⟨r, ?_, ?_, ?_⟩
            · show ((s.set i _).threads i).todo = []
              rw [set_same]
            · show ((s.set i _).threads i).out = [r]
              rw [set_same, h2]; rfl
            · rintro o rfl n hn
              exact pySolve_settings _ _ u kw o hp n hn
        · rw [h1] at hw
          cases hw
          exact Or.inr ⟨r, h1, h2, h3⟩
      · have : s1.threads i = s.threads i := by
          split at hw
          · cases hw; rfl
          · cases hw; exact set_other s hj _
          · split at hw
            · cases hw
            · cases hw; exact set_other s hj _
        rw [this]
        exact hs

/-- **C96 is false for settings, whatever the order**: there is an interleaving after which the outcome of
a thread is one that no uninterrupted execution, in any order, gives it. -/
theorem C96_fails_no_order {toks : List Tok} {pus' : Pus}
    (hgen : genBlock (Kind.ecos.solver false true).pus false
      (canonGen exWPs (Kind.ecos.canonIds false) false exWMaps ⟨[0, 0, 0], rfl⟩).changes id
        = .ok (toks, pus')) :
    ∃ s' : TSys Int Int exWPs, ∃ r, Threads.run .ecos false true exWPs exWMaps ⟨[0, 0, 0], rfl⟩ exStgs toks
        ⟨trThreads, (canonGen exWPs (Kind.ecos.canonIds false) false exWMaps ⟨[0, 0, 0], rfl⟩).initMem
          (Kind.ecos.solver false true) (fun _ => none), fun _ => 1, fun _ => 1⟩ [0, 0, 1, 0, 1] = some s' ∧
      (s'.threads 0).out = [.ok r] ∧
      ∀ order w, serial .ecos false true exWPs exWMaps ⟨[0, 0, 0], rfl⟩ exStgs toks
        ⟨trThreads, (canonGen exWPs (Kind.ecos.canonIds false) false exWMaps ⟨[0, 0, 0], rfl⟩).initMem
          (Kind.ecos.solver false true) (fun _ => none), fun _ => 1, fun _ => 1⟩ order = some w →
        (w.threads 0).out ≠ [.ok r] := by
  have h := C96_fails.1
  unfold trRun at h
  simp only [hgen] at h
  rw [Option.map_eq_some_iff] at h
  obtain ⟨s', h1, h2⟩ := h
  obtain ⟨r, hr, h3⟩ : ∃ r, (s'.threads 0).out = [.ok r] ∧ r.settings "max_iters" = 100 := by
    generalize (s'.threads 0).out = l at h2
    rcases l with _ | ⟨e, _ | ⟨e', l⟩⟩
    · simp at h2
    · cases e with
      | error e => simp [Except.map] at h2
      | ok r =>
        simp only [Except.map, List.map_cons, List.map_nil, List.cons.injEq, Except.ok.injEq,
          Prod.mk.injEq, and_true] at h2
        exact ⟨r, rfl, h2.2⟩
    · simp at h2
  refine ⟨s', r, h1, hr, ?_⟩
  intro order w hw hcon
  rcases serial_own 0 none [("max_iters", (7 : Int))] order _ w hw (Or.inl ⟨rfl, rfl⟩) with h4 | ⟨r', h4, h5⟩
  · rw [h4] at hcon; cases hcon
  · rw [h4] at hcon
    cases hcon
    have := h5 r rfl "max_iters" ⟨by decide, fun h => by cases h⟩
    rw [h3] at this
    exact absurd this (by decide)

/-- The code of the example exists. -/
example : (genBlock (Kind.ecos.solver false true).pus false
    (canonGen exWPs (Kind.ecos.canonIds false) false exWMaps ⟨[0, 0, 0], rfl⟩).changes id).toOption.isSome
      = true := by
  decide +kernel

/-- The hypotheses of the theorems hold for the example. -/
example : WFInput exWPs (Kind.ecos.canonIds false) exWMaps ∧ "default_settings" ∉ exStgs.enabled ∧
    (∀ i, (trThreads i).pending = none) ∧ (∀ i, (trThreads i).out = []) ∧
    (∀ i, OpsOK exWPs (trThreads i).todo) ∧ settled .ecos exStgs "max_iters" ∧
    (∀ i, ∀ p ∈ exWPs, ∀ v, (trThreads i).vals p.name = some v → v.length = p.size) ∧
    (∀ j, ∀ op ∈ (trThreads j).todo, ∀ v, ¬ Passes exStgs op "warm_start" v) := by
  refine ⟨exWWF _ (Or.inl rfl), by decide, ?_, ?_, ?_, ⟨by decide, fun h => by cases h⟩, ?_, ?_⟩
  · intro i; rcases i with _ | _ | i <;> rfl
  · intro i; rcases i with _ | _ | i <;> rfl
  · intro i n v hm
    rcases i with _ | _ | i <;> simp [trThreads] at hm
  · intro i p hp v hv
    simp [exWPs] at hp
    rcases i with _ | _ | i <;> rcases hp with rfl | rfl <;> simp [trThreads] at hv <;> subst hv <;> rfl
  · rintro j op hop v ⟨u, kw, key, rfl, hkw, hkey⟩
    rcases j with _ | _ | j <;> simp [trThreads] at hop
    · obtain ⟨rfl, rfl⟩ := hop
      simp only [List.mem_singleton, Prod.mk.injEq] at hkw
      obtain ⟨rfl, rfl⟩ := hkw
      revert hkey
      decide
    · obtain ⟨rfl, rfl⟩ := hop
      cases hkw

end Verif.Props
