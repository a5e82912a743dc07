import Verif.Lemmas.Wrapper
/-!
# C20, C21: the Python method

Any history of parameter assignments and `cpg_solve` calls with any arguments, for any user parameters,
affine maps, solver, mode and set order.
-/
namespace Verif.Props
open Verif.Model Verif.Spec Verif.Lemmas

variable {R S : Type} [CommRing R] [DecidableEq R]

/-- State of a Python process (`R` numbers, `S` setting values) for parameters `ps`. -/
abbrev PySt (R S : Type) (ps : List UParam) :=
  PyState R S (Option (List R)) { θ : List R // θ.length = totalSize ps }

/-- Concrete and abstract state agree. -/
structure Sim {ps : List UParam} (g : Gen { θ : List R // θ.length = totalSize ps } (Option (List R))
    { a : UpdCall R // a.Valid ps }) (sv : Solver) (st : PySt R S ps) (a : Abs R) : Prop where
  inv : Inv g sv st.mem
  θ : st.mem.θ.1 = a.vector ps
  vals : st.vals = a.vals
  sentLen : ∀ p ∈ ps, (a.sent p.name).length = p.size
  valLen : ∀ p ∈ ps, ∀ v, a.vals p.name = some v → v.length = p.size

/-- The settings about which C21 makes a statement. -/
def settled (k : Kind) (sg : Stgs S) (n : String) : Prop :=
  n ∈ sg.enabled ∧ (k = .scs → n = "warm_start")

/-- One call of `cpg_solve`. -/
theorem pySolve_ok {k : Kind} {quad lp : Bool} (hk : k.possible quad lp = true)
    {ps : List UParam} {maps : CId → Option (RawMap R)} (hw : WFInput ps (k.canonIds quad) maps)
    (θ0 : { θ : List R // θ.length = totalSize ps }) (sg : Stgs S)
    (hd : "default_settings" ∉ sg.enabled) {toks : List Tok} {roots never order : List CId}
    (hf : StaticFacts (k.solver quad lp) (canonGen ps (k.canonIds quad) quad maps θ0).quad
      (canonGen ps (k.canonIds quad) quad maps θ0).changes roots never)
    (hperm : order.Perm roots)
    (ht : ∀ s, execText evMem (doCall (canonGen ps (k.canonIds quad) quad maps θ0) (k.solver quad lp)) toks s
        = some (run (fireOf evMem) (doCall (canonGen ps (k.canonIds quad) quad maps θ0) (k.solver quad lp))
            (norm (canonGen ps (k.canonIds quad) quad maps θ0).quad (k.solver quad lp).pus) never genFuel
            (some order) s))
    (st : PySt R S ps) (a : Abs R) (u : Option (List String)) (kw : List (String × S))
    (h : Sim (canonGen ps (k.canonIds quad) quad maps θ0) (k.solver quad lp) st a) :
    ∃ st' r, pySolve k quad lp ps maps θ0 sg toks st u kw = some (st', r) ∧
      ((GoodArgs ps sg u kw ∧ HaveValues ps a.vals ∧
        Sim (canonGen ps (k.canonIds quad) quad maps θ0) (k.solver quad lp) st' (a.transfer u) ∧
        Matches (fun c θ => canonVal (maps c) c.isUpper θ) (k.solver quad lp).uses (settled k sg)
          (.solves ((a.transfer u).vector ps) (settingFor sg kw)) r) ∨
       (¬ (GoodArgs ps sg u kw ∧ HaveValues ps a.vals) ∧
        Sim (canonGen ps (k.canonIds quad) quad maps θ0) (k.solver quad lp) st' a ∧
        st'.mem = st.mem ∧ st'.saved = st.saved ∧ st'.used = st.used ∧ ∃ e, r = .error e)) := by
  set g := canonGen ps (k.canonIds quad) quad maps θ0 with hgdef
  have hs : Sound g := canonGen_sound ps _ quad maps hw θ0
  unfold pySolve
  simp only [← hgdef]
  by_cases hL : ((u.getD (ps.map UParam.name)).any fun n => !(ps.map UParam.name).contains n) = true
  · rw [if_pos hL]
    refine ⟨st, _, rfl, Or.inr ⟨?_, h, rfl, rfl, rfl, _, rfl⟩⟩
    rintro ⟨hga, _⟩
    rw [List.any_eq_true] at hL
    obtain ⟨n, hn, hn'⟩ := hL
    cases u with
    | none => simp at hn hn'; obtain ⟨p, hp, rfl⟩ := hn; exact hn' p hp rfl
    | some L =>
      obtain ⟨p, hp, hpn⟩ := hga.known L rfl n hn
      simp at hn'
      exact hn' p hp hpn
  · rw [if_neg hL]
    have hkw := setKwargs_none sg hd kw (resetStore k sg st.store)
    have hstore := store_settingFor k sg kw st.store
    generalize hsk : setKwargs sg (resetStore k sg st.store) kw = res at hkw hstore
    obtain ⟨store, err⟩ := res
    cases err with
    | some e =>
      refine ⟨_, _, rfl, Or.inr ⟨?_, ⟨h.inv, h.θ, h.vals, h.sentLen, h.valLen⟩, rfl, rfl, rfl, _, rfl⟩⟩
      rintro ⟨hga, _⟩
      have := hkw.mpr hga.settings
      cases this
    | none =>
      have hset := hkw.mp rfl
      have hknown : ∀ L, u = some L → ∀ n ∈ L, ∃ p ∈ ps, p.name = n := by
        rintro L rfl n hn
        simp only [Option.getD_some, List.any_eq_true, not_exists, not_and] at hL
        have := hL n hn
        simp at this
        exact this
      have hga : GoodArgs ps sg u kw := ⟨hknown, hset⟩
      have hrv := readVals_none st.vals ps
      cases hr : readVals st.vals ps with
      | some e =>
        refine ⟨_, _, rfl, Or.inr ⟨?_, ⟨h.inv, h.θ, h.vals, h.sentLen, h.valLen⟩, rfl, rfl, rfl, _, rfl⟩⟩
        rintro ⟨_, hv⟩
        rw [hr, h.vals] at hrv
        have := hrv.mpr hv
        cases this
      | none =>
        have hhv : HaveValues ps a.vals := by rw [← h.vals]; exact hrv.mp hr
        have hval : ∀ p ∈ ps, ∃ v, st.vals p.name = some v ∧ v.length = p.size := by
          intro p hp
          obtain ⟨v, hv⟩ := hhv p hp
          exact ⟨v, by rw [h.vals]; exact hv, h.valLen p hp v hv⟩
        set L := u.getD (ps.map UParam.name) with hLdef
        have hθ' := updates_vector quad hw θ0 L st.vals a.sent st.mem.θ h.θ h.sentLen hval
        rw [← hgdef] at hθ'
        have hvec : (ps.flatMap fun p => if p.name ∈ L then (st.vals p.name).getD [] else a.sent p.name)
            = (a.transfer u).vector ps := by
          unfold Abs.vector Abs.transfer
          apply List.flatMap_congr
          intro p hp
          have hiff : p.name ∈ L ↔ ∀ L', u = some L' → p.name ∈ L' := by
            rw [hLdef]
            cases u with
            | none => simpa using ⟨p, hp, rfl⟩
            | some L' => simp
          simp only [hiff, h.vals]
        rw [hvec] at hθ'
        rw [runCalls_updates]
        obtain ⟨m', o, h1, h2, h3, _, h4⟩ := solve_ok g hs (k.solver quad lp) roots never order hf hperm
          toks ht _ (updates_inv g hs (k.solver quad lp) (updateActs ps L st.vals) st.mem h.inv)
        rw [h1]
        simp only [Option.map_some]
        refine ⟨_, _, rfl, Or.inl ⟨hga, hhv, ⟨h2, ?_, h.vals, ?_, h.valLen⟩, ?_, ?_, ?_⟩⟩
        · show m'.θ.1 = _
          rw [h3, updates_θ]; exact hθ'
        · intro p hp
          simp only [Abs.transfer]
          split
          · obtain ⟨v, hv⟩ := hhv p hp
            rw [hv]; exact h.valLen p hp v hv
          · exact h.sentLen p hp
        · intro p hp
          show o.data p = _
          rw [h4.1 p hp]
          show canonVal (maps p) p.isUpper _ = _
          rw [updates_θ, hθ']
        · show o.offset = _
          rw [h4.2]
          show canonVal (maps .d) CId.d.isUpper _ = _
          rw [updates_θ, hθ']
        · intro n hn
          show deliver k sg _ store st.used n = _
          rw [← hstore rfl n hn.1]
          unfold deliver
          cases k <;> simp only [Kind.delivery]
          · split
            · rfl
            · simp [hn.2 rfl]
          all_goals simp [hn.1]

/-- A history from any state that agrees with an abstract state. -/
theorem pyRun_ok {k : Kind} {quad lp : Bool} (hk : k.possible quad lp = true)
    {ps : List UParam} {maps : CId → Option (RawMap R)} (hw : WFInput ps (k.canonIds quad) maps)
    (θ0 : { θ : List R // θ.length = totalSize ps }) (sg : Stgs S)
    (hd : "default_settings" ∉ sg.enabled) {toks : List Tok} {roots never order : List CId}
    (hf : StaticFacts (k.solver quad lp) (canonGen ps (k.canonIds quad) quad maps θ0).quad
      (canonGen ps (k.canonIds quad) quad maps θ0).changes roots never)
    (hperm : order.Perm roots)
    (ht : ∀ s, execText evMem (doCall (canonGen ps (k.canonIds quad) quad maps θ0) (k.solver quad lp)) toks s
        = some (run (fireOf evMem) (doCall (canonGen ps (k.canonIds quad) quad maps θ0) (k.solver quad lp))
            (norm (canonGen ps (k.canonIds quad) quad maps θ0).quad (k.solver quad lp).pus) never genFuel
            (some order) s)) :
    ∀ (ops : List (PyOp R S)), OpsOK ps ops → ∀ (st : PySt R S ps) (a : Abs R),
      Sim (canonGen ps (k.canonIds quad) quad maps θ0) (k.solver quad lp) st a →
      ∃ st' rs, pyRun k quad lp ps maps θ0 sg toks st ops = some (st', rs) ∧
        List.Forall₂ (Matches (fun c θ => canonVal (maps c) c.isUpper θ) (k.solver quad lp).uses
          (settled k sg)) (expected ps sg a ops) rs ∧
        (∃ a', Sim (canonGen ps (k.canonIds quad) quad maps θ0) (k.solver quad lp) st' a') ∧
        ((∀ r ∈ rs, ∃ e, r = .error e) → st'.mem = st.mem) := by
  intro ops
  induction ops with
  | nil => intro _ st a h; exact ⟨st, [], rfl, List.Forall₂.nil, ⟨a, h⟩, fun _ => rfl⟩
  | cons op ops ih =>
    intro hok st a hsim
    have hok' : OpsOK ps ops := fun n v hm => hok n v (List.mem_cons_of_mem _ hm)
    cases op with
    | setVal n v =>
      obtain ⟨st', rs, h2, h3, h4⟩ := ih hok'
        { st with vals := fun m => if m = n then some v else st.vals m }
        { a with vals := fun m => if m = n then some v else a.vals m }
        ⟨hsim.inv, hsim.θ, by simp only [hsim.vals], hsim.sentLen, by
          intro p hp w hw'
          simp only at hw'
          by_cases hpn : p.name = n
          · rw [if_pos hpn] at hw'
            cases hw'
            exact hok n v (by simp) p hp hpn
          · rw [if_neg hpn] at hw'
            exact hsim.valLen p hp w hw'⟩
      exact ⟨st', rs, h2, h3, h4⟩
    | solve u kw =>
      obtain ⟨st1, r, h2, h3⟩ := pySolve_ok hk hw θ0 sg hd hf hperm ht st a u kw hsim
      rcases h3 with ⟨h4, h5, h6, h7⟩ | ⟨h4, h5, hmem, _, _, e, h6⟩
      · obtain ⟨st', rs, h8, h9, h10, h11⟩ := ih hok' st1 _ h6
        refine ⟨st', r :: rs, by simp only [pyRun, h2, h8], ?_, h10, ?_⟩
        · rw [expected, if_pos ⟨h4, h5⟩]
          exact List.Forall₂.cons h7 h9
        · intro hall
          obtain ⟨e, he⟩ := hall r (by simp)
          rw [he] at h7; exact h7.elim
      · obtain ⟨st', rs, h8, h9, h10, h11⟩ := ih hok' st1 _ h5
        refine ⟨st', r :: rs, by simp only [pyRun, h2, h8], ?_, h10, ?_⟩
        · rw [expected, if_neg h4]
          exact List.Forall₂.cons (by rw [h6]; trivial) h9
        · intro hall
          rw [h11 fun r' hr' => hall r' (List.mem_cons_of_mem _ hr'), hmem]

/-- **C20** (and **C21** for all solvers but SCS) For every history of parameter assignments and calls
of `cpg_solve`: each call raises exactly if a named parameter or setting does not exist, a setting value
is inadmissible or some parameter has no value; otherwise the solver works on the canonicalization of
the parameter vector made of the values last transferred for each parameter (this call transferring
exactly the named ones), and every enabled setting has the value given in this call or its default. -/
theorem C20_history {k : Kind} {quad lp : Bool} (hk : k.possible quad lp = true)
    {ps : List UParam} {maps : CId → Option (RawMap R)} (hw : WFInput ps (k.canonIds quad) maps)
    (θ0 : { θ : List R // θ.length = totalSize ps }) (sg : Stgs S)
    (hd : "default_settings" ∉ sg.enabled)
    (order : List CId → List CId) (horder : ∀ l, (order l).Perm l) (junk : CId → Option (List R))
    (vals : String → Option (List R)) (hvals : ∀ p ∈ ps, ∀ v, vals p.name = some v → v.length = p.size)
    (sent : String → List R) (hsent : ∀ p ∈ ps, (sent p.name).length = p.size)
    (hθ0 : θ0.1 = (Abs.mk vals sent).vector ps) (store used : String → S)
    (ops : List (PyOp R S)) (hops : OpsOK ps ops) :
    let g := canonGen ps (k.canonIds quad) quad maps θ0
    ∃ toks pus' st' rs,
      genBlock (k.solver quad lp).pus g.quad g.changes order = .ok (toks, pus') ∧
      pyRun k quad lp ps maps θ0 sg toks ⟨vals, g.initMem (k.solver quad lp) junk, store, used, none⟩ ops
        = some (st', rs) ∧
      List.Forall₂ (Matches (fun c θ => canonVal (maps c) c.isUpper θ) (k.solver quad lp).uses
        (settled k sg)) (expected ps sg ⟨vals, sent⟩ ops) rs := by
  intro g
  have hs : Sound g := canonGen_sound ps _ quad maps hw θ0
  have hg : Generated k quad lp (fun p => mapChanges (maps p) p.isUpper) g := ⟨hk, rfl, rfl, hs⟩
  obtain ⟨toks, pus', roots, never, h1, hf, ht⟩ := genBlock_ok g (k.solver quad lp) order horder hg.static
  obtain ⟨st', rs, h2, h3, _⟩ := pyRun_ok hk hw θ0 sg hd hf (horder roots) ht ops hops ⟨vals, g.initMem (k.solver quad lp) junk, store, used, none⟩
    ⟨vals, sent⟩ ⟨inv_init g hs _ junk, hθ0, rfl, hsent, hvals⟩
  exact ⟨toks, pus', st', rs, h1, h2, h3⟩

/-- **C20** An unknown parameter name raises `AttributeError` and changes nothing at all. -/
theorem C20_unknown_parameter (k : Kind) (quad lp : Bool) (ps : List UParam)
    (maps : CId → Option (RawMap R)) (θ0 : { θ : List R // θ.length = totalSize ps }) (sg : Stgs S)
    (toks : List Tok) (st : PySt R S ps) (L : List String) (kw : List (String × S)) (n : String)
    (hn : n ∈ L) (hun : ∀ p ∈ ps, p.name ≠ n) :
    pySolve k quad lp ps maps θ0 sg toks st (some L) kw = some (st, .error .attributeError) := by
  unfold pySolve
  rw [if_pos]
  rw [List.any_eq_true]
  refine ⟨n, hn, ?_⟩
  simpa using hun

/-- **C21** An unknown setting raises `AttributeError` without solving: parameters, solver and stored
solution are unchanged. -/
theorem C21_unknown_setting (k : Kind) (quad lp : Bool) (ps : List UParam)
    (maps : CId → Option (RawMap R)) (θ0 : { θ : List R // θ.length = totalSize ps }) (sg : Stgs S)
    (toks : List Tok) (st : PySt R S ps) (L : Option (List String)) (kw : List (String × S))
    (hL : ∀ L', L = some L' → ∀ n ∈ L', ∃ p ∈ ps, p.name = n)
    (hd : "default_settings" ∉ sg.enabled)
    (key : String) (v : S) (hkey : (key, v) ∈ kw) (hun : (sg.translate.lookup key).getD key ∉ sg.enabled) :
    ∃ store e, pySolve k quad lp ps maps θ0 sg toks st L kw = some ({ st with store := store }, .error e) ∧
      (kw = [(key, v)] → (sg.translate.lookup key).getD key ≠ "default_settings" → e = .attributeError) := by
  have hnone := setKwargs_none sg hd kw (resetStore k sg st.store)
  unfold pySolve
  rw [if_neg]
  · generalize hsk : setKwargs sg (resetStore k sg st.store) kw = res at hnone
    obtain ⟨store, err⟩ := res
    cases err with
    | none => exact absurd (hnone.mp rfl (key, v) hkey).1 hun
    | some e =>
      refine ⟨store, e, rfl, ?_⟩
      rintro rfl hne
      have hun' : sg.translated key ∉ sg.enabled := hun
      have hne' : sg.translated key ≠ "default_settings" := hne
      simp [setKwargs, hne', hun'] at hsk
      exact hsk.2.symm
  · rw [List.any_eq_true]
    rintro ⟨n, hn, hn'⟩
    cases L with
    | none => simp at hn hn'; obtain ⟨p, hp, rfl⟩ := hn; exact hn' p hp rfl
    | some L =>
      obtain ⟨p, hp, hpn⟩ := hL L rfl n hn
      simp at hn'
      exact hn' p hp hpn

/-! ### SCS: settings are read when the solver is created -/

/-- What the analysis of the update structure yields for SCS, as a Boolean check. -/
def scsCheck (quad : Bool) (ch : Changes) : Bool :=
  match analyzePus (scs quad).pus genFuel ch with
  | .ok (roots, never) => decide (roots = [.init]) && !never.contains .init &&
      (never.contains .PA == !(ch.getD .P || ch.getD .A))
  | .error _ => false

theorem scs_roots (quad : Bool) (b : CId → Bool) :
    scsCheck quad (changesOf (Kind.scs.canonIds quad) b) = true := by
  refine forall_changes .scs quad (fun ch => scsCheck quad ch = true) ?_ b
  revert quad
  decide +kernel

/-- When the solve makes a call that creates the SCS workspace. -/
theorem scs_creates {Θ V Act : Type} (g : Gen Θ V Act) (quad : Bool) (hq : g.quad = quad)
    (never : List CId) (hinit : CId.init ∉ never) (m : Mem Θ V)
    (h : m.inited = false ∨ CId.PA ∉ never ∧
      (quad = true ∧ m.flags .P = true ∨ m.flags .A = true)) :
    ∃ f, (f = CId.init ∨ f = CId.PA) ∧
      (run (fireOf evMem) (doCall g (scs quad)) (norm g.quad (scs quad).pus) never genFuel
        (some [.init]) m).calls = f :: m.calls := by
  rw [hq]
  cases hi : m.inited with
  | false =>
    refine ⟨.init, Or.inl rfl, ?_⟩
    have : run (fireOf evMem) (doCall g (scs quad)) (norm quad (scs quad).pus) never genFuel
        (some [.init]) m = doCall g (scs quad) .init m := by
      cases quad <;> simp [run, genFuel, initFirst, norm, scs, List.lookup, dropP, hinit, fireOf, fires,
        evMem, hi]
    rw [this, doCall_calls]
  | true =>
    rw [hi] at h
    simp only [Bool.true_eq_false, false_or] at h
    obtain ⟨hPA, hfl⟩ := h
    refine ⟨.PA, Or.inr rfl, ?_⟩
    have h0 : (CId.PA == CId.init) = false := by decide
    have : run (fireOf evMem) (doCall g (scs quad)) (norm quad (scs quad).pus) never genFuel
        (some [.init]) m = doCall g (scs quad) .PA m := by
      cases quad
      · simp at hfl
        simp [run, genFuel, initFirst, norm, scs, List.lookup, dropP, hinit, hPA, fireOf, fires,
          evMem, hi, flagsHold, hfl, h0]
      · simp at hfl
        simp [run, genFuel, initFirst, norm, scs, List.lookup, dropP, hinit, hPA, fireOf, fires,
          evMem, hi, flagsHold, hfl, h0]
    rw [this, doCall_calls]

theorem updates_flags {Θ V Act : Type} (g : Gen Θ V Act) (c : CId) :
    ∀ (as : List Act) (m : Mem Θ V), (m.flags c = true ∨ ∃ a ∈ as, c ∈ g.outdated a) →
      (as.foldl (fun m a => g.update a m) m).flags c = true := by
  intro as
  induction as with
  | nil =>
    rintro m (h | ⟨a, ha, _⟩)
    · exact h
    · simp at ha
  | cons a as ih =>
    intro m h
    apply ih
    rcases h with h | ⟨b, hb, hc⟩
    · left; simp [Gen.update, h]
    · rcases List.mem_cons.mp hb with rfl | hb
      · left; simp [Gen.update, hc]
      · exact Or.inr ⟨b, hb, hc⟩

/-- **C21 for SCS** (partial: not for every call, see `C21_fails_for_scs`). If no earlier call has
solved, or this call updates a parameter on which a changing `P` or `A` depends, the solver runs with
the default settings overridden by exactly this call's keyword arguments. -/
theorem C21_scs_partial {quad lp : Bool}
    {ps : List UParam} {maps : CId → Option (RawMap R)} (hw : WFInput ps (Kind.scs.canonIds quad) maps)
    (θ0 : { θ : List R // θ.length = totalSize ps }) (sg : Stgs S)
    (hd : "default_settings" ∉ sg.enabled)
    (order : List CId → List CId) (horder : ∀ l, (order l).Perm l) (junk : CId → Option (List R))
    (vals : String → Option (List R)) (hvals : ∀ p ∈ ps, ∀ v, vals p.name = some v → v.length = p.size)
    (sent : String → List R) (hsent : ∀ p ∈ ps, (sent p.name).length = p.size)
    (hθ0 : θ0.1 = (Abs.mk vals sent).vector ps) (store used : String → S)
    (ops : List (PyOp R S)) (hops : OpsOK ps ops)
    (toks : List Tok) (pus' : Pus)
    (hgen : genBlock (scs quad).pus quad
      (canonGen ps (Kind.scs.canonIds quad) quad maps θ0).changes order = .ok (toks, pus'))
    (st : PySt R S ps) (rs : List (Except PyErr (PyObs S (Option (List R)))))
    (hrun : pyRun .scs quad lp ps maps θ0 sg toks
      ⟨vals, (canonGen ps (Kind.scs.canonIds quad) quad maps θ0).initMem (scs quad) junk, store, used, none⟩
      ops = some (st, rs))
    (u : Option (List String)) (kw : List (String × S)) (st' : PySt R S ps) (r : PyObs S (Option (List R)))
    (hsolve : pySolve .scs quad lp ps maps θ0 sg toks st u kw = some (st', .ok r))
    (hcond : (∀ r ∈ rs, ∃ e, r = .error e) ∨
      ∃ p ∈ ps, (∀ L, u = some L → p.name ∈ L) ∧ ∃ c marked, (c = CId.P ∨ c = CId.A) ∧
        mapChanges (maps c) true = true ∧
        (outdatedOf ps (Kind.scs.canonIds quad) maps).lookup p.name = some marked ∧ c ∈ marked) :
    ∀ n ∈ sg.enabled, r.settings n = settingFor sg kw n := by
  set g := canonGen ps (Kind.scs.canonIds quad) quad maps θ0 with hgdef
  have hs : Sound g := canonGen_sound ps _ quad maps hw θ0
  have hg : Generated .scs quad lp (fun p => mapChanges (maps p) p.isUpper) g := ⟨rfl, rfl, rfl, hs⟩
  obtain ⟨toks', pus'', roots, never, h1, hf, ht⟩ := genBlock_ok g (scs quad) order horder hg.static
  have htoks : toks' = toks := by
    have : genBlock (scs quad).pus quad g.changes order = .ok (toks', pus'') := h1
    rw [hgen] at this
    cases this; rfl
  subst htoks
  have hchk := scs_roots quad (fun p => mapChanges (maps p) p.isUpper)
  unfold scsCheck at hchk
  have han : analyzePus (scs quad).pus genFuel
      (changesOf (Kind.scs.canonIds quad) fun p => mapChanges (maps p) p.isUpper) = .ok (roots, never) :=
    hf.analyze
  rw [han] at hchk
  simp only [Bool.and_eq_true, decide_eq_true_eq, Bool.not_eq_eq_eq_not, Bool.not_true,
    List.contains_eq_mem, decide_eq_false_iff_not, beq_iff_eq] at hchk
  obtain ⟨⟨hroots, hninit⟩, hnPA⟩ := hchk
  have horder1 : order roots = [.init] := by
    have := horder roots
    rw [hroots] at this ⊢
    exact List.perm_singleton.mp this
  obtain ⟨st1, rs1, h2, _, ⟨a, hsim⟩, hmem⟩ := pyRun_ok (k := .scs) (lp := lp) rfl hw θ0 sg hd hf (horder roots) ht
    ops hops ⟨vals, g.initMem (scs quad) junk, store, used, none⟩ ⟨vals, sent⟩
    ⟨inv_init g hs _ junk, hθ0, rfl, hsent, hvals⟩
  have h2' := hrun
  rw [h2] at h2'
  cases h2'
  -- unfold the call
  unfold pySolve at hsolve
  simp only [← hgdef] at hsolve
  by_cases hL : ((u.getD (ps.map UParam.name)).any fun n => !(ps.map UParam.name).contains n) = true
  · rw [if_pos hL] at hsolve; cases hsolve
  rw [if_neg hL] at hsolve
  have hstore := store_settingFor .scs sg kw st.store
  generalize hsk : setKwargs sg (resetStore .scs sg st.store) kw = res at hstore hsolve
  obtain ⟨store', err⟩ := res
  cases err with
  | some e => cases hsolve
  | none =>
    cases hr : readVals st.vals ps with
    | some e => rw [hr] at hsolve; cases hsolve
    | none =>
      rw [hr] at hsolve
      simp only at hsolve
      rw [runCalls_updates] at hsolve
      set L := u.getD (ps.map UParam.name) with hLdef
      set m1 := (updateActs ps L st.vals).foldl (fun m a => g.update a m) st.mem with hm1
      have hinit1 : ∀ (as : List { a : UpdCall R // a.Valid ps }) (m : Mem _ _),
          (as.foldl (fun m a => g.update a m) m).inited = m.inited ∧
          (as.foldl (fun m a => g.update a m) m).calls = m.calls := by
        intro as
        induction as with
        | nil => intro m; exact ⟨rfl, rfl⟩
        | cons a as ih => intro m; exact ih _
      obtain ⟨f, hf1, hf2⟩ := scs_creates g quad rfl never hninit (g.canonicalize m1) (by
        rcases hcond with hall | ⟨p, hp, hpL, c, marked, hc, hch, hlook, hcm⟩
        · left
          show m1.inited = false
          rw [hm1, (hinit1 _ _).1, hmem hall]
          rfl
        · right
          have hin : c ∈ Kind.scs.canonIds quad := by
            by_contra hcon
            rw [hw.other c hcon] at hch
            simp [mapChanges] at hch
          have hcg : (changesOf (Kind.scs.canonIds quad) fun p => mapChanges (maps p) p.isUpper).getD c
              = true := by
            have hup : c.isUpper = true := by rcases hc with rfl | rfl <;> rfl
            simp [changesOf, Changes.getD, hin, hup, hch]
          have hflag : m1.flags c = true := by
            rw [hm1]
            apply updates_flags
            right
            have hLp : p.name ∈ L := by
              rw [hLdef]
              cases u with
              | none => simpa using ⟨p, hp, rfl⟩
              | some L' => exact hpL L' rfl
            refine ⟨⟨⟨p.name, 0, (((st.vals p.name).getD [])[0]?).getD 0⟩, p, hp, rfl, hw.sizes p hp⟩, ?_, ?_⟩
            · unfold updateActs
              rw [List.mem_flatMap]
              refine ⟨⟨p, hp⟩, List.mem_attach _ _, ?_⟩
              rw [if_pos (by simpa using hLp), List.mem_map]
              exact ⟨⟨0, hw.sizes p hp⟩, List.mem_finRange _, rfl⟩
            · show c ∈ ((outdatedOf ps (Kind.scs.canonIds quad) maps).lookup p.name).getD []
              rw [hlook]; exact hcm
          have hnP : CId.PA ∉ never := by
            intro hcon
            have : decide (CId.PA ∈ never) = true := decide_eq_true hcon
            rw [this] at hnPA
            rcases hc with rfl | rfl <;> simp [hcg] at hnPA
          refine ⟨hnP, ?_⟩
          rcases hc with rfl | rfl
          · left
            refine ⟨?_, hflag⟩
            cases quad with
            | true => rfl
            | false => simp [Kind.canonIds] at hin
          · exact Or.inr hflag)
      obtain ⟨o, hsv⟩ : ∃ o, g.solve (Kind.scs.solver quad lp) toks' m1 = some (g.resetFlags (run (fireOf evMem)
          (doCall g (scs quad)) (norm g.quad (scs quad).pus) never genFuel (some [.init])
          (g.canonicalize m1)), o) := by
        have := ht (g.canonicalize m1)
        rw [horder1] at this
        refine ⟨⟨(run (fireOf evMem) (doCall g (scs quad)) (norm g.quad (scs quad).pus) never genFuel
          (some [.init]) (g.canonicalize m1)).solver, (run (fireOf evMem) (doCall g (scs quad))
          (norm g.quad (scs quad).pus) never genFuel (some [.init]) (g.canonicalize m1)).canon .d⟩, ?_⟩
        show g.solve (scs quad) toks' m1 = _
        unfold Gen.solve
        rw [this]
      rw [hsv] at hsolve
      simp only [Option.map_some, Option.some.injEq, Prod.mk.injEq, Except.ok.injEq] at hsolve
      obtain ⟨_, rfl⟩ := hsolve
      intro n hn
      rw [← hstore rfl n hn]
      show deliver .scs sg _ store' st.used n = store' n
      unfold deliver
      simp only [Kind.delivery]
      rw [if_pos]
      have hcalls : (g.resetFlags (run (fireOf evMem) (doCall g (scs quad))
          (norm g.quad (scs quad).pus) never genFuel (some [.init]) (g.canonicalize m1))).calls
          = f :: st.mem.calls := by
        unfold Gen.resetFlags
        simp only
        rw [hf2]
        show f :: m1.calls = _
        rw [hm1, (hinit1 _ _).2]
      rw [hcalls]
      rcases hf1 with rfl | rfl <;> simp

/-- **C21** as its own statement: for all solvers but SCS, every enabled setting in every successful
call of any history is the value given in this very call (or, if not given, the default). -/
theorem C21_settings_do_not_leak_partial {k : Kind} (hscs : k ≠ .scs) {quad lp : Bool}
    (hk : k.possible quad lp = true)
    {ps : List UParam} {maps : CId → Option (RawMap R)} (hw : WFInput ps (k.canonIds quad) maps)
    (θ0 : { θ : List R // θ.length = totalSize ps }) (sg : Stgs S)
    (hd : "default_settings" ∉ sg.enabled)
    (order : List CId → List CId) (horder : ∀ l, (order l).Perm l) (junk : CId → Option (List R))
    (vals : String → Option (List R)) (hvals : ∀ p ∈ ps, ∀ v, vals p.name = some v → v.length = p.size)
    (sent : String → List R) (hsent : ∀ p ∈ ps, (sent p.name).length = p.size)
    (hθ0 : θ0.1 = (Abs.mk vals sent).vector ps) (store used : String → S)
    (ops : List (PyOp R S)) (hops : OpsOK ps ops) :
    let g := canonGen ps (k.canonIds quad) quad maps θ0
    ∃ toks pus' st' rs,
      genBlock (k.solver quad lp).pus g.quad g.changes order = .ok (toks, pus') ∧
      pyRun k quad lp ps maps θ0 sg toks ⟨vals, g.initMem (k.solver quad lp) junk, store, used, none⟩ ops
        = some (st', rs) ∧
      List.Forall₂ (fun op r => ∀ u kw, op = PyOp.solve (R := R) (S := S) u kw → ∀ o, r = .ok o →
          ∀ n ∈ sg.enabled, o.settings n = settingFor sg kw n)
        (ops.filter fun op => match op with | .solve _ _ => true | .setVal _ _ => false) rs := by
  intro g
  obtain ⟨toks, pus', st', rs, h1, h2, h3⟩ := C20_history hk hw θ0 sg hd order horder junk vals hvals sent
    hsent hθ0 store used ops hops
  refine ⟨toks, pus', st', rs, h1, h2, ?_⟩
  clear h2 hθ0 hvals hsent hops
  generalize hab : (Abs.mk vals sent) = a at h3
  clear hab vals sent
  induction ops generalizing a rs with
  | nil =>
    simp only [expected] at h3
    cases h3
    exact List.Forall₂.nil
  | cons op ops ih =>
    cases op with
    | setVal n v =>
      rw [expected] at h3
      exact ih _ _ h3
    | solve u kw =>
      simp only [expected] at h3
      split at h3
      · obtain ⟨_, _, h4, h5, rfl⟩ := List.forall₂_cons_left_iff.mp h3
        refine List.Forall₂.cons ?_ (ih _ _ h5)
        rintro u' kw' hop o rfl n hn
        cases hop
        exact h4.2.2 n ⟨hn, fun h => absurd h hscs⟩
      · obtain ⟨_, _, h4, h5, rfl⟩ := List.forall₂_cons_left_iff.mp h3
        refine List.Forall₂.cons ?_ (ih _ _ h5)
        rintro u' kw' hop o rfl n hn
        exact h4.elim

/-! ### Concrete cases -/

/-- Settings of the examples. -/
def exStgs : Stgs Int where
  enabled := ["max_iters", "warm_start"]
  translate := [("maxit", "max_iters")]
  default := fun _ => 100
  accepts := fun _ v => decide (0 ≤ v)

/-- One scalar and one vector parameter; `c = (a, s_0 + s_1)`, constant `A`, `b`. -/
def exWPs : List UParam := [⟨"a", 1⟩, ⟨"s", 2⟩]

/-- Maps of the example. -/
def exWMaps : CId → Option (RawMap Int)
  | .c => some ⟨⟨2, 4, [(0, 0, 1), (1, 1, 1), (1, 2, 1)]⟩, fun _ => 1⟩
  | .A => some ⟨⟨1, 4, [(0, 3, 1)]⟩, fun _ => -1⟩
  | .b => some ⟨⟨1, 4, [(0, 3, 7)]⟩, fun _ => 1⟩
  | _ => none

/-- Run a history for solver `k` (not quadratic), reporting `c`, and `max_iters` of each call. -/
def exRun (k : Kind) (ops : List (PyOp Int Int)) : Option (List (Except PyErr (Option (List Int) × Int))) :=
  let g := canonGen exWPs (k.canonIds false) false exWMaps ⟨[0, 0, 0], rfl⟩
  match genBlock (k.solver false true).pus false g.changes id with
  | .error _ => none
  | .ok (toks, _) =>
      (pyRun k false true exWPs exWMaps ⟨[0, 0, 0], rfl⟩ exStgs toks
        ⟨fun _ => none, g.initMem (k.solver false true) (fun _ => none), fun _ => 1, fun _ => 1, none⟩ ops).map
        fun r => r.2.map fun e => e.map fun o => (o.obs.data .c, o.settings "max_iters")

/-- A history with errors, partial updates and settings. -/
def exOps : List (PyOp Int Int) :=
  [.solve none [], .setVal "a" [3], .setVal "s" [4, 5], .solve none [("maxit", 7)], .setVal "a" [8],
   .setVal "s" [1, 1], .solve (some ["s"]) [], .solve (some ["t"]) [], .solve none [("eps", 1)],
   .solve none [("max_iters", -1)], .solve (some []) [("max_iters", 9)]]

example : exRun .ecos exOps = some [.error .typeError, .ok (some [3, 9], 7), .ok (some [3, 2], 100),
    .error .attributeError, .error .attributeError, .error .typeError, .ok (some [3, 2], 9)] := by
  decide +kernel

/-- **C21 is false for SCS**: the settings of a call do not reach a solver that already exists; the second
and third solve still run with the settings of the first call. -/
theorem C21_fails_for_scs :
    exRun .scs [.setVal "a" [3], .setVal "s" [4, 5], .solve none [("max_iters", 7)], .solve none [],
      .solve none [("max_iters", 9)]]
    = some [.ok (some [3, 9], 7), .ok (some [3, 9], 7), .ok (some [3, 9], 7)] := by
  decide +kernel

theorem exWWF (k : Kind) (hk : k = .ecos ∨ k = .scs) : WFInput exWPs (k.canonIds false) exWMaps := by
  refine ⟨by decide, by decide, ?_, ?_⟩
  · intro c m h
    cases c <;> simp [exWMaps] at h <;> subst h <;> rfl
  · intro c hc
    rcases hk with rfl | rfl <;> cases c <;> simp_all [Kind.canonIds, exWMaps]

/-- The hypotheses of C20 and C21 hold for the example. -/
example : WFInput exWPs (Kind.ecos.canonIds false) exWMaps ∧ "default_settings" ∉ exStgs.enabled ∧
    OpsOK exWPs exOps ∧
    (⟨[0, 0, 0], rfl⟩ : { θ : List Int // θ.length = totalSize exWPs }).1
      = (Abs.mk (fun _ => none) (fun n => if n = "a" then [0] else [0, 0])).vector exWPs := by
  refine ⟨exWWF _ (Or.inl rfl), by decide, ?_, by decide⟩
  intro n v hm p hp hpn
  simp [exOps] at hm
  simp [exWPs] at hp
  rcases hm with ⟨rfl, rfl⟩ | ⟨rfl, rfl⟩ | ⟨rfl, rfl⟩ | ⟨rfl, rfl⟩ <;> rcases hp with rfl | rfl <;>
    simp at hpn ⊢

/-- The condition of `C21_scs_partial` on the updated parameters is met if `A` depends on one. -/
example : mapChanges (R := Int) (some ⟨⟨1, 4, [(0, 1, 1)]⟩, fun _ => -1⟩) true = true := by decide +kernel

end Verif.Props
