import Verif.Props.Settings
import Verif.Props.Wrapper
import Verif.Spec.ScsCalls
/-! C21 for SCS: the exact settings of every call. -/
namespace Verif.Props
open Verif.Model Verif.Spec Verif.Lemmas

variable {R S : Type} [CommRing R] [DecidableEq R]

/-- Does the call with this argument transfer a parameter for which `P` or `A` is marked? -/
def marksPA (quad : Bool) (ps : List UParam) (maps : CId → Option (RawMap R)) (u : Option (List String)) : Bool :=
  ps.any fun p => (u.getD (ps.map UParam.name)).contains p.name &&
    ((quad && (((outdatedOf ps (Kind.scs.canonIds quad) maps).lookup p.name).getD []).contains .P) ||
      (((outdatedOf ps (Kind.scs.canonIds quad) maps).lookup p.name).getD []).contains .A)

/-- The calls of a history with the results they have. -/
def scsCallsOf : List (PyOp R S) → List (Except PyErr (PyObs S (Option (List R)))) → Calls S
  | .setVal _ _ :: ops, rs => scsCallsOf ops rs
  | .solve u kw :: ops, r :: rs => ((u, kw), r.toOption.isSome) :: scsCallsOf ops rs
  | _, _ => []

theorem updates_flags_eq {Θ V Act : Type} (g : Gen Θ V Act) (c : CId) : ∀ (as : List Act) (m : Mem Θ V),
    (as.foldl (fun m a => g.update a m) m).flags c = (m.flags c || as.any fun a => (g.outdated a).contains c) := by
  intro as
  induction as with
  | nil => intro m; simp
  | cons a as ih =>
    intro m
    rw [List.foldl_cons, ih, List.any_cons]
    simp only [Gen.update]
    cases m.flags c <;> cases (g.outdated a).contains c <;> simp

theorem updates_same {Θ V Act : Type} (g : Gen Θ V Act) : ∀ (as : List Act) (m : Mem Θ V),
    (as.foldl (fun m a => g.update a m) m).inited = m.inited ∧ (as.foldl (fun m a => g.update a m) m).calls = m.calls := by
  intro as
  induction as with
  | nil => intro m; exact ⟨rfl, rfl⟩
  | cons a as ih => intro m; exact ih _

/-- A call that does not raise, taken apart. -/
theorem pySolve_inv {k : Kind} {quad lp : Bool} {ps : List UParam} {maps : CId → Option (RawMap R)}
    {θ0 : { θ : List R // θ.length = totalSize ps }} {sg : Stgs S} {toks : List Tok} {st st' : PySt R S ps} {u : Option (List String)}
    {kw : List (String × S)} {r : PyObs S (Option (List R))}
    (h : pySolve k quad lp ps maps θ0 sg toks st u kw = some (st', .ok r)) :
    ∃ store m o, (∀ n ∈ sg.enabled, store n = settingFor sg kw n) ∧
      (canonGen ps (k.canonIds quad) quad maps θ0).solve (k.solver quad lp) toks ((updateActs ps (u.getD (ps.map UParam.name)) st.vals).foldl
        (fun m a => (canonGen ps (k.canonIds quad) quad maps θ0).update a m) st.mem) = some (m, o) ∧
      st'.mem = m ∧ r.settings = st'.used ∧
      st'.used = deliver k sg (m.calls.take (m.calls.length - st.mem.calls.length)) store st.used := by
  unfold pySolve at h
  simp only at h
  by_cases hL : ((u.getD (ps.map UParam.name)).any fun n => !(ps.map UParam.name).contains n) = true
  · rw [if_pos hL] at h; cases h
  · rw [if_neg hL] at h
    have hst := store_settingFor k sg kw st.store
    generalize hsk : setKwargs sg (resetStore k sg st.store) kw = res at h hst
    obtain ⟨store, err⟩ := res
    cases err with
    | some e => cases h
    | none =>
      simp only at h
      cases hr : readVals st.vals ps with
      | some e => rw [hr] at h; cases h
      | none =>
        rw [hr] at h
        simp only [runCalls_updates] at h
        cases hs : (canonGen ps (k.canonIds quad) quad maps θ0).solve (k.solver quad lp) toks ((updateActs ps (u.getD (ps.map UParam.name)) st.vals).foldl
          (fun m a => (canonGen ps (k.canonIds quad) quad maps θ0).update a m) st.mem) with
        | none => rw [hs] at h; cases h
        | some mo =>
          obtain ⟨m, o⟩ := mo
          rw [hs] at h
          simp only [Option.map_some, Option.some.injEq, Prod.mk.injEq, Except.ok.injEq] at h
          obtain ⟨rfl, rfl⟩ := h
          exact ⟨store, m, o, hst rfl, rfl, rfl, rfl, rfl⟩

theorem any_updateActs {ps : List UParam} (hpos : ∀ p ∈ ps, 0 < p.size) (L : List String) (vals : String → Option (List R)) (f : String → Bool) :
    ((updateActs ps L vals).any fun a => f a.1.name) = ps.any fun p => L.contains p.name && f p.name := by
  rw [Bool.eq_iff_iff, List.any_eq_true, List.any_eq_true]
  unfold updateActs
  constructor
  · rintro ⟨a, ha, hf⟩
    obtain ⟨p, _, ha⟩ := List.mem_flatMap.1 ha
    by_cases hc : L.contains p.1.name = true
    · rw [if_pos hc] at ha
      obtain ⟨i, _, rfl⟩ := List.mem_map.1 ha
      exact ⟨p.1, p.2, by rw [hc]; exact hf⟩
    · rw [if_neg hc] at ha; cases ha
  · rintro ⟨p, hp, hf⟩
    rw [Bool.and_eq_true] at hf
    refine ⟨⟨⟨p.name, 0, (((vals p.name).getD [])[0]?).getD 0⟩, p, hp, rfl, hpos p hp⟩, ?_, hf.2⟩
    rw [List.mem_flatMap]
    refine ⟨⟨p, hp⟩, List.mem_attach _ _, ?_⟩
    rw [if_pos hf.1, List.mem_map]
    exact ⟨⟨0, hpos p hp⟩, List.mem_finRange _, rfl⟩

theorem any_or_and (l : List UParam) (q : Bool) (c f g : UParam → Bool) :
    (l.any fun p => c p && ((q && f p) || g p)) = ((q && l.any fun p => c p && f p) || l.any fun p => c p && g p) := by
  induction l with
  | nil => cases q <;> rfl
  | cons p l ih =>
    simp only [List.any_cons, ih]
    cases q <;> cases c p <;> cases f p <;> cases g p <;> simp

/-- **C21, SCS, exactly.** For every history of assignments and calls: the settings of a call that does not raise are its own (defaults overridden
by its keyword arguments) at the first one; at every one, if the objective is quadratic and exactly one of `P` and `A` depends on parameters;
and if it transfers a parameter on which a changing `P` or `A` depends. Otherwise they are those of the call before, except for `warm_start`. -/
theorem C21_scs_exact {quad lp : Bool}
    {ps : List UParam} {maps : CId → Option (RawMap R)} (hw : WFInput ps (Kind.scs.canonIds quad) maps)
    (θ0 : { θ : List R // θ.length = totalSize ps }) (sg : Stgs S) (hd : "default_settings" ∉ sg.enabled)
    (order : List CId → List CId) (horder : ∀ l, (order l).Perm l) (junk : CId → Option (List R))
    (vals : String → Option (List R)) (hvals : ∀ p ∈ ps, ∀ v, vals p.name = some v → v.length = p.size)
    (sent : String → List R) (hsent : ∀ p ∈ ps, (sent p.name).length = p.size)
    (hθ0 : θ0.1 = (Abs.mk vals sent).vector ps) (store used : String → S)
    (ops : List (PyOp R S)) (hops : OpsOK ps ops) :
    let g := canonGen ps (Kind.scs.canonIds quad) quad maps θ0
    let bP := quad && mapChanges (maps .P) true
    let bA := mapChanges (maps .A) true
    ∃ toks pus' st' rs,
      genBlock (scs quad).pus g.quad g.changes order = .ok (toks, pus') ∧
      pyRun .scs quad lp ps maps θ0 sg toks ⟨vals, g.initMem (scs quad) junk, store, used, none⟩ ops = some (st', rs) ∧
      List.Forall₂ (fun (e : Option (String → S)) r => match e, r with
          | none, .error _ => True
          | some s, .ok o => ∀ n ∈ sg.enabled, o.settings n = s n
          | _, _ => False)
        (copiedSettings sg (fun n => n == "warm_start") (fun u => (quad && (bP != bA)) || ((bP || bA) && marksPA quad ps maps u)) none (scsCallsOf ops rs))
        rs := by
  intro g bP bA
  have hs : Sound g := canonGen_sound ps _ quad maps hw θ0
  have hg : Generated .scs quad lp (fun p => mapChanges (maps p) p.isUpper) g := ⟨rfl, rfl, rfl, hs⟩
  obtain ⟨never, ha, hni, hnp⟩ := scs_roots_mem quad (fun p => mapChanges (maps p) p.isUpper)
  obtain ⟨toks, pus', roots, never', h1, hf, ht⟩ := genBlock_ok g (Kind.scs.solver quad lp) order horder hg.static
  have hr : roots = [.init] ∧ never' = never := by
    have h' : (Except.ok (roots, never') : Except PyErr _) = .ok ([.init], never) := hf.analyze.symm.trans ha
    cases h'
    exact ⟨rfl, rfl⟩
  obtain ⟨rfl, rfl⟩ := hr
  have hord : order [CId.init] = [.init] := List.perm_singleton.1 (horder [.init])
  have hcP : g.changes.getD .P = bP := by
    show (changesOf (Kind.scs.canonIds quad) fun p => mapChanges (maps p) p.isUpper).getD .P = _
    cases quad <;> simp [changesOf, Changes.getD, Kind.canonIds, bP, CId.isUpper]
  have hcA : g.changes.getD .A = bA := by
    show (changesOf (Kind.scs.canonIds quad) fun p => mapChanges (maps p) p.isUpper).getD .A = _
    cases quad <;> simp [changesOf, Changes.getD, Kind.canonIds, bA, CId.isUpper]
  have hnp' : never'.contains .PA = !(bP || bA) := hnp
  have key : ∀ (ops : List (PyOp R S)), OpsOK ps ops → ∀ (st : PySt R S ps) (a : Abs R) (last : Option (String → S)),
      Sim g (Kind.scs.solver quad lp) st a → (∀ p, g.changes.getD p = false → st.mem.flags p = true) →
      st.mem.inited = last.isSome →
      ((bP || bA) = true → st.mem.inited = true → ((quad && st.mem.flags .P) || st.mem.flags .A) = (quad && (bP != bA))) →
      (∀ s, last = some s → ∀ n ∈ sg.enabled, st.used n = s n) →
      ∃ st' rs, pyRun .scs quad lp ps maps θ0 sg toks st ops = some (st', rs) ∧
        List.Forall₂ (fun (e : Option (String → S)) r => match e, r with
            | none, .error _ => True
            | some s, .ok o => ∀ n ∈ sg.enabled, o.settings n = s n
            | _, _ => False)
          (copiedSettings sg (fun n => n == "warm_start") (fun u => (quad && (bP != bA)) || ((bP || bA) && marksPA quad ps maps u)) last
            (scsCallsOf ops rs)) rs := by
    intro ops
    induction ops with
    | nil => intro _ st a last _ _ _ _ _; exact ⟨st, [], rfl, List.Forall₂.nil⟩
    | cons op ops ih =>
      intro hok st a last hsim hfl hin hdue hused
      have hok' : OpsOK ps ops := fun n v hm => hok n v (List.mem_cons_of_mem _ hm)
      cases op with
      | setVal n v =>
        obtain ⟨st', rs, h2, h3⟩ := ih hok' { st with vals := fun m => if m = n then some v else st.vals m }
          { a with vals := fun m => if m = n then some v else a.vals m } last
          ⟨hsim.inv, hsim.θ, by simp only [hsim.vals], hsim.sentLen, by
            intro p hp w hw'
            simp only at hw'
            by_cases hpn : p.name = n
            · rw [if_pos hpn] at hw'
              cases hw'
              exact hok n v (by simp) p hp hpn
            · rw [if_neg hpn] at hw'
              exact hsim.valLen p hp w hw'⟩ hfl hin hdue hused
        exact ⟨st', rs, h2, h3⟩
      | solve u kw =>
        obtain ⟨st1, r, h2, h3⟩ := pySolve_ok (k := .scs) (lp := lp) rfl hw θ0 sg hd hf (horder [.init]) ht st a u kw hsim
        rcases h3 with ⟨_, _, h6, h7⟩ | ⟨_, h5, hmem, _, hus, e, rfl⟩
        · cases r with
          | error e => exact h7.elim
          | ok r =>
            obtain ⟨sto, m, o, hsto, hsol, hm1, hr1, hr2⟩ := pySolve_inv h2
            set m0 := (updateActs ps (u.getD (ps.map UParam.name)) st.vals).foldl (fun m a => g.update a m) st.mem with hm0
            have hinv0 : Inv g (Kind.scs.solver quad lp) m0 := updates_inv g hs _ _ _ hsim.inv
            have hfl0 : ∀ p, g.changes.getD p = false → m0.flags p = true := by
              intro p hp
              rw [hm0, updates_flags_eq, hfl p hp, Bool.true_or]
            have hset := solve_settled g hs _ [.init] never' (order [.init]) hf (horder _) toks ht m0 m o hinv0 hfl0 hsol
            have hany := scs_new hg hni hord hf ht hsol
            rw [(updates_same g _ _).2, (updates_same g _ _).1, hnp', Bool.not_not, hin] at hany
            have hmk : ((quad && m0.flags .P) || m0.flags .A) =
                (((quad && st.mem.flags .P) || st.mem.flags .A) || marksPA quad ps maps u) := by
              rw [hm0, updates_flags_eq, updates_flags_eq]
              have e1 : ∀ c : CId, ((updateActs ps (u.getD (ps.map UParam.name)) st.vals).any fun a => (g.outdated a).contains c) =
                  ps.any fun p => (u.getD (ps.map UParam.name)).contains p.name &&
                    (((outdatedOf ps (Kind.scs.canonIds quad) maps).lookup p.name).getD []).contains c := fun c =>
                any_updateActs hw.sizes _ _ fun n => (((outdatedOf ps (Kind.scs.canonIds quad) maps).lookup n).getD []).contains c
              rw [e1, e1]
              unfold marksPA
              rw [any_or_and]
              cases quad <;> cases st.mem.flags .P <;> cases st.mem.flags .A <;> simp
            rw [hmk] at hany
            have hdue1 : (bP || bA) = true → st1.mem.inited = true →
                ((quad && st1.mem.flags .P) || st1.mem.flags .A) = (quad && (bP != bA)) := by
              intro hact _
              rw [hm1, hset.2 .P, hset.2 .A, hcP, hcA]
              cases hq : quad
              · simp only [bP, hq, Bool.false_and, Bool.false_or] at hact ⊢
                rw [hact]; rfl
              · revert hact
                cases bP <;> cases bA <;> simp
            have hin1 : st1.mem.inited = true := by rw [hm1]; exact hset.1
            have hfl1 : ∀ p, g.changes.getD p = false → st1.mem.flags p = true := by
              intro p hp; rw [hm1, hset.2 p, hp]; rfl
            -- the settings of this call
            generalize hcr : ((quad && (bP != bA)) || ((bP || bA) && marksPA quad ps maps u)) = cr at hany
            have hnow : ∀ n ∈ sg.enabled, st1.used n = copiedNow (fun n => n == "warm_start") cr last (settingFor sg kw) n := by
              intro n hn
              rw [hr2]
              unfold deliver
              simp only [Kind.delivery]
              rw [hany]
              cases hl : last with
              | none =>
                simp only [copiedNow, Option.isSome_none, Bool.not_false, Bool.true_or, if_true]
                exact hsto n hn
              | some s =>
                rw [hl] at hin
                have hc : ((bP || bA) && (((quad && st.mem.flags .P) || st.mem.flags .A) || marksPA quad ps maps u)) = cr := by
                  rw [← hcr]
                  cases hact : (bP || bA) with
                  | true => rw [hdue hact hin]; simp
                  | false =>
                    have : bP = false ∧ bA = false := by simpa using hact
                    rw [this.1, this.2]; simp
                simp only [copiedNow, Option.isSome_some, Bool.not_true, Bool.false_or, hc]
                cases cr with
                | true => exact hsto n hn
                | false =>
                  by_cases hws : n = "warm_start"
                  · simp [hws]; exact hsto _ (hws ▸ hn)
                  · simp [hws]; exact hused s hl n hn
            obtain ⟨st', rs, h8, h9⟩ := ih hok' st1 _ (some (copiedNow (fun n => n == "warm_start") cr last (settingFor sg kw))) h6 hfl1 (by rw [hin1]; rfl) hdue1 (by rintro s ⟨⟩; exact hnow)
            refine ⟨st', .ok r :: rs, by simp only [pyRun, h2, h8], ?_⟩
            show List.Forall₂ _ (some (copiedNow _ _ _ _) :: copiedSettings _ _ _ (some (copiedNow _ _ _ _)) _) _
            simp only [hcr]
            refine List.Forall₂.cons ?_ h9
            intro n hn
            rw [hr1]
            exact hnow n hn
        · obtain ⟨st', rs, h8, h9⟩ := ih hok' st1 _ last h5 (by rw [hmem]; exact hfl) (by rw [hmem]; exact hin)
            (by rw [hmem]; exact hdue) (by rw [hus]; exact hused)
          exact ⟨st', .error e :: rs, by simp only [pyRun, h2, h8], List.Forall₂.cons trivial h9⟩
  obtain ⟨st', rs, h2, h3⟩ := key ops hops ⟨vals, g.initMem (scs quad) junk, store, used, none⟩ ⟨vals, sent⟩ none
    ⟨inv_init g hs _ junk, hθ0, rfl, hsent, hvals⟩ (fun _ _ => rfl) rfl (fun _ h => by cases h) (fun _ h => by cases h)
  exact ⟨toks, pus', st', rs, h1, h2, h3⟩

theorem copied_own (sg : Stgs S) (live : String → Bool) (creates : Option (List String) → Bool) (h : ∀ u, creates u = true) :
    ∀ (cs : Calls S) (last : Option (String → S)) (rs : List (Except PyErr (PyObs S (Option (List R))))),
      List.Forall₂ (fun (e : Option (String → S)) r => match e, r with
          | none, .error _ => True
          | some s, .ok o => ∀ n ∈ sg.enabled, o.settings n = s n
          | _, _ => False) (copiedSettings sg live creates last cs) rs →
      List.Forall₂ (fun c r => ∀ o, r = Except.ok o → ∀ n ∈ sg.enabled, o.settings n = settingFor sg c.1.2 n) cs rs := by
  intro cs
  induction cs with
  | nil => intro last rs h; cases h; exact List.Forall₂.nil
  | cons c cs ih =>
    intro last rs hf
    obtain ⟨⟨u, kw⟩, b⟩ := c
    cases b with
    | false =>
      obtain ⟨r, rs, h1, h2, rfl⟩ := List.forall₂_cons_left_iff.1 hf
      refine List.Forall₂.cons ?_ (ih _ _ h2)
      rintro o rfl
      exact h1.elim
    | true =>
      obtain ⟨r, rs, h1, h2, rfl⟩ := List.forall₂_cons_left_iff.1 hf
      refine List.Forall₂.cons ?_ (ih _ _ h2)
      rintro o rfl n hn
      have := h1 n hn
      rw [this]
      cases last with
      | none => rfl
      | some o => simp only [copiedNow, h u, if_true]

/-- **C21, SCS.** The property holds for all histories exactly if the objective is quadratic and exactly one of `P` and `A` depends on parameters
(then every call creates a workspace), provided that there is a setting other than `warm_start` with a value besides its default. -/
theorem C21_scs_iff {quad lp : Bool}
    {ps : List UParam} {maps : CId → Option (RawMap R)} (hw : WFInput ps (Kind.scs.canonIds quad) maps)
    (θ0 : { θ : List R // θ.length = totalSize ps }) (sg : Stgs S) (hd : "default_settings" ∉ sg.enabled)
    (order : List CId → List CId) (horder : ∀ l, (order l).Perm l) (junk : CId → Option (List R))
    (vals : String → Option (List R)) (hvals : ∀ p ∈ ps, ∀ v, vals p.name = some v → v.length = p.size) (hv : HaveValues ps vals)
    (sent : String → List R) (hsent : ∀ p ∈ ps, (sent p.name).length = p.size)
    (hθ0 : θ0.1 = (Abs.mk vals sent).vector ps) (store used : String → S)
    (n : String) (v : S) (hn : n ∈ sg.enabled) (hws : n ≠ "warm_start") (htr : (sg.translate.lookup n).getD n = n)
    (hacc : sg.accepts n v = true) (hne : v ≠ sg.default n) :
    let g := canonGen ps (Kind.scs.canonIds quad) quad maps θ0
    (∀ ops : List (PyOp R S), OpsOK ps ops → ∀ toks pus' st' rs,
      genBlock (scs quad).pus g.quad g.changes order = .ok (toks, pus') →
      pyRun .scs quad lp ps maps θ0 sg toks ⟨vals, g.initMem (scs quad) junk, store, used, none⟩ ops = some (st', rs) →
      List.Forall₂ (fun c r => ∀ o, r = Except.ok o → ∀ n ∈ sg.enabled, o.settings n = settingFor sg c.1.2 n) (scsCallsOf ops rs) rs) ↔
    quad = true ∧ mapChanges (maps .P) true ≠ mapChanges (maps .A) true := by
  intro g
  have hcond : (quad && ((quad && mapChanges (maps .P) true) != mapChanges (maps .A) true)) = true ↔
      quad = true ∧ mapChanges (maps .P) true ≠ mapChanges (maps .A) true := by
    cases quad <;> simp
  rw [← hcond]
  constructor
  · intro h
    let ops : List (PyOp R S) := [.solve none [(n, v)], .solve (some []) []]
    have hok : OpsOK ps ops := by
      intro m w hm
      simp [ops] at hm
    obtain ⟨toks, pus', st', rs, h1, h2, h3⟩ := C21_scs_exact (lp := lp) hw θ0 sg hd order horder junk vals hvals sent hsent hθ0 store used ops hok
    obtain ⟨toks', pus'', st'', rs', h1', h2', h3'⟩ := C20_history (k := .scs) (lp := lp) rfl hw θ0 sg hd order horder junk vals hvals sent hsent hθ0
      store used ops hok
    have e1 : toks' = toks := by
      have : genBlock (scs quad).pus g.quad g.changes order = .ok (toks', pus'') := h1'
      rw [h1] at this
      exact (Prod.mk.inj (Except.ok.inj this)).1.symm
    subst e1
    have e2 : rs' = rs := by
      have : pyRun .scs quad lp ps maps θ0 sg toks' ⟨vals, g.initMem (scs quad) junk, store, used, none⟩ ops = some (st'', rs') := h2'
      rw [h2] at this
      exact (Prod.mk.inj (Option.some.inj this)).2.symm
    subst e2
    have h4 := h ops hok toks' pus' st' rs' h1 h2
    have g1 : GoodArgs ps sg none [(n, v)] := ⟨by rintro L ⟨⟩, by
      intro kv hkv
      rw [List.mem_singleton.1 hkv]
      simp only [htr]
      exact ⟨hn, hacc⟩⟩
    have g2 : GoodArgs ps sg (some []) [] := ⟨by rintro L ⟨⟩ m hm; exact absurd hm List.not_mem_nil, by intro kv hkv; exact absurd hkv List.not_mem_nil⟩
    have hx : expected ps sg ⟨vals, sent⟩ ops = [.solves (((Abs.mk vals sent).transfer none).vector ps) (settingFor sg [(n, v)]),
        .solves ((((Abs.mk vals sent).transfer none).transfer (some [])).vector ps) (settingFor sg [])] := by
      show expected ps sg ⟨vals, sent⟩ [.solve none [(n, v)], .solve (some []) []] = _
      rw [expected, if_pos ⟨g1, hv⟩, expected, if_pos ⟨g2, hv⟩, expected]
    rw [hx] at h3'
    obtain ⟨r1, rs1, m1, h5, rfl⟩ := List.forall₂_cons_left_iff.1 h3'
    obtain ⟨r2, rs2, m2, h6, rfl⟩ := List.forall₂_cons_left_iff.1 h5
    cases h6
    cases r1 with
    | error e => exact m1.elim
    | ok o1 =>
      cases r2 with
      | error e => exact m2.elim
      | ok o2 =>
        obtain ⟨_, _, _, h7, e⟩ := List.forall₂_cons_left_iff.1 h4
        cases e
        obtain ⟨_, _, p2, _, e⟩ := List.forall₂_cons_left_iff.1 h7
        cases e
        have p2 := p2 o2 rfl n hn
        obtain ⟨_, _, _, h8, e⟩ := List.forall₂_cons_left_iff.1 h3
        cases e
        obtain ⟨_, _, q2, _, e⟩ := List.forall₂_cons_left_iff.1 h8
        cases e
        have q2 := q2 n hn
        rw [p2] at q2
        by_contra hcon
        have hcon' := Bool.eq_false_iff.2 hcon
        have hm0 : marksPA quad ps maps (some []) = false := by
          unfold marksPA
          rw [List.any_eq_false]
          intro p _
          simp
        have hws' : (n == "warm_start") = false := by simpa using hws
        simp only [hcon', hm0, Bool.and_false, Bool.or_false, copiedNow, Bool.false_eq_true, if_false, hws'] at q2
        have s1 : settingFor sg [(n, v)] n = v := by
          unfold settingFor
          simp [htr]
        rw [s1] at q2
        exact hne (q2.symm.trans rfl)
  · intro hc ops hok toks pus' st' rs h1 h2
    obtain ⟨toks', pus'', st'', rs', h1', h2', h3'⟩ := C21_scs_exact (lp := lp) hw θ0 sg hd order horder junk vals hvals sent hsent hθ0 store used ops hok
    have e1 : toks' = toks := by
      have : genBlock (scs quad).pus g.quad g.changes order = .ok (toks', pus'') := h1'
      rw [h1] at this
      exact (Prod.mk.inj (Except.ok.inj this)).1.symm
    subst e1
    have e2 : rs' = rs := by
      have : pyRun .scs quad lp ps maps θ0 sg toks' ⟨vals, g.initMem (scs quad) junk, store, used, none⟩ ops = some (st'', rs') := h2'
      rw [h2] at this
      exact (Prod.mk.inj (Option.some.inj this)).2.symm
    subst e2
    refine copied_own sg _ _ ?_ _ _ _ h3'
    intro u
    simp only [hc, Bool.true_or]

/-- The hypotheses are met by the example of `C21_fails_for_scs` with all values given; there the right side is false. -/
example : WFInput exWPs (Kind.scs.canonIds false) exWMaps ∧ "default_settings" ∉ exStgs.enabled ∧ "max_iters" ∈ exStgs.enabled ∧
    (exStgs.translate.lookup "max_iters").getD "max_iters" = "max_iters" ∧ exStgs.accepts "max_iters" 7 = true ∧
    (7 : Int) ≠ exStgs.default "max_iters" ∧
    (⟨[3, 4, 5], rfl⟩ : { θ : List Int // θ.length = totalSize exWPs }).1
      = (Abs.mk (fun n => if n = "a" then some [3] else some [4, 5]) (fun n => if n = "a" then [3] else [4, 5])).vector exWPs :=
  ⟨exWWF _ (Or.inr rfl), by decide, by decide, by decide, by decide, by decide, by decide⟩

end Verif.Props
