import Verif.Lemmas.StaticTables
/-!
Which solver calls are made: initialisation first and once, no calls when nothing is outdated.
-/
namespace Verif.Lemmas
open Verif.Model Verif.Spec

variable {Θ V Act : Type}

/-- The initialisation branch is guarded by "not initialised". -/
def initGuard (pus : Pus) : Bool :=
  match pus.lookup .init with
  | none => true
  | some lg => lg.extra == some .notInit && lg.params.isEmpty

theorem doCall_calls (g : Gen Θ V Act) (sv : Solver) (f : CId) (m : Mem Θ V) :
    (doCall g sv f m).calls = f :: m.calls := by
  unfold doCall; split <;> rfl

theorem run_calls (g : Gen Θ V Act) (sv : Solver) (pus : Pus) (never : List CId)
    (heff : effectsOK sv pus = true) (hg : initGuard pus = true) :
    ∀ fuel, (∀ ofs (m : Mem Θ V), m.inited = true →
        ∃ new, (run (fireOf evMem) (doCall g sv) pus never fuel ofs m).calls = new ++ m.calls ∧
          CId.init ∉ new) ∧
      (∀ f (m : Mem Θ V), m.inited = true →
        ∃ new, (runFn g sv pus never fuel f m).calls = new ++ m.calls ∧ CId.init ∉ new) := by
  have hfn : ∀ fuel, (∀ ofs (m : Mem Θ V), m.inited = true →
        ∃ new, (run (fireOf evMem) (doCall g sv) pus never fuel ofs m).calls = new ++ m.calls ∧
          CId.init ∉ new) →
      (∀ f (m : Mem Θ V), m.inited = true →
        ∃ new, (runFn g sv pus never fuel f m).calls = new ++ m.calls ∧ CId.init ∉ new) := by
    intro fuel hrun f m hi
    unfold runFn
    cases hl : pus.lookup f with
    | none => exact ⟨[], by simp, by simp⟩
    | some lg =>
      simp only []
      split
      · exact hrun _ _ hi
      · split
        · rename_i hf
          refine ⟨[f], by rw [doCall_calls]; rfl, ?_⟩
          simp only [List.mem_singleton]
          intro h0
          subst h0
          simp only [initGuard, hl, Bool.and_eq_true, beq_iff_eq, List.isEmpty_iff] at hg
          simp [fireOf, fires, hg.1, hg.2, evMem, hi] at hf
        · exact hrun _ _ hi
  intro fuel
  induction fuel with
  | zero =>
    have : ∀ ofs (m : Mem Θ V), m.inited = true →
        ∃ new, (run (fireOf evMem) (doCall g sv) pus never 0 ofs m).calls = new ++ m.calls ∧
          CId.init ∉ new := by
      intro ofs m hi; cases ofs <;> exact ⟨[], rfl, by simp⟩
    exact ⟨this, hfn 0 this⟩
  | succ fuel ih =>
    have hl : ∀ (fs : List CId) (m : Mem Θ V), m.inited = true →
        ∃ new, (fs.foldl (fun m f => runFn g sv pus never fuel f m) m).calls = new ++ m.calls ∧
          CId.init ∉ new := by
      intro fs
      induction fs with
      | nil => intro m _; exact ⟨[], rfl, by simp⟩
      | cons f fs ihl =>
        intro m hi
        obtain ⟨n1, h1, h2⟩ := ih.2 f m hi
        obtain ⟨n2, h3, h4⟩ := ihl _ ((run_good g sv pus never heff fuel).2 f m hi).inited
        refine ⟨n2 ++ n1, ?_, by simp [h2, h4]⟩
        rw [List.foldl_cons, h3, h1, List.append_assoc]
    have : ∀ ofs (m : Mem Θ V), m.inited = true →
        ∃ new, (run (fireOf evMem) (doCall g sv) pus never (fuel + 1) ofs m).calls = new ++ m.calls ∧
          CId.init ∉ new := by
      intro ofs m hi
      cases ofs with
      | none => exact ⟨[], rfl, by simp⟩
      | some fs => rw [run_succ]; exact hl _ m hi
    exact ⟨this, hfn _ this⟩

/-- First block on an uninitialised solver: initialisation, then the others. -/
theorem run_calls_first (g : Gen Θ V Act) (sv : Solver) (roots never order : List CId)
    (pus : Pus) (hperm : order.Perm roots) (heff : effectsOK sv pus = true)
    (hg : initGuard pus = true)
    (hinit : initOK sv pus roots never = true)
    (hone : (!roots.contains .init || decide (roots.count .init = 1)) = true)
    (m : Mem Θ V) (hi : m.inited = false) :
    ∃ new, (run (fireOf evMem) (doCall g sv) pus never genFuel (some order) m).calls
        = new ++ CId.init :: m.calls ∧ CId.init ∉ new := by
  have hrun : run (fireOf evMem) (doCall g sv) pus never genFuel (some order) m
      = (initFirst order).foldl (fun m f => runFn g sv pus never 5 f m) m := run_succ ..
  unfold initOK at hinit
  simp only [Bool.and_eq_true] at hinit
  obtain ⟨⟨hroot, hnev⟩, hinit⟩ := hinit
  have hnev' : never.contains .init = false := by simpa using hnev
  cases hl : pus.lookup .init with
  | none => simp [hl] at hinit
  | some lg =>
    simp only [hl, Bool.and_eq_true, List.isEmpty_iff] at hinit
    obtain ⟨⟨hps, hex⟩, hinit⟩ := hinit
    have hor : CId.init ∈ order := hperm.mem_iff.mpr (by simpa using hroot)
    have hlist : initFirst order = .init :: order.erase .init := by
      simp [initFirst, hor]
    have hfire : fireOf evMem lg m = true := by
      obtain ⟨e, he⟩ := Option.isSome_iff_exists.mp hex
      cases e <;> simp [fireOf, fires, hps, he, evMem, hi]
    have hfn : runFn g sv pus never 5 .init m = doCall g sv .init m := by
      unfold runFn
      simp only [hl, hnev', Bool.false_eq_true, if_false, hfire, if_true]
    have hmi : (doCall g sv .init m).inited = true := by
      unfold doCall; split at hinit <;> simp_all
    have hl' : ∀ (fs : List CId) (m : Mem Θ V), m.inited = true →
        ∃ new, (fs.foldl (fun m f => runFn g sv pus never 5 f m) m).calls = new ++ m.calls ∧
          CId.init ∉ new := by
      intro fs
      induction fs with
      | nil => intro m _; exact ⟨[], rfl, by simp⟩
      | cons f fs ihl =>
        intro m hi
        obtain ⟨n1, h1, h2⟩ := (run_calls g sv pus never heff hg 5).2 f m hi
        obtain ⟨n2, h3, h4⟩ := ihl _ ((run_good g sv pus never heff 5).2 f m hi).inited
        refine ⟨n2 ++ n1, ?_, by simp [h2, h4]⟩
        rw [List.foldl_cons, h3, h1, List.append_assoc]
    obtain ⟨new, h1, h2⟩ := hl' (order.erase .init) _ hmi
    refine ⟨new, ?_, h2⟩
    rw [hrun, hlist, List.foldl_cons, hfn, h1, doCall_calls]

/-- Trace invariant: nothing before initialisation; initialisation is the first call and happens
once. -/
structure TraceInv (sv : Solver) (m : Mem Θ V) : Prop where
  before : m.inited = false → m.calls = []
  after : sv.static = false → m.inited = true → ∃ l, m.calls = l ++ [CId.init] ∧ CId.init ∉ l
  stat : sv.static = true → CId.init ∉ m.calls

theorem trace_ok (g : Gen Θ V Act) (hs : Sound g) (sv : Solver) (roots never order : List CId)
    (hf : StaticFacts sv g.quad g.changes roots never) (hperm : order.Perm roots)
    (hg : initGuard (norm g.quad sv.pus) = true)
    (toks : List Tok)
    (ht : ∀ s : Mem Θ V, execText evMem (doCall g sv) toks s
        = some (run (fireOf evMem) (doCall g sv) (norm g.quad sv.pus) never genFuel (some order) s)) :
    ∀ (cs : List (Call Act)) (m m' : Mem Θ V) (os : List (Obs V)), Inv g sv m → TraceInv sv m →
      g.runCalls sv toks m cs = some (m', os) → TraceInv sv m' := by
  intro cs
  induction cs with
  | nil => intro m m' os _ ht h; simp only [Gen.runCalls, Option.some.injEq, Prod.mk.injEq] at h
           rw [← h.1]; exact ht
  | cons c cs ih =>
    intro m m' os hinv htr h
    cases c with
    | update a =>
      exact ih (g.update a m) m' os (inv_update g hs sv a m hinv) ⟨htr.before, htr.after, htr.stat⟩ h
    | solve =>
      obtain ⟨m1, o, h1, h2, _, hin, _⟩ := solve_ok g hs sv roots never order hf hperm toks ht m hinv
      simp only [Gen.runCalls, h1] at h
      cases hr : g.runCalls sv toks m1 cs with
      | none => simp [hr] at h
      | some r =>
        obtain ⟨m2, os2⟩ := r
        simp only [hr, Option.some.injEq, Prod.mk.injEq] at h
        have hcalls : m1.calls = (run (fireOf evMem) (doCall g sv) (norm g.quad sv.pus) never genFuel
            (some order) (g.canonicalize m)).calls := by
          simp only [Gen.solve, ht, Option.some.injEq, Prod.mk.injEq] at h1
          rw [← h1.1]; rfl
        have htr1 : TraceInv sv m1 := by
          refine ⟨fun h' => absurd (hin.symm.trans h') (by decide), ?_, ?_⟩
          · intro hst _
            rw [hcalls]
            cases hi : m.inited with
            | true =>
              obtain ⟨new, h3, h4⟩ := (run_calls g sv _ never hf.eff hg genFuel).1 (some order)
                (g.canonicalize m) hi
              obtain ⟨l, h5, h6⟩ := htr.after hst hi
              refine ⟨new ++ l, ?_, by simp [h4, h6]⟩
              rw [h3]
              show new ++ m.calls = _
              rw [h5, List.append_assoc]
            | false =>
              have hio : initOK sv (norm g.quad sv.pus) roots never = true := by
                have := hf.ini; rw [hst, Bool.false_or] at this; exact this
              obtain ⟨new, h3, h4⟩ := run_calls_first g sv roots never order _ hperm hf.eff hg hio
                hf.one (g.canonicalize m) hi
              refine ⟨new, ?_, h4⟩
              rw [h3]
              show new ++ CId.init :: m.calls = _
              rw [htr.before hi]
          · intro hst
            rw [hcalls]
            obtain ⟨new, h3, h4⟩ := (run_calls g sv _ never hf.eff hg genFuel).1 (some order)
                (g.canonicalize m) (hinv.stat hst)
            rw [h3]
            show CId.init ∉ new ++ m.calls
            simp [h4, htr.stat hst]
        rw [← h.1]
        exact ih m1 m2 os2 h2 htr1 hr

/-! ### Quiet blocks -/

/-- State right after a solve: initialised, exactly the flags of non-changing parameters set. -/
def Settled (g : Gen Θ V Act) (m : Mem Θ V) : Prop :=
  m.inited = true ∧ ∀ p, m.flags p = !g.changes.getD p

theorem fires_settled (g : Gen Θ V Act) (m : Mem Θ V) (h : Settled g m) (lg : Logic) :
    fireOf evMem lg m = fires true lg (fun p => !g.changes.getD p) (fun e => e == .always) := by
  unfold fireOf
  congr 1
  · funext p; exact h.2 p
  · funext e; cases e <;> simp [evMem, h.1]

/-- Two interpretations of the same functions stay related. -/
theorem run_sim {σ τ : Type} (R : σ → τ → Prop) (fire1 : Logic → σ → Bool) (fire2 : Logic → τ → Bool)
    (call1 : CId → σ → σ) (call2 : CId → τ → τ) (hfire : ∀ lg s t, R s t → fire1 lg s = fire2 lg t)
    (hcall : ∀ f s t, R s t → R (call1 f s) (call2 f t)) (pus : Pus) (never : List CId) :
    ∀ fuel ofs s t, R s t → R (run fire1 call1 pus never fuel ofs s) (run fire2 call2 pus never fuel ofs t) := by
  intro fuel
  induction fuel with
  | zero => intro ofs s t h; cases ofs <;> exact h
  | succ fuel ih =>
    intro ofs s t h
    cases ofs with
    | none => exact h
    | some fs =>
      simp only [run]
      generalize initFirst fs = l
      induction l generalizing s t with
      | nil => exact h
      | cons f l ihl =>
        simp only [List.foldl_cons]
        apply ihl
        cases pus.lookup f with
        | none => exact h
        | some lg =>
          simp only []
          rw [hfire lg s t h]
          split
          · exact ih _ _ _ h
          · split
            · exact hcall f s t h
            · exact ih _ _ _ h

/-- The calls made by a block when nothing is outdated. -/
def idleCalls (pus : Pus) (never order : List CId) (ch : Changes) : List CId :=
  run (fun lg _ => fires true lg (fun p => !ch.getD p) (fun e => e == .always)) List.cons pus never
    genFuel (some order) []

theorem idle_run (g : Gen Θ V Act) (sv : Solver) (pus : Pus) (never order : List CId) (m : Mem Θ V)
    (h : Settled g m) :
    (run (fireOf evMem) (doCall g sv) pus never genFuel (some order) m).calls
      = idleCalls pus never order g.changes ++ m.calls := by
  have := run_sim (fun (s : Mem Θ V) (t : List CId) => Settled g s ∧ s.calls = t ++ m.calls)
    (fireOf evMem) (fun lg _ => fires true lg (fun p => !g.changes.getD p) (fun e => e == .always))
    (doCall g sv) List.cons (fun lg s t hs => fires_settled g s hs.1 lg)
    (fun f s t hs => by
      refine ⟨?_, by rw [doCall_calls, hs.2]; rfl⟩
      unfold doCall
      split
      · exact hs.1
      · exact ⟨rfl, hs.1.2⟩
      · exact ⟨rfl, hs.1.2⟩) pus never genFuel (some order) m [] ⟨h, rfl⟩
  exact this.2

theorem idle_append (fire : Logic → Bool) (pus : Pus) (never : List CId) (fuel : Nat)
    (ofs : Option (List CId)) (t : List CId) :
    run (fun lg _ => fire lg) List.cons pus never fuel ofs t
      = run (fun lg _ => fire lg) List.cons pus never fuel ofs [] ++ t :=
  run_sim (fun (s t' : List CId) => s = t' ++ t) (fun lg _ => fire lg) (fun lg _ => fire lg)
    List.cons List.cons (fun _ _ _ _ => rfl) (fun f s t' h => by rw [h]; rfl) pus never fuel ofs t []
    rfl

/-- Whether a block is idle does not depend on the order of its functions. -/
theorem idle_iff (pus : Pus) (never order : List CId) (ch : Changes) :
    idleCalls pus never order ch = [] ↔ ∀ f ∈ order, idleCalls pus never [f] ch = [] := by
  have hone : ∀ f, initFirst [f] = [f] := by
    intro f; by_cases h : f = CId.init
    · subst h; rfl
    · simp [initFirst, Ne.symm h]
  have key : ∀ (fs t : List CId),
      (fs.foldl (init := t) fun (s : List CId) f => match pus.lookup f with
        | none => s
        | some lg =>
            if never.contains f then run (fun lg _ => fires true lg (fun p => !ch.getD p) (fun e => e == .always)) List.cons pus never 5 lg.fif s
            else if fires true lg (fun p => !ch.getD p) (fun e => e == .always) then f :: s
            else run (fun lg _ => fires true lg (fun p => !ch.getD p) (fun e => e == .always)) List.cons pus never 5 lg.fif s) = []
      ↔ t = [] ∧ ∀ f ∈ fs, idleCalls pus never [f] ch = [] := by
    intro fs
    induction fs with
    | nil => intro t; simp
    | cons f fs ih =>
      intro t
      rw [List.foldl_cons, ih]
      have hf : idleCalls pus never [f] ch = (match pus.lookup f with
        | none => []
        | some lg =>
            if never.contains f then run (fun lg _ => fires true lg (fun p => !ch.getD p) (fun e => e == .always)) List.cons pus never 5 lg.fif []
            else if fires true lg (fun p => !ch.getD p) (fun e => e == .always) then [f]
            else run (fun lg _ => fires true lg (fun p => !ch.getD p) (fun e => e == .always)) List.cons pus never 5 lg.fif []) := by
        show (initFirst [f]).foldl _ _ = _
        rw [hone]; rfl
      simp only [List.mem_cons, forall_eq_or_imp]
      rw [hf, ← and_assoc]
      refine and_congr_left fun _ => ?_
      cases pus.lookup f with
      | none => simp
      | some lg =>
        simp only []
        split
        · rw [idle_append, List.append_eq_nil_iff, and_comm]
        · split
          · simp
          · rw [idle_append, List.append_eq_nil_iff, and_comm]
  have h := key (initFirst order) []
  simp only [true_and] at h
  have h2 : idleCalls pus never order ch = [] ↔ ∀ f ∈ initFirst order, idleCalls pus never [f] ch = [] := h
  rw [h2]
  exact forall_congr' fun f => by rw [(initFirst_perm order).mem_iff]

/-- Flags of non-changing parameters stay set. -/
theorem flags_const (g : Gen Θ V Act) (hs : Sound g) (sv : Solver) (roots never order : List CId)
    (hf : StaticFacts sv g.quad g.changes roots never) (hperm : order.Perm roots)
    (toks : List Tok)
    (ht : ∀ s : Mem Θ V, execText evMem (doCall g sv) toks s
        = some (run (fireOf evMem) (doCall g sv) (norm g.quad sv.pus) never genFuel (some order) s)) :
    ∀ (cs : List (Call Act)) (m m' : Mem Θ V) (os : List (Obs V)), Inv g sv m →
      (∀ p, g.changes.getD p = false → m.flags p = true) →
      g.runCalls sv toks m cs = some (m', os) →
      (∀ p, g.changes.getD p = false → m'.flags p = true) ∧ Inv g sv m' := by
  intro cs
  induction cs with
  | nil =>
    intro m m' os hi hfl h
    simp only [Gen.runCalls, Option.some.injEq, Prod.mk.injEq] at h
    rw [← h.1]; exact ⟨hfl, hi⟩
  | cons c cs ih =>
    intro m m' os hinv hfl h
    cases c with
    | update a =>
      refine ih (g.update a m) m' os (inv_update g hs sv a m hinv) ?_ h
      intro p hp
      simp only [Gen.update]; rw [hfl p hp, Bool.or_true]
    | solve =>
      obtain ⟨m1, o, h1, h2, _, hin, _⟩ := solve_ok g hs sv roots never order hf hperm toks ht m hinv
      simp only [Gen.runCalls, h1] at h
      cases hr : g.runCalls sv toks m1 cs with
      | none => simp [hr] at h
      | some r =>
        obtain ⟨m2, os2⟩ := r
        simp only [hr, Option.some.injEq, Prod.mk.injEq] at h
        rw [← h.1]
        refine ih m1 m2 os2 h2 ?_ hr
        intro p hp
        have hb := block_ok g sv roots never order (norm g.quad sv.pus) hperm hf.cov hf.eff hf.ini
          hf.one (g.canonicalize m) hinv.stat
        simp only [Gen.solve, ht, Option.some.injEq, Prod.mk.injEq] at h1
        rw [← h1.1]
        simp only [Gen.resetFlags, Gen.chg, hp, Bool.false_eq_true, if_false]
        rw [hb.flags]; exact hfl p hp

/-- After a solve, flags are settled. -/
theorem solve_settled (g : Gen Θ V Act) (hs : Sound g) (sv : Solver) (roots never order : List CId)
    (hf : StaticFacts sv g.quad g.changes roots never) (hperm : order.Perm roots)
    (toks : List Tok)
    (ht : ∀ s : Mem Θ V, execText evMem (doCall g sv) toks s
        = some (run (fireOf evMem) (doCall g sv) (norm g.quad sv.pus) never genFuel (some order) s))
    (m m' : Mem Θ V) (o : Obs V) (hinv : Inv g sv m)
    (hfl : ∀ p, g.changes.getD p = false → m.flags p = true)
    (h : g.solve sv toks m = some (m', o)) : Settled g m' := by
  have hb := block_ok g sv roots never order (norm g.quad sv.pus) hperm hf.cov hf.eff hf.ini
    hf.one (g.canonicalize m) hinv.stat
  simp only [Gen.solve, ht, Option.some.injEq, Prod.mk.injEq] at h
  rw [← h.1]
  refine ⟨hb.inited, fun p => ?_⟩
  show (if g.changes.getD p = true then false else _) = _
  by_cases hp : g.changes.getD p = true
  · rw [if_pos hp, hp]; rfl
  · rw [if_neg hp, hb.flags]
    have hp' : g.changes.getD p = false := by simpa using hp
    rw [hp']; exact hfl p hp'

theorem canonicalize_settled (g : Gen Θ V Act) (m : Mem Θ V) (h : Settled g m) :
    g.canonicalize m = m := by
  unfold Gen.canonicalize
  have : (fun p => if (g.chg p && m.flags p) = true then g.canonOf p m.θ else m.canon p) = m.canon := by
    funext p
    rw [h.2 p]
    simp [Gen.chg]
  rw [this]

/-- No call when nothing is outdated, evaluated on the solver's table. -/
def idle (sv : Solver) (quad : Bool) (ch : Changes) : Bool :=
  match analyzePus sv.pus genFuel ch with
  | .error _ => false
  | .ok (roots, never) => roots.all fun f => idleCalls (norm quad sv.pus) never [f] ch == []

/-- When a solver makes no call if nothing is outdated: explicit description. -/
def idlePattern (k : Kind) (quad lp : Bool) (ch : Changes) : Bool :=
  match k with
  | .osqp | .qoco | .qocogen => true
  | .scs => !quad || ch.getD .P == ch.getD .A
  | .ecos => ch.getD .A == ch.getD .b && ch.getD .A == ch.getD .G
  | .clarabel => !lp

theorem idle_all (k : Kind) (quad lp : Bool) (hk : k.possible quad lp = true) (b : CId → Bool) :
    idle (k.solver quad lp) quad (changesOf (k.canonIds quad) b)
      = idlePattern k quad lp (changesOf (k.canonIds quad) b) := by
  refine forall_changes k quad (fun ch => idle (k.solver quad lp) quad ch = idlePattern k quad lp ch) ?_ b
  revert k quad lp
  intro k
  cases k <;> decide +kernel

theorem guard_all (k : Kind) (quad lp : Bool) (hk : k.possible quad lp = true)
    (hc : ¬ (k = .clarabel ∧ lp = true)) :
    initGuard (norm quad (k.solver quad lp).pus) = true := by
  revert k quad lp
  intro k
  cases k <;> decide +kernel

end Verif.Lemmas
