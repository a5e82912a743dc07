import Verif.Spec.Runtime
import Verif.Lemmas.UpdateStructure
/-!
Invariants of the generated program's state machine.
-/
namespace Verif.Lemmas
open Verif.Model Verif.Spec

variable {Θ V Act : Type}

/-- Canonical parameters handed over by a call. -/
def pushes (sv : Solver) (f p : CId) : Bool :=
  match sv.effect f with
  | .push ps => ps.contains p
  | .initPush ps => ps.contains p
  | .initGen => false

/-- The flag of `p` alone makes the condition true. -/
def implied (lg : Logic) (p : CId) : Bool :=
  lg.params.contains p && (lg.op == some .or || lg.params == [p])

/-- Static analysis: on an initialised solver, running `f` while `p` is flagged hands `p` over. -/
def covers (sv : Solver) (pus : Pus) (never : List CId) (p : CId) : Nat → CId → Bool
  | 0, _ => false
  | fuel + 1, f =>
      match pus.lookup f with
      | none => false
      | some lg =>
          let child := (lg.fif.getD []).any (covers sv pus never p fuel)
          if never.contains f then child
          else match lg.extra with
            | some .notInit => lg.params.isEmpty && child
            | some .always => lg.params.isEmpty && pushes sv f p
            | none => pushes sv f p && (implied lg p || child)

/-- `load_data`-like functions only fire on an uninitialised solver. -/
def effectsOK (sv : Solver) (pus : Pus) : Bool :=
  pus.all fun kv => match sv.effect kv.1 with
    | .initGen => kv.2.extra == some .notInit && kv.2.params.isEmpty
    | _ => true

/-- Initialisation is a root that fires on an uninitialised solver and provides all data. -/
def initOK (sv : Solver) (pus : Pus) (roots never : List CId) : Bool :=
  roots.contains .init && !never.contains .init &&
  match pus.lookup .init with
  | none => false
  | some lg =>
      lg.params.isEmpty && lg.extra.isSome &&
      match sv.effect .init with
      | .initPush ps => sv.uses.all ps.contains
      | .initGen => lg.fif.isNone
      | .push _ => false

/-- All static conditions on a table for one pattern of changing parameters. -/
def staticOK (sv : Solver) (quad : Bool) (ch : Changes) : Bool :=
  match analyzePus sv.pus genFuel ch with
  | .error _ => false
  | .ok (roots, never) =>
      let np := norm quad sv.pus
      nestOK np never genFuel false (some roots) && condsOK np never &&
      (sv.uses.all fun p => !ch.getD p || roots.any (covers sv np never p genFuel)) &&
      effectsOK sv np && (sv.static || initOK sv np roots never) &&
      sv.pus.all (fun kv => decide (kv.2.params.count .P ≤ 1)) &&
      decide ((sv.pus.map Prod.fst).Nodup) &&
      (!roots.contains .init || decide (roots.count .init = 1))

/-- Effect of a block on an initialised solver. -/
structure Good (m m' : Mem Θ V) : Prop where
  θ : m'.θ = m.θ
  flags : m'.flags = m.flags
  canon : m'.canon = m.canon
  inited : m'.inited = true
  bad : m'.bad = m.bad
  data : ∀ p, m'.solver p = m.canon p ∨ m'.solver p = m.solver p

theorem Good.refl {m : Mem Θ V} (h : m.inited = true) : Good m m :=
  ⟨rfl, rfl, rfl, h, rfl, fun _ => Or.inr rfl⟩

theorem Good.trans {m m' m'' : Mem Θ V} (h : Good m m') (h' : Good m' m'') : Good m m'' := by
  refine ⟨by rw [h'.θ, h.θ], by rw [h'.flags, h.flags], by rw [h'.canon, h.canon], h'.inited,
    by rw [h'.bad, h.bad], fun p => ?_⟩
  rcases h'.data p with h1 | h1
  · left; rw [h1, h.canon]
  · rw [h1]; exact h.data p

/-- Once handed over, a parameter stays handed over. -/
theorem Good.keep {m m' m'' : Mem Θ V} (h : Good m m') (h' : Good m' m'') {p : CId}
    (hp : m'.solver p = m.canon p) : m''.solver p = m.canon p := by
  rcases h'.data p with h1 | h1
  · rw [h1, h.canon]
  · rw [h1, hp]

/-- One function of a list, as in the specification. -/
def runFn (g : Gen Θ V Act) (sv : Solver) (pus : Pus) (never : List CId) (fuel : Nat) (f : CId)
    (m : Mem Θ V) : Mem Θ V :=
  match pus.lookup f with
  | none => m
  | some lg =>
      if never.contains f then run (fireOf evMem) (doCall g sv) pus never fuel lg.fif m
      else if fireOf evMem lg m then doCall g sv f m
      else run (fireOf evMem) (doCall g sv) pus never fuel lg.fif m

theorem run_succ (g : Gen Θ V Act) (sv : Solver) (pus : Pus) (never : List CId) (fuel : Nat)
    (fs : List CId) (m : Mem Θ V) :
    run (fireOf evMem) (doCall g sv) pus never (fuel + 1) (some fs) m
      = (initFirst fs).foldl (fun m f => runFn g sv pus never fuel f m) m := rfl

theorem good_call (g : Gen Θ V Act) (sv : Solver) (f : CId) (m : Mem Θ V)
    (hi : m.inited = true) (he : sv.effect f ≠ .initGen) : Good m (doCall g sv f m) := by
  unfold doCall
  cases h : sv.effect f with
  | push ps =>
    refine ⟨rfl, rfl, rfl, hi, by simp [hi], fun p => ?_⟩
    simp only []; split <;> simp
  | initPush ps =>
    refine ⟨rfl, rfl, rfl, rfl, rfl, fun p => ?_⟩
    simp only []; split <;> simp
  | initGen => exact absurd h he

theorem call_pushes (g : Gen Θ V Act) (sv : Solver) (f p : CId) (m : Mem Θ V)
    (h : pushes sv f p = true) : (doCall g sv f m).solver p = m.canon p := by
  unfold doCall pushes at *
  split <;> simp_all

theorem foldl_good (g : Gen Θ V Act) (sv : Solver) (pus : Pus) (never : List CId) (fuel : Nat)
    (hstep : ∀ f m, m.inited = true → Good m (runFn g sv pus never fuel f m)) :
    ∀ (fs : List CId) (m : Mem Θ V), m.inited = true →
      Good m (fs.foldl (fun m f => runFn g sv pus never fuel f m) m) := by
  intro fs
  induction fs with
  | nil => intro m hi; exact Good.refl hi
  | cons f fs ih =>
    intro m hi
    have h1 := hstep f m hi
    exact h1.trans (ih _ h1.inited)

theorem effect_ne_initGen {sv : Solver} {pus : Pus} (h : effectsOK sv pus = true) {f : CId}
    {lg : Logic} (hl : pus.lookup f = some lg) (m : Mem Θ V) (hi : m.inited = true)
    (hf : fireOf evMem lg m = true) : sv.effect f ≠ .initGen := by
  intro he
  have h1 := List.all_eq_true.mp h _ (mem_of_lookup hl)
  simp only [he, Bool.and_eq_true, beq_iff_eq, List.isEmpty_iff] at h1
  simp [fireOf, fires, h1.1, h1.2, evMem, hi] at hf

theorem run_good (g : Gen Θ V Act) (sv : Solver) (pus : Pus) (never : List CId)
    (heff : effectsOK sv pus = true) :
    ∀ fuel, (∀ ofs (m : Mem Θ V), m.inited = true →
        Good m (run (fireOf evMem) (doCall g sv) pus never fuel ofs m)) ∧
      (∀ f (m : Mem Θ V), m.inited = true → Good m (runFn g sv pus never fuel f m)) := by
  have hfn : ∀ fuel, (∀ ofs (m : Mem Θ V), m.inited = true →
        Good m (run (fireOf evMem) (doCall g sv) pus never fuel ofs m)) →
      (∀ f (m : Mem Θ V), m.inited = true → Good m (runFn g sv pus never fuel f m)) := by
    intro fuel hrun f m hi
    unfold runFn
    cases hl : pus.lookup f with
    | none => exact Good.refl hi
    | some lg =>
      simp only []
      split
      · exact hrun _ _ hi
      · split
        · rename_i hf
          exact good_call g sv f m hi (effect_ne_initGen heff hl m hi hf)
        · exact hrun _ _ hi
  intro fuel
  induction fuel with
  | zero =>
    have : ∀ ofs (m : Mem Θ V), m.inited = true →
        Good m (run (fireOf evMem) (doCall g sv) pus never 0 ofs m) := by
      intro ofs m hi; cases ofs <;> exact Good.refl hi
    exact ⟨this, hfn 0 this⟩
  | succ fuel ih =>
    have : ∀ ofs (m : Mem Θ V), m.inited = true →
        Good m (run (fireOf evMem) (doCall g sv) pus never (fuel + 1) ofs m) := by
      intro ofs m hi
      cases ofs with
      | none => exact Good.refl hi
      | some fs => rw [run_succ]; exact foldl_good g sv pus never fuel ih.2 _ m hi
    exact ⟨this, hfn _ this⟩

/-- If some function of a list establishes hand-over of `p`, so does the list. -/
theorem foldl_covers (g : Gen Θ V Act) (sv : Solver) (pus : Pus) (never : List CId) (fuel : Nat)
    (heff : effectsOK sv pus = true) (p : CId) (f0 : CId)
    (hc : ∀ m : Mem Θ V, m.inited = true → m.flags p = true →
      (runFn g sv pus never fuel f0 m).solver p = m.canon p) :
    ∀ (fs : List CId), f0 ∈ fs → ∀ m : Mem Θ V, m.inited = true → m.flags p = true →
      (fs.foldl (fun m f => runFn g sv pus never fuel f m) m).solver p = m.canon p := by
  have hstep := (run_good g sv pus never heff fuel).2
  intro fs
  induction fs with
  | nil => intro h; simp at h
  | cons f fs ih =>
    intro hmem m hi hflag
    have h1 := hstep f m hi
    simp only [List.foldl_cons]
    rcases List.mem_cons.mp hmem with h | h
    · subst h
      exact h1.keep (foldl_good g sv pus never fuel hstep fs _ h1.inited) (hc m hi hflag)
    · rw [ih h _ h1.inited (by rw [h1.flags]; exact hflag), h1.canon]

theorem runFn_covers (g : Gen Θ V Act) (sv : Solver) (pus : Pus) (never : List CId)
    (heff : effectsOK sv pus = true) (p : CId) :
    ∀ (fuel : Nat) (f : CId), covers sv pus never p (fuel + 1) f = true →
      ∀ m : Mem Θ V, m.inited = true → m.flags p = true →
        (runFn g sv pus never fuel f m).solver p = m.canon p := by
  intro fuel
  induction fuel with
  | zero =>
    intro f hc m hi hflag
    unfold covers at hc
    unfold runFn
    cases hl : pus.lookup f with
    | none => simp [hl] at hc
    | some lg =>
      simp only [hl] at hc ⊢
      have hno : (lg.fif.getD []).any (covers sv pus never p 0) = false := by
        rw [List.any_eq_false]; intro x _; simp [covers]
      rw [hno] at hc
      cases hn : never.contains f with
      | true => simp only [hn, if_true, Bool.false_eq_true] at hc
      | false =>
        simp only [hn, Bool.false_eq_true, if_false] at hc ⊢
        rcases he : lg.extra with _ | _ | _
        · simp only [he, Bool.or_false, Bool.and_eq_true] at hc
          have hfire : fireOf evMem lg m = true := by
            have h2 := hc.2
            simp only [implied, Bool.and_eq_true, List.contains_iff_mem, Bool.or_eq_true,
              beq_iff_eq] at h2
            simp only [fireOf, fires, if_true, he, flagsHold]
            rcases h2.2 with h3 | h3
            · simp only [h3, List.any_eq_true]; exact ⟨p, h2.1, hflag⟩
            · rw [h3]; split <;> simp [evMem, hflag]
          simp only [hfire, if_true]
          exact call_pushes g sv f p m hc.1
        · simp [he] at hc
        · simp only [he, Bool.and_eq_true, List.isEmpty_iff] at hc
          have hfire : fireOf evMem lg m = true := by
            simp [fireOf, fires, he, hc.1, evMem]
          simp only [hfire, if_true]
          exact call_pushes g sv f p m hc.2
  | succ fuel ih =>
    intro f hc m hi hflag
    unfold covers at hc
    unfold runFn
    cases hl : pus.lookup f with
    | none => simp [hl] at hc
    | some lg =>
      simp only [hl] at hc ⊢
      have hchild : (lg.fif.getD []).any (covers sv pus never p (fuel + 1)) = true →
          (run (fireOf evMem) (doCall g sv) pus never (fuel + 1) lg.fif m).solver p = m.canon p := by
        intro h
        cases hfif : lg.fif with
        | none => simp [hfif] at h
        | some fs =>
          simp only [hfif, Option.getD_some, List.any_eq_true] at h
          obtain ⟨f0, hf0, hcov⟩ := h
          rw [run_succ]
          exact foldl_covers g sv pus never fuel heff p f0 (ih f0 hcov) (initFirst fs)
            ((initFirst_perm fs).mem_iff.mpr hf0) m hi hflag
      cases hn : never.contains f with
      | true => simp only [hn, if_true] at hc ⊢; exact hchild hc
      | false =>
        simp only [hn, Bool.false_eq_true, if_false] at hc ⊢
        rcases he : lg.extra with _ | _ | _
        · simp only [he, Bool.and_eq_true, Bool.or_eq_true] at hc
          cases hfire : fireOf evMem lg m with
          | true => simp only [if_true]; exact call_pushes g sv f p m hc.1
          | false =>
            simp only [Bool.false_eq_true, if_false]
            rcases hc.2 with h2 | h2
            · exfalso
              simp only [implied, Bool.and_eq_true, List.contains_iff_mem, Bool.or_eq_true,
                beq_iff_eq] at h2
              simp only [fireOf, fires, if_true, he, flagsHold] at hfire
              rcases h2.2 with h3 | h3
              · simp only [h3, List.any_eq_false] at hfire; exact hfire p h2.1 hflag
              · rw [h3] at hfire; split at hfire <;> simp [evMem, hflag] at hfire
            · exact hchild h2
        · simp only [he, Bool.and_eq_true, List.isEmpty_iff] at hc
          have hfire : fireOf evMem lg m = false := by
            simp [fireOf, fires, he, hc.1, evMem, hi]
          simp only [hfire, Bool.false_eq_true, if_false]
          exact hchild hc.2
        · simp only [he, Bool.and_eq_true, List.isEmpty_iff] at hc
          have hfire : fireOf evMem lg m = true := by
            simp [fireOf, fires, he, hc.1, evMem]
          simp only [hfire, if_true]
          exact call_pushes g sv f p m hc.2

/-- What a block does: all flagged parameters that are covered are handed over; on an uninitialised
solver the initialisation makes all data available. -/
structure BlockOK (g : Gen Θ V Act) (sv : Solver) (m m' : Mem Θ V) : Prop where
  θ : m'.θ = m.θ
  flags : m'.flags = m.flags
  canon : m'.canon = m.canon
  inited : m'.inited = true
  bad : m'.bad = m.bad
  fresh : ∀ p ∈ sv.uses, g.chg p = true → m.flags p = true → m'.solver p = m.canon p
  old : m.inited = true → ∀ p, m'.solver p = m.canon p ∨ m'.solver p = m.solver p
  first : m.inited = false → ∀ p ∈ sv.uses,
    m'.solver p = m.canon p ∨ m'.solver p = g.canon0 p

theorem block_ok (g : Gen Θ V Act) (sv : Solver) (roots never order : List CId)
    (pus : Pus) (hperm : order.Perm roots)
    (hcov : (sv.uses.all fun p => !g.changes.getD p ||
      roots.any (covers sv pus never p genFuel)) = true)
    (heff : effectsOK sv pus = true)
    (hinit : (sv.static || initOK sv pus roots never) = true)
    (hone : (!roots.contains .init || decide (roots.count .init = 1)) = true)
    (m : Mem Θ V) (hst : sv.static = true → m.inited = true) :
    BlockOK g sv m (run (fireOf evMem) (doCall g sv) pus never genFuel (some order) m) := by
  have hrun : run (fireOf evMem) (doCall g sv) pus never genFuel (some order) m
      = (initFirst order).foldl (fun m f => runFn g sv pus never 5 f m) m := run_succ ..
  rw [hrun]
  have hstep := (run_good g sv pus never heff 5).2
  cases hi : m.inited with
  | true =>
    have hgood := foldl_good g sv pus never 5 hstep (initFirst order) m hi
    refine ⟨hgood.θ, hgood.flags, hgood.canon, hgood.inited, hgood.bad, ?_, ?_, ?_⟩
    · intro p hp hch hfl
      have h1 := List.all_eq_true.mp hcov p hp
      have hch' : g.changes.getD p = true := hch
      simp only [hch', Bool.not_true, Bool.false_or, List.any_eq_true] at h1
      obtain ⟨f0, hf0, hc⟩ := h1
      exact foldl_covers g sv pus never 5 heff p f0 (runFn_covers g sv pus never heff p 5 f0 hc)
        (initFirst order) ((initFirst_perm order).mem_iff.mpr (hperm.mem_iff.mpr hf0)) m hi hfl
    · intro _ p; exact hgood.data p
    · intro h; rw [hi] at h; cases h
  | false =>
    have hns : sv.static = false := by
      cases hs : sv.static with
      | false => rfl
      | true => rw [hst hs] at hi; cases hi
    rw [hns, Bool.false_or] at hinit
    unfold initOK at hinit
    simp only [Bool.and_eq_true] at hinit
    obtain ⟨⟨hroot, hnev⟩, hinit⟩ := hinit
    have hnev' : never.contains .init = false := by simpa using hnev
    cases hl : pus.lookup .init with
    | none => simp [hl] at hinit
    | some lg =>
      simp only [hl, Bool.and_eq_true, List.isEmpty_iff] at hinit
      obtain ⟨⟨hps, hex⟩, hinit⟩ := hinit
      have hor : CId.init ∈ order := hperm.mem_iff.mpr (by simpa using hroot)
      have hlist : initFirst order = .init :: order.erase .init := by
        simp [initFirst, hor]
      have hfire : fireOf evMem lg m = true := by
        obtain ⟨e, he⟩ := Option.isSome_iff_exists.mp hex
        cases e <;> simp [fireOf, fires, hps, he, evMem, hi]
      have hfn : runFn g sv pus never 5 .init m = doCall g sv .init m := by
        unfold runFn
        simp only [hl, hnev', Bool.false_eq_true, if_false, hfire, if_true]
      rw [hlist]
      simp only [List.foldl_cons, hfn]
      have hmi : (doCall g sv .init m).inited = true := by
        unfold doCall; split at hinit <;> simp_all
      have hmb : (doCall g sv .init m).bad = m.bad := by
        unfold doCall; split at hinit <;> simp_all
      have hmθ : (doCall g sv .init m).θ = m.θ := by unfold doCall; split <;> rfl
      have hmf : (doCall g sv .init m).flags = m.flags := by unfold doCall; split <;> rfl
      have hmc : (doCall g sv .init m).canon = m.canon := by unfold doCall; split <;> rfl
      have hgood := foldl_good g sv pus never 5 hstep (order.erase .init) _ hmi
      refine ⟨by rw [hgood.θ, hmθ], by rw [hgood.flags, hmf], by rw [hgood.canon, hmc],
        hgood.inited, by rw [hgood.bad, hmb], ?_, ?_, ?_⟩
      · intro p hp hch hfl
        split at hinit
        · rename_i ps hps'
          have hpp : pushes sv .init p = true := by
            simp only [pushes, hps']
            exact List.all_eq_true.mp hinit p hp
          have h1 := call_pushes g sv .init p m hpp
          rcases hgood.data p with h2 | h2
          · rw [h2, hmc]
          · rw [h2, h1]
        · rename_i hps'
          have h1 := List.all_eq_true.mp hcov p hp
          have hch' : g.changes.getD p = true := hch
          simp only [hch', Bool.not_true, Bool.false_or, List.any_eq_true] at h1
          obtain ⟨f0, hf0, hc⟩ := h1
          have hne : f0 ≠ .init := by
            intro h0
            subst h0
            have hfif : lg.fif = none := by simpa using hinit
            obtain ⟨e, he⟩ := Option.isSome_iff_exists.mp hex
            cases e <;> simp [covers, genFuel, hl, hnev', hfif, he, pushes, hps'] at hc
          rw [← hmc]
          exact foldl_covers g sv pus never 5 heff p f0
            (runFn_covers g sv pus never heff p 5 f0 hc) (order.erase .init)
            ((List.mem_erase_of_ne hne).mpr (hperm.mem_iff.mpr hf0)) _ hmi (by rw [hmf]; exact hfl)
        · simp at hinit
      · intro h; rw [hi] at h; cases h
      · intro _ p hp
        split at hinit
        · rename_i ps hps'
          have hpp : pushes sv .init p = true := by
            simp only [pushes, hps']
            exact List.all_eq_true.mp hinit p hp
          have h1 := call_pushes g sv .init p m hpp
          rcases hgood.data p with h2 | h2
          · left; rw [h2, hmc]
          · left; rw [h2, h1]
        · rename_i hps'
          rcases hgood.data p with h2 | h2
          · left; rw [h2, hmc]
          · right; rw [h2]; simp [doCall, hps']
        · simp at hinit

end Verif.Lemmas
