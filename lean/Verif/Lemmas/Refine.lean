import Verif.Lemmas.Runtime
/-!
The refinement of the update/solve state machine to "solve with the current parameters".
-/
namespace Verif.Lemmas
open Verif.Model Verif.Spec

variable {Θ V Act : Type}

/-- `staticOK` unpacked. -/
structure StaticFacts (sv : Solver) (quad : Bool) (ch : Changes) (roots never : List CId) : Prop where
  analyze : analyzePus sv.pus genFuel ch = .ok (roots, never)
  nest : nestOK (norm quad sv.pus) never genFuel false (some roots) = true
  conds : condsOK (norm quad sv.pus) never = true
  cov : (sv.uses.all fun p => !ch.getD p || roots.any (covers sv (norm quad sv.pus) never p genFuel)) = true
  eff : effectsOK sv (norm quad sv.pus) = true
  ini : (sv.static || initOK sv (norm quad sv.pus) roots never) = true
  countP : ∀ kv ∈ sv.pus, kv.2.params.count .P ≤ 1
  nodup : (sv.pus.map Prod.fst).Nodup
  one : (!roots.contains .init || decide (roots.count .init = 1)) = true

theorem staticFacts {sv : Solver} {quad : Bool} {ch : Changes} (h : staticOK sv quad ch = true) :
    ∃ roots never, StaticFacts sv quad ch roots never := by
  unfold staticOK at h
  split at h
  · cases h
  · rename_i roots never hr
    simp only [Bool.and_eq_true] at h
    obtain ⟨⟨⟨⟨⟨⟨⟨h1, h2⟩, h3⟩, h4⟩, h5⟩, h6⟩, h7⟩, h8⟩ := h
    refine ⟨roots, never, hr, h1, h2, h3, h4, h5, ?_, by simpa using h7, h8⟩
    intro kv hkv
    simpa using List.all_eq_true.mp h6 kv hkv

/-- Invariant between API calls. -/
structure Inv (g : Gen Θ V Act) (sv : Solver) (m : Mem Θ V) : Prop where
  bad : m.bad = false
  stat : sv.static = true → m.inited = true
  canon : ∀ p, m.flags p = false ∨ g.chg p = false → m.canon p = g.canonOf p m.θ
  data : m.inited = true → ∀ p ∈ sv.uses, m.flags p = false ∨ g.chg p = false →
    m.solver p = g.canonOf p m.θ
  first : m.inited = false → ∀ p, m.flags p = true

theorem inv_init (g : Gen Θ V Act) (hs : Sound g) (sv : Solver) (junk : CId → V) :
    Inv g sv (g.initMem sv junk) := by
  have hw : ∀ p, (g.initMem sv junk).flags p = false ∨ g.chg p = false →
      g.canon0 p = g.canonOf p g.θ0 := by
    intro p hp
    rcases hp with hp | hp
    · exact absurd hp (by simp [Gen.initMem])
    · exact hs.written p _ hp
  refine ⟨rfl, fun h => h, hw, ?_, fun _ _ => rfl⟩
  intro h p _ hp
  simp only [Gen.initMem] at h ⊢
  rw [h]; exact hw p hp

theorem inv_update (g : Gen Θ V Act) (hs : Sound g) (sv : Solver) (a : Act) (m : Mem Θ V)
    (h : Inv g sv m) : Inv g sv (g.update a m) := by
  have key : ∀ p, (g.update a m).flags p = false ∨ g.chg p = false →
      (m.flags p = false ∨ g.chg p = false) ∧ g.canonOf p (g.assign a m.θ) = g.canonOf p m.θ := by
    intro p hp
    rcases hp with hp | hp
    · simp only [Gen.update, Bool.or_eq_false_iff] at hp
      exact ⟨Or.inl hp.2, hs.marks a p _ (by simpa using hp.1)⟩
    · exact ⟨Or.inr hp, hs.const p _ _ hp⟩
  refine ⟨h.bad, h.stat, ?_, ?_, ?_⟩
  · intro p hp
    obtain ⟨h1, h2⟩ := key p hp
    show m.canon p = g.canonOf p (g.assign a m.θ)
    rw [h2]; exact h.canon p h1
  · intro hi p hu hp
    obtain ⟨h1, h2⟩ := key p hp
    show m.solver p = g.canonOf p (g.assign a m.θ)
    rw [h2]; exact h.data hi p hu h1
  · intro hi p
    simp only [Gen.update]
    rw [h.first hi p, Bool.or_true]

theorem canonicalize_fresh (g : Gen Θ V Act) (sv : Solver) (m : Mem Θ V) (h : Inv g sv m) (p : CId) :
    (g.canonicalize m).canon p = g.canonOf p m.θ := by
  simp only [Gen.canonicalize]
  split
  · rfl
  · rename_i hn
    apply h.canon p
    cases hf : m.flags p with
    | false => exact Or.inl rfl
    | true =>
      right
      cases hc : g.chg p with
      | false => rfl
      | true => simp [hf, hc] at hn

/-- One solve: observation is fresh, invariant is kept, the parameter vector is unchanged. -/
theorem solve_ok (g : Gen Θ V Act) (hs : Sound g) (sv : Solver) (roots never order : List CId)
    (hf : StaticFacts sv g.quad g.changes roots never) (hperm : order.Perm roots)
    (toks : List Tok)
    (ht : ∀ s : Mem Θ V, execText evMem (doCall g sv) toks s
        = some (run (fireOf evMem) (doCall g sv) (norm g.quad sv.pus) never genFuel (some order) s))
    (m : Mem Θ V) (h : Inv g sv m) :
    ∃ m' o, g.solve sv toks m = some (m', o) ∧ Inv g sv m' ∧ m'.θ = m.θ ∧ m'.inited = true ∧
      Fresh g.canonOf sv.uses m.θ o := by
  have hst : sv.static = true → (g.canonicalize m).inited = true := h.stat
  have hb := block_ok g sv roots never order (norm g.quad sv.pus) hperm hf.cov hf.eff hf.ini hf.one
    (g.canonicalize m) hst
  generalize hm1 : run (fireOf evMem) (doCall g sv) (norm g.quad sv.pus) never genFuel (some order)
    (g.canonicalize m) = m1 at hb
  have hcanon : ∀ p, m1.canon p = g.canonOf p m.θ := by
    intro p; rw [hb.canon]; exact canonicalize_fresh g sv m h p
  have hθ : m1.θ = m.θ := hb.θ
  have hdata : ∀ p ∈ sv.uses, m1.solver p = g.canonOf p m.θ := by
    intro p hp
    cases hc : g.chg p with
    | true =>
      cases hfl : m.flags p with
      | true => rw [hb.fresh p hp hc hfl]; exact canonicalize_fresh g sv m h p
      | false =>
        have hi : m.inited = true := by
          cases hi : m.inited with
          | true => rfl
          | false => rw [h.first hi p] at hfl; cases hfl
        rcases hb.old hi p with h1 | h1
        · rw [h1]; exact canonicalize_fresh g sv m h p
        · rw [h1]; exact h.data hi p hp (Or.inl hfl)
    | false =>
      cases hi : m.inited with
      | true =>
        rcases hb.old hi p with h1 | h1
        · rw [h1]; exact canonicalize_fresh g sv m h p
        · rw [h1]; exact h.data hi p hp (Or.inr hc)
      | false =>
        rcases hb.first hi p hp with h1 | h1
        · rw [h1]; exact canonicalize_fresh g sv m h p
        · rw [h1]; exact hs.written p _ hc
  refine ⟨g.resetFlags m1, { data := m1.solver, offset := m1.canon .d }, ?_, ?_, hθ, hb.inited,
    hdata, hcanon .d⟩
  · unfold Gen.solve; rw [ht, hm1]
  · refine ⟨?_, fun _ => hb.inited, ?_, ?_, ?_⟩
    · show m1.bad = false
      rw [hb.bad]; exact h.bad
    · intro p _
      show m1.canon p = g.canonOf p m1.θ
      rw [hθ]; exact hcanon p
    · intro _ p hp _
      show m1.solver p = g.canonOf p m1.θ
      rw [hθ]; exact hdata p hp
    · intro hi
      have hi' : m1.inited = false := hi
      rw [hb.inited] at hi'; cases hi'

/-- Any history: the observations are exactly those of the specification. -/
theorem runCalls_ok (g : Gen Θ V Act) (hs : Sound g) (sv : Solver) (roots never order : List CId)
    (hf : StaticFacts sv g.quad g.changes roots never) (hperm : order.Perm roots)
    (toks : List Tok)
    (ht : ∀ s : Mem Θ V, execText evMem (doCall g sv) toks s
        = some (run (fireOf evMem) (doCall g sv) (norm g.quad sv.pus) never genFuel (some order) s)) :
    ∀ (cs : List (Call Act)) (m : Mem Θ V), Inv g sv m →
      ∃ m' os, g.runCalls sv toks m cs = some (m', os) ∧ Inv g sv m' ∧
        List.Forall₂ (Fresh g.canonOf sv.uses) (solveParams g.assign m.θ cs) os := by
  intro cs
  induction cs with
  | nil => intro m h; exact ⟨m, [], rfl, h, List.Forall₂.nil⟩
  | cons c cs ih =>
    intro m h
    cases c with
    | update a =>
      obtain ⟨m', os, h1, h2, h3⟩ := ih _ (inv_update g hs sv a m h)
      exact ⟨m', os, h1, h2, h3⟩
    | solve =>
      obtain ⟨m1, o, h1, h2, h3, _, h4⟩ := solve_ok g hs sv roots never order hf hperm toks ht m h
      obtain ⟨m', os, h5, h6, h7⟩ := ih m1 h2
      refine ⟨m', o :: os, ?_, h6, ?_⟩
      · simp only [Gen.runCalls, h1, h5]
      · rw [h3] at h7
        exact List.Forall₂.cons h4 h7

/-- The generator emits a block with the specified meaning. -/
theorem genBlock_ok (g : Gen Θ V Act) (sv : Solver) (order : List CId → List CId)
    (horder : ∀ l, (order l).Perm l) (h : staticOK sv g.quad g.changes = true) :
    ∃ toks pus' roots never, genBlock sv.pus g.quad g.changes order = .ok (toks, pus') ∧
      StaticFacts sv g.quad g.changes roots never ∧
      ∀ s : Mem Θ V, execText evMem (doCall g sv) toks s
        = some (run (fireOf evMem) (doCall g sv) (norm g.quad sv.pus) never genFuel
            (some (order roots)) s) := by
  obtain ⟨roots, never, hf⟩ := staticFacts h
  obtain ⟨toks, pus', h1, h2⟩ := text_meaning g.quad sv.pus never roots (order roots) genFuel evMem
    (doCall g sv) hf.nodup hf.countP hf.nest hf.conds (horder roots)
  refine ⟨toks, pus', roots, never, ?_, hf, h2⟩
  unfold genBlock
  rw [hf.analyze]
  exact h1

theorem refine (g : Gen Θ V Act) (hs : Sound g) (sv : Solver) (order : List CId → List CId)
    (horder : ∀ l, (order l).Perm l) (h : staticOK sv g.quad g.changes = true) (junk : CId → V)
    (cs : List (Call Act)) :
    ∃ toks pus' m' os, genBlock sv.pus g.quad g.changes order = .ok (toks, pus') ∧
      g.runCalls sv toks (g.initMem sv junk) cs = some (m', os) ∧ m'.bad = false ∧
      List.Forall₂ (Fresh g.canonOf sv.uses) (solveParams g.assign g.θ0 cs) os := by
  obtain ⟨toks, pus', roots, never, h1, hf, ht⟩ := genBlock_ok g sv order horder h
  obtain ⟨m', os, h2, h3, h4⟩ := runCalls_ok g hs sv roots never (order roots) hf (horder roots) toks
    ht cs _ (inv_init g hs sv junk)
  exact ⟨toks, pus', m', os, h1, h2, h3.bad, h4⟩

end Verif.Lemmas
