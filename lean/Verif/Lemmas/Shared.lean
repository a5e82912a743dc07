import Verif.Spec.Shared
import Verif.Lemmas.StaticTables
import Mathlib.Data.List.Induction
/-!
What a call of `generate_code` does to the class attributes.
-/
namespace Verif.Lemmas.Shared
open Verif.Model Verif.Model.Dispatch Verif.Model.Shared Verif.Spec.Shared Verif.Lemmas

/-- The update structure of SCS after `'P'` was removed. -/
def scsDropped : Pus := norm false (scs true).pus

theorem norm_true (p : Pus) : norm true p = p := by
  unfold norm
  have : (fun kv : CId × Logic => (kv.1, dropP true kv.2)) = id := by
    funext kv
    simp [dropP]
  rw [this, List.map_id]

theorem genBlock_perm {pus : Pus} {quad : Bool} {ch : Changes} {roots never : List CId}
    (h : analyzePus pus genFuel ch = .ok (roots, never)) (order : List CId → List CId) :
    genBlock pus quad ch order = writeUpdate quad never genFuel pus (some (order roots)) 0 := by
  unfold genBlock
  simp only [h, bind, Except.bind]

/-- For the solvers' own tables, nothing is raised. -/
theorem genBlock_static (k : Kind) (quad lp : Bool) (hk : k.possible quad lp = true) (b : CId → Bool)
    (order : List CId → List CId) (hperm : ∀ l, (order l).Perm l) :
    ∃ toks p, genBlock (k.solver quad lp).pus quad (changesOf (k.canonIds quad) b) order = .ok (toks, p) ∧
      norm quad p = norm quad (k.solver quad lp).pus := by
  obtain ⟨roots, never, hf⟩ := staticFacts (static_all k quad lp hk b)
  rw [genBlock_perm hf.analyze]
  obtain ⟨p, hw, hm⟩ := writeUpdate_eq quad never _ hf.nodup genFuel _ (some (order roots)) 0
    ⟨rfl, hf.countP⟩ (nestOK_perm _ _ _ _ _ (hperm roots) hf.nest)
  exact ⟨_, p, hw, hm.1⟩

/-- Result of `genBlock` as data that can be compared. -/
def res (r : Except PyErr (List Tok × Pus)) : Option (List Tok × Pus) :=
  match r with
  | .ok x => some x
  | .error _ => none

theorem res_some {r : Except PyErr (List Tok × Pus)} {x : List Tok × Pus} (h : res r = some x) :
    r = .ok x := by
  unfold res at h
  split at h
  · cases h; rfl
  · cases h

/-- The roots of the SCS structure are always `init` alone. -/
def onlyInit (pus : Pus) (ch : Changes) : Bool :=
  match analyzePus pus genFuel ch with
  | .ok (roots, _) => roots == [.init]
  | .error _ => false

theorem scs_order {pus : Pus} {ch : Changes} (h : onlyInit pus ch = true) (quad : Bool)
    (order : List CId → List CId) (hperm : ∀ l, (order l).Perm l) :
    genBlock pus quad ch order = genBlock pus quad ch id := by
  unfold onlyInit at h
  split at h
  · rename_i roots never ha
    have hr : roots = [.init] := by simpa using h
    subst hr
    rw [genBlock_perm ha, genBlock_perm ha, List.perm_singleton.mp (hperm [.init])]
    rfl
  · cases h

theorem scs_only (quad : Bool) (b : CId → Bool) :
    onlyInit (scs true).pus (changesOf (Kind.scs.canonIds quad) b) = true ∧
      onlyInit scsDropped (changesOf (Kind.scs.canonIds quad) b) = true := by
  refine forall_changes .scs quad (fun ch => onlyInit (scs true).pus ch = true ∧ onlyInit scsDropped ch = true) ?_ b
  revert quad
  decide +kernel

theorem scs_quad (b : CId → Bool) :
    (res (genBlock (scs true).pus true (changesOf (Kind.scs.canonIds true) b) id)).map Prod.snd
        = some (scs true).pus ∧
      (res (genBlock scsDropped true (changesOf (Kind.scs.canonIds true) b) id)).map Prod.snd
        = some scsDropped := by
  refine forall_changes .scs true (fun ch =>
    (res (genBlock (scs true).pus true ch id)).map Prod.snd = some (scs true).pus ∧
    (res (genBlock scsDropped true ch id)).map Prod.snd = some scsDropped) ?_ b
  decide +kernel

theorem scs_lin (b : CId → Bool) :
    (res (genBlock (scs true).pus false (changesOf (Kind.scs.canonIds false) b) id)).map Prod.snd
        = some scsDropped ∧
      res (genBlock scsDropped false (changesOf (Kind.scs.canonIds false) b) id)
        = res (genBlock (scs true).pus false (changesOf (Kind.scs.canonIds false) b) id) := by
  refine forall_changes .scs false (fun ch =>
    (res (genBlock (scs true).pus false ch id)).map Prod.snd = some scsDropped ∧
    res (genBlock scsDropped false ch id) = res (genBlock (scs true).pus false ch id)) ?_ b
  decide +kernel

theorem of_map_snd {r : Except PyErr (List Tok × Pus)} {p : Pus} (h : (res r).map Prod.snd = some p) :
    ∃ toks, r = .ok (toks, p) := by
  cases hr : res r with
  | none => rw [hr] at h; cases h
  | some x =>
    obtain ⟨t, q⟩ := x
    rw [hr] at h
    cases h
    exact ⟨t, res_some hr⟩

/-- What the update structures can be. -/
structure Reach (s : Classes) : Prop where
  osqp : s.pusOsqp = Model.osqp.pus
  scs : s.pusScs = (scs true).pus ∨ s.pusScs = scsDropped

/-- The classes after the update block was written. -/
def after (s : Classes) (c : Call) : Classes :=
  if c.iface = .scs ∧ c.quad = false then { s with pusScs := scsDropped } else s

theorem Reach.after {s : Classes} (h : Reach s) (c : Call) : Reach (after s c) := by
  unfold Shared.after
  split
  · exact ⟨h.osqp, Or.inr rfl⟩
  · exact h

/-- The own table of an interface whose structure is made in `__init__`. -/
theorem block_own (s s0 : Classes) (c : Call) (k : Kind) (hk : kindOf c.iface = some k)
    (hpus : pusOf s c = (k.solver c.quad c.lp).pus) (hpus0 : pusOf s0 c = (k.solver c.quad c.lp).pus)
    (hput : ∀ (s : Classes) p, putPus s c p = s) (hns : c.iface ≠ .scs)
    (hv : Valid c) : ∃ toks, block s c = .ok (toks, after s c) ∧ block s0 c = .ok (toks, after s0 c) := by
  obtain ⟨hp, b, hb⟩ := hv.keys k hk
  obtain ⟨toks, p, hg, _⟩ := genBlock_static k c.quad c.lp hp b c.order hv.perm
  have ha : ∀ s : Classes, Shared.after s c = s := by
    intro s; unfold Shared.after; rw [if_neg (fun h => hns h.1)]
  have hne : ¬ c.iface = .pdaqp := by
    intro h; rw [h] at hk; cases hk
  refine ⟨toks, ?_, ?_⟩
  · unfold block
    rw [if_neg hne, hpus, hb, hg]
    simp only [hput, ha]
  · unfold block
    rw [if_neg hne, hpus0, hb, hg]
    simp only [hput, ha]

/-- Writing the update block: what it does to the classes, and when the text is the one of a fresh
process. -/
theorem block_spec (s : Classes) (hR : Reach s) (c : Call) (hv : Valid c) :
    ∃ toks, block s c = .ok (toks, after s c) ∧
      ((c.iface = .scs → c.quad = true → s.pusScs = (scs true).pus) →
        block fresh c = .ok (toks, after fresh c)) := by
  cases hi : c.iface with
  | pdaqp =>
    have ha : ∀ s : Classes, Shared.after s c = s := by
      intro s; unfold Shared.after; rw [if_neg (fun h => by rw [hi] at h; cases h.1)]
    refine ⟨[], ?_, fun _ => ?_⟩
    · unfold block; rw [if_pos hi, ha]
    · unfold block; rw [if_pos hi, ha]
  | ecos =>
    obtain ⟨t, h1, h2⟩ := block_own s fresh c .ecos (by rw [hi]; rfl) (by unfold pusOf; rw [hi]; rfl)
      (by unfold pusOf; rw [hi]; rfl) (fun s p => by unfold putPus; rw [hi]) (by rw [hi]; decide) hv
    exact ⟨t, h1, fun _ => h2⟩
  | clarabel =>
    obtain ⟨t, h1, h2⟩ := block_own s fresh c .clarabel (by rw [hi]; rfl) (by unfold pusOf; rw [hi]; rfl)
      (by unfold pusOf; rw [hi]; rfl) (fun s p => by unfold putPus; rw [hi]) (by rw [hi]; decide) hv
    exact ⟨t, h1, fun _ => h2⟩
  | qoco =>
    obtain ⟨t, h1, h2⟩ := block_own s fresh c .qoco (by rw [hi]; rfl) (by unfold pusOf; rw [hi]; rfl)
      (by unfold pusOf; rw [hi]; rfl) (fun s p => by unfold putPus; rw [hi]) (by rw [hi]; decide) hv
    exact ⟨t, h1, fun _ => h2⟩
  | qocogen =>
    obtain ⟨t, h1, h2⟩ := block_own s fresh c .qocogen (by rw [hi]; rfl) (by unfold pusOf; rw [hi]; rfl)
      (by unfold pusOf; rw [hi]; rfl) (fun s p => by unfold putPus; rw [hi]) (by rw [hi]; decide) hv
    exact ⟨t, h1, fun _ => h2⟩
  | osqp =>
    obtain ⟨hp, b, hb⟩ := hv.keys .osqp (by rw [hi]; rfl)
    have hq : c.quad = true := hp
    obtain ⟨toks, p, hg, hn⟩ := genBlock_static .osqp c.quad c.lp hp b c.order hv.perm
    rw [hq, norm_true, norm_true] at hn
    have hg' : genBlock Model.osqp.pus c.quad c.changes c.order = .ok (toks, p) := by
      rw [hb]; exact hg
    have hn' : p = Model.osqp.pus := hn
    have ha : ∀ s : Classes, Shared.after s c = s := by
      intro s; unfold Shared.after; rw [if_neg (fun h => by rw [hi] at h; cases h.1)]
    have key : ∀ s : Classes, s.pusOsqp = Model.osqp.pus → block s c = .ok (toks, Shared.after s c) := by
      intro s hs
      unfold block pusOf putPus
      rw [if_neg (by rw [hi]; decide)]
      simp only [hi]
      rw [hs, hg', ha, hn']
      simp only [← hs]
    exact ⟨toks, key s hR.osqp, fun _ => key fresh rfl⟩
  | scs =>
    obtain ⟨hp, b, hb⟩ := hv.keys .scs (by rw [hi]; rfl)
    have ho := scs_only c.quad b
    rw [← hb] at ho
    have hred : ∀ (s : Classes), block s c = match genBlock s.pusScs c.quad c.changes c.order with
        | .ok (toks, p) => .ok (toks, { s with pusScs := p })
        | .error e => .error (.py e) := by
      intro s
      unfold block pusOf putPus
      rw [if_neg (by rw [hi]; decide)]
      simp only [hi]
      cases genBlock s.pusScs c.quad c.changes c.order <;> rfl
    cases hq : c.quad with
    | true =>
      have ha : ∀ s : Classes, Shared.after s c = s := by
        intro s; unfold Shared.after; rw [if_neg (fun h => by rw [hq] at h; cases h.2)]
      have hs := scs_quad b
      rw [hq] at hb
      rw [← hb] at hs
      obtain ⟨t1, h1⟩ := of_map_snd hs.1
      obtain ⟨t2, h2⟩ := of_map_snd hs.2
      rcases hR.scs with hs1 | hs1
      · have key : ∀ s : Classes, s.pusScs = (scs true).pus → block s c = .ok (t1, Shared.after s c) := by
          intro s hs
          rw [hred, hs, hq, scs_order ho.1 true c.order hv.perm, h1, ha]
          simp only [← hs]
        exact ⟨t1, key s hs1, fun _ => key fresh rfl⟩
      · refine ⟨t2, ?_, fun h => ?_⟩
        · rw [hred, hs1, hq, scs_order ho.2 true c.order hv.perm, h2, ha]
          simp only [← hs1]
        · have := h rfl rfl
          rw [hs1] at this
          exact absurd this (by decide +kernel)
    | false =>
      have ha : ∀ s : Classes, Shared.after s c = { s with pusScs := scsDropped } := by
        intro s; unfold Shared.after; rw [if_pos ⟨hi, hq⟩]
      have hs := scs_lin b
      rw [hq] at hb
      rw [← hb] at hs
      obtain ⟨t1, h1⟩ := of_map_snd hs.1
      have h2 : genBlock scsDropped false c.changes id = .ok (t1, scsDropped) := by
        apply res_some
        rw [hs.2, h1]
        rfl
      have key : ∀ s : Classes, s.pusScs = (scs true).pus ∨ s.pusScs = scsDropped →
          block s c = .ok (t1, Shared.after s c) := by
        intro s hs
        rcases hs with hs | hs
        · rw [hred, hs, hq, scs_order ho.1 false c.order hv.perm, h1, ha]
        · rw [hred, hs, hq, scs_order ho.2 false c.order hv.perm, h2, ha]
      exact ⟨t1, key s hR.scs, fun _ => key fresh (Or.inl rfl)⟩

/-! ### effect of a call -/

theorem put_self {α : Type} (f : Iface → α) (i : Iface) : put f i (f i) = f := by
  funext j
  unfold put
  split
  · rename_i h; rw [h]
  · rfl

theorem put_put {α : Type} (f : Iface → α) (i : Iface) (a b : α) : put (put f i a) i b = put f i b := by
  funext j
  unfold put
  split <;> rfl

theorem put_same {α : Type} (f : Iface → α) (i : Iface) (a : α) : put f i a i = a := if_pos rfl

theorem put_other {α : Type} (f : Iface → α) (i j : Iface) (a : α) (h : j ≠ i) : put f i a j = f j := if_neg h

/-- Names of the enabled settings. -/
def names (l : List (Text.Txt × Bool)) : List Text.Txt := (l.filter fun t => t.2).map Prod.fst

/-- The settings of a call's interface are configured. -/
def configured (s : Classes) (c : Call) : Classes :=
  { s with stgs := put s.stgs c.iface (configure c.enable (s.stgs c.iface)) }

theorem writeSolve_spec (s : Classes) (hR : Reach s) (c : Call) (hv : Valid c) (ws : Text.Txt × Text.Txt)
    (hf : c.fails ≠ some .beforeUpdate) :
    ∃ toks, (writeSolve s c ws = if c.fails = some .afterUpdate then (after s c, .error (.failed .afterUpdate))
        else (after s c, .ok (Out.mk (names (s.stgs c.iface)) ws (s.ptrs c.iface) toks))) ∧
      ((c.iface = .scs → c.quad = true → s.pusScs = (scs true).pus) →
        block fresh c = .ok (toks, after fresh c)) := by
  obtain ⟨toks, hb, hfr⟩ := block_spec s hR c hv
  refine ⟨toks, ?_, hfr⟩
  have hst : (after s c).stgs = s.stgs := by unfold Shared.after; split <;> rfl
  have hpt : (after s c).ptrs = s.ptrs := by unfold Shared.after; split <;> rfl
  unfold writeSolve
  rw [if_neg hf, hb]
  simp only [hst, hpt, names]

/-- The classes after a call that is not stopped early. -/
theorem gen_fst (s : Classes) (hR : Reach s) (c : Call) (hv : Valid c) :
    (gen s c).1 =
      if c.fails = some .beforeInterface then s
      else if c.fails = some .beforeWriting then configured s c
      else if c.fails = some .inWorkspace then
        (if c.twoStage = true then { configured s c with ptrs := put s.ptrs c.iface (redirect c (s.ptrs c.iface)) }
         else configured s c)
      else if c.fails = some .beforeUpdate then configured s c
      else after (configured s c) c := by
  have hRc : Reach (configured s c) := ⟨hR.osqp, hR.scs⟩
  unfold gen
  by_cases h1 : c.fails = some .beforeInterface
  · rw [if_pos h1, if_pos h1]
  rw [if_neg h1, if_neg h1]
  by_cases h2 : c.fails = some .beforeWriting
  · simp only [if_pos h2]; rfl
  simp only [if_neg h2]
  show (write (configured s c) c).1 = _
  unfold write
  by_cases h3 : c.fails = some .inWorkspace
  · cases ht : c.twoStage with
    | true => rw [if_pos rfl]; simp only [if_pos h3]; rfl
    | false => rw [if_neg (by decide)]; simp only [if_pos h3]; rfl
  simp only [if_neg h3]
  have hsolve : ∀ ws, (writeSolve (configured s c) c ws).1
      = if c.fails = some .beforeUpdate then configured s c else after (configured s c) c := by
    intro ws
    by_cases h4 : c.fails = some .beforeUpdate
    · unfold writeSolve; rw [if_pos h4, if_pos h4]
    · rw [if_neg h4]
      obtain ⟨toks, hw, _⟩ := writeSolve_spec _ hRc c hv ws h4
      rw [hw]
      split <;> rfl
  cases ht : c.twoStage with
  | true =>
    rw [if_pos rfl]
    rw [put_put, put_self]
    exact hsolve _
  | false =>
    rw [if_neg (by decide)]
    exact hsolve _

/-- The outcome of a call. -/
theorem gen_snd (s : Classes) (hR : Reach s) (c : Call) (hv : Valid c) :
    ∃ toks, ((gen s c).2 = match c.fails with
      | some p => .error (.failed p)
      | none => .ok (Out.mk (names (configure c.enable (s.stgs c.iface)))
          (if c.twoStage = true then redirect c (s.ptrs c.iface) else s.ptrs c.iface) (s.ptrs c.iface) toks)) ∧
      ((c.iface = .scs → c.quad = true → s.pusScs = (scs true).pus) →
        block fresh c = .ok (toks, after fresh c)) := by
  have hRc : Reach (configured s c) := ⟨hR.osqp, hR.scs⟩
  obtain ⟨toks, hb, hfr⟩ := block_spec (configured s c) hRc c hv
  refine ⟨toks, ?_, hfr⟩
  have hst : (after (configured s c) c).stgs = (configured s c).stgs := by unfold Shared.after; split <;> rfl
  have hpt : (after (configured s c) c).ptrs = s.ptrs := by unfold Shared.after; split <;> rfl
  unfold gen
  by_cases h1 : c.fails = some .beforeInterface
  · rw [if_pos h1, h1]
  rw [if_neg h1]
  by_cases h2 : c.fails = some .beforeWriting
  · simp only [if_pos h2]; rw [h2]
  simp only [if_neg h2]
  show (write (configured s c) c).2 = _
  have hsolve : ∀ ws, c.fails ≠ some .inWorkspace → (writeSolve (configured s c) c ws).2
      = match c.fails with
        | some p => .error (.failed p)
        | none => .ok (Out.mk (names (configure c.enable (s.stgs c.iface))) ws (s.ptrs c.iface) toks) := by
    intro ws h3
    unfold writeSolve
    rw [hb]
    cases hf : c.fails with
    | none =>
      rw [if_neg (by decide)]
      simp only [hst, hpt]
      rw [if_neg (by decide)]
      simp only [configured, put_same, names]
    | some p => cases p <;> simp_all
  unfold write
  by_cases h3 : c.fails = some .inWorkspace
  · rw [h3]
    cases ht : c.twoStage with
    | true => rw [if_pos rfl]; rfl
    | false => rw [if_neg (by decide)]; rfl
  cases ht : c.twoStage with
  | true =>
    rw [if_pos rfl]
    simp only [if_neg h3]
    rw [put_put, put_self, put_same]
    exact hsolve _ h3
  | false =>
    rw [if_neg (by decide), if_neg h3]
    exact hsolve _ h3

theorem Reach.gen {s : Classes} (hR : Reach s) (c : Call) (hv : Valid c) : Reach (gen s c).1 := by
  have hc : Reach (configured s c) := ⟨hR.osqp, hR.scs⟩
  rw [gen_fst s hR c hv]
  split
  · exact hR
  · split
    · exact hc
    · split
      · split
        · exact ⟨hR.osqp, hR.scs⟩
        · exact hc
      · split
        · exact hc
        · exact hc.after c

theorem Reach.fresh : Reach fresh := ⟨rfl, Or.inl rfl⟩

theorem Reach.history (s : Classes) (h : Reach s) (cs : List Call) (hv : ∀ c ∈ cs, Valid c) :
    Reach (history s cs) := by
  induction cs using List.reverseRecOn with
  | nil => exact h
  | append_singleton cs c ih =>
    unfold Model.Shared.history
    rw [List.foldl_append]
    exact Reach.gen (ih fun x hx => hv x (by simp [hx])) c (hv c (by simp))

end Verif.Lemmas.Shared
