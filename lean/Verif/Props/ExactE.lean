import Verif.Props.Shared
/-!
# C22: what earlier calls leave in settings and pointers, for all histories
-/
namespace Verif.Props
open Verif.Model Verif.Model.Text Verif.Model.Dispatch Verif.Model.Shared

theorem put_at {α : Type} (f : Iface → α) (i j : Iface) (a : α) : put f i a j = if j = i then a else f j := rfl

theorem block_keeps (s s' : Classes) (c : Call) (toks : List Tok) (h : block s c = .ok (toks, s')) : s'.stgs = s.stgs ∧ s'.ptrs = s.ptrs := by
  unfold block at h
  split at h
  · cases h; exact ⟨rfl, rfl⟩
  · split at h
    · cases h
      unfold putPus
      split <;> exact ⟨rfl, rfl⟩
    · cases h

theorem writeSolve_keeps (s : Classes) (c : Call) (ws : Txt × Txt) :
    (writeSolve s c ws).1.stgs = s.stgs ∧ (writeSolve s c ws).1.ptrs = s.ptrs ∧
    ∀ out, (writeSolve s c ws).2 = .ok out →
      out.settings = ((s.stgs c.iface).filter fun t => t.2).map Prod.fst ∧ out.wsPtrs = ws ∧ out.solvePtrs = s.ptrs c.iface := by
  unfold writeSolve
  split
  · exact ⟨rfl, rfl, fun out h => by cases h⟩
  · split
    · exact ⟨rfl, rfl, fun out h => by cases h⟩
    · rename_i toks s' hb
      obtain ⟨h1, h2⟩ := block_keeps s s' c toks hb
      split
      · exact ⟨h1, h2, fun out h => by cases h⟩
      · refine ⟨h1, h2, fun out h => ?_⟩
        cases h
        exact ⟨by rw [h1], rfl, by rw [h2]⟩

/-- What a call does to settings and pointers of each class. -/
theorem gen_effect (s : Classes) (c : Call) (i : Iface) :
    (gen s c).1.stgs i = (if c.iface = i ∧ c.fails ≠ some .beforeInterface then configure c.enable (s.stgs i) else s.stgs i) ∧
    (gen s c).1.ptrs i = (if c.iface = i ∧ c.twoStage = true ∧ c.fails = some .inWorkspace then redirect c (s.ptrs i) else s.ptrs i) ∧
    ∀ out, (gen s c).2 = .ok out →
      out.settings = ((configure c.enable (s.stgs c.iface)).filter fun t => t.2).map Prod.fst ∧
      out.wsPtrs = (if c.twoStage = true then redirect c (s.ptrs c.iface) else s.ptrs c.iface) ∧ out.solvePtrs = s.ptrs c.iface := by
  have hput : ∀ f : List (Txt × Bool) → List (Txt × Bool), put s.stgs c.iface (f (s.stgs c.iface)) i = if c.iface = i then f (s.stgs i) else s.stgs i := by
    intro f
    rw [put_at]
    by_cases h : c.iface = i
    · subst h; simp
    · rw [if_neg h, if_neg (fun e => h e.symm)]
  have hput' : put s.ptrs c.iface (redirect c (s.ptrs c.iface)) i = if c.iface = i then redirect c (s.ptrs i) else s.ptrs i := by
    rw [put_at]
    by_cases h : c.iface = i
    · subst h; simp
    · rw [if_neg h, if_neg (fun e => h e.symm)]
  have hsame : ∀ (f : Iface → Txt × Txt), put (put s.ptrs c.iface (f c.iface)) c.iface (s.ptrs c.iface) = s.ptrs := by
    intro f
    funext j
    rw [put_at, put_at]
    by_cases h : j = c.iface
    · subst h; simp
    · rw [if_neg h, if_neg h]
  unfold gen
  by_cases h1 : c.fails = some .beforeInterface
  · rw [if_pos h1]
    refine ⟨?_, ?_, fun out h => by cases h⟩
    · rw [if_neg (fun h => h.2 h1)]
    · rw [if_neg (fun h => by rw [h1] at h; simp at h)]
  · rw [if_neg h1]
    simp only
    by_cases h2 : c.fails = some .beforeWriting
    · rw [if_pos h2]
      refine ⟨?_, ?_, fun out h => by cases h⟩
      · show put s.stgs c.iface (configure c.enable (s.stgs c.iface)) i = _
        rw [hput]; simp [h1]
      · rw [if_neg (fun h => by rw [h2] at h; simp at h)]
    · rw [if_neg h2]
      unfold write
      by_cases h3 : c.twoStage = true
      · rw [if_pos h3]
        simp only
        by_cases h4 : c.fails = some .inWorkspace
        · rw [if_pos h4]
          refine ⟨?_, ?_, fun out h => by cases h⟩
          · show put s.stgs c.iface (configure c.enable (s.stgs c.iface)) i = _
            rw [hput]; simp [h1]
          · show put s.ptrs c.iface (redirect c (s.ptrs c.iface)) i = _
            rw [hput']; simp [h3, h4]
        · rw [if_neg h4]
          obtain ⟨w1, w2, w3⟩ := writeSolve_keeps
            { s with
              stgs := put s.stgs c.iface (configure c.enable (s.stgs c.iface))
              ptrs := put (put s.ptrs c.iface (redirect c (s.ptrs c.iface))) c.iface (s.ptrs c.iface) } c
            (put s.ptrs c.iface (redirect c (s.ptrs c.iface)) c.iface)
          refine ⟨?_, ?_, fun out h => ?_⟩
          · rw [w1]
            show put s.stgs c.iface (configure c.enable (s.stgs c.iface)) i = _
            rw [hput]; simp [h1]
          · rw [w2, if_neg (fun h => h4 h.2.2)]
            exact congrFun (hsame fun j => redirect c (s.ptrs j)) i
          · obtain ⟨a, b, d⟩ := w3 out h
            refine ⟨?_, ?_, ?_⟩
            · rw [a]
              simp [put_at]
            · rw [b, if_pos h3]
              simp [put_at]
            · rw [d]
              exact congrFun (hsame fun j => redirect c (s.ptrs j)) c.iface
      · rw [if_neg h3]
        by_cases h4 : c.fails = some .inWorkspace
        · rw [if_pos h4]
          refine ⟨?_, ?_, fun out h => by cases h⟩
          · show put s.stgs c.iface (configure c.enable (s.stgs c.iface)) i = _
            rw [hput]; simp [h1]
          · rw [if_neg (fun h => h3 h.2.1)]
        · rw [if_neg h4]
          obtain ⟨w1, w2, w3⟩ := writeSolve_keeps
            { s with stgs := put s.stgs c.iface (configure c.enable (s.stgs c.iface)) } c (s.ptrs c.iface)
          refine ⟨?_, ?_, fun out h => ?_⟩
          · rw [w1]
            show put s.stgs c.iface (configure c.enable (s.stgs c.iface)) i = _
            rw [hput]; simp [h1]
          · rw [w2, if_neg (fun h => h3 h.2.1)]
          · obtain ⟨a, b, d⟩ := w3 out h
            refine ⟨?_, ?_, d⟩
            · rw [a]
              simp [put_at]
            · rw [b, if_neg h3]

theorem history_snoc (s : Classes) (cs : List Call) (c : Call) : history s (cs ++ [c]) = (gen (history s cs) c).1 := by
  unfold history; rw [List.foldl_append]; rfl

/-- A name can be set: it is a setting of the interface, and enabled in the class, by `asked`. -/
def Offered (i : Iface) (asked : Txt → Prop) (n : Txt) : Prop := ∃ b, (n, b) ∈ settings0 i ∧ (b = true ∨ asked n)

theorem history_stgs (hist : List Call) (i : Iface) (n : Txt) :
    (n, true) ∈ (history fresh hist).stgs i ↔
      Offered i (fun n => ∃ h ∈ hist, h.iface = i ∧ h.fails ≠ some .beforeInterface ∧ n ∈ h.enable) n := by
  have key : (history fresh hist).stgs i = (settings0 i).map fun s =>
      (s.1, s.2 || hist.any fun h => decide (h.iface = i ∧ h.fails ≠ some .beforeInterface) && h.enable.contains s.1) := by
    induction hist using List.reverseRecOn with
    | nil => simp [history, fresh]
    | append_singleton hist c ih =>
      rw [history_snoc, (gen_effect _ c i).1, ih]
      by_cases hc : c.iface = i ∧ c.fails ≠ some .beforeInterface
      · rw [if_pos hc]
        unfold configure
        rw [List.map_map]
        apply List.map_congr_left
        intro s _
        simp [List.any_append, hc, Bool.or_assoc]
      · rw [if_neg hc]
        apply List.map_congr_left
        intro s _
        rw [List.any_append, List.any_cons, decide_eq_false hc]
        simp
  rw [key]
  unfold Offered
  simp only [List.mem_map, Prod.mk.injEq, Bool.or_eq_true, List.any_eq_true, Bool.and_eq_true, decide_eq_true_eq, List.contains_iff_mem]
  constructor
  · rintro ⟨⟨m, b⟩, h1, rfl, h2⟩
    refine ⟨b, h1, h2.imp id ?_⟩
    rintro ⟨h, a1, ⟨a2, a3⟩, a4⟩
    exact ⟨h, a1, a2, a3, a4⟩
  · rintro ⟨b, h1, h2⟩
    refine ⟨(n, b), h1, rfl, h2.imp id ?_⟩
    rintro ⟨h, a1, a2, a3, a4⟩
    exact ⟨h, a1, ⟨a2, a3⟩, a4⟩

/-- **C22 (settings, exact)** After any history of calls, the generated code offers exactly the settings that are enabled in the class, by
this call, or by any earlier call for the same interface that got as far as creating it. -/
theorem C22_settings_exact (hist : List Call) (c : Call) (out : Out) (ho : (gen (history fresh hist) c).2 = .ok out) (n : Txt) :
    n ∈ out.settings ↔ Offered c.iface (fun n => n ∈ c.enable ∨
      ∃ h ∈ hist, h.iface = c.iface ∧ h.fails ≠ some .beforeInterface ∧ n ∈ h.enable) n := by
  have hf : c.fails ≠ some .beforeInterface := by
    intro hf
    unfold gen at ho
    rw [if_pos hf] at ho
    cases ho
  have h1 := ((gen_effect (history fresh hist) c c.iface).2.2 out ho).1
  have h2 := history_stgs (hist ++ [c]) c.iface n
  rw [history_snoc, (gen_effect _ c c.iface).1, if_pos ⟨rfl, hf⟩] at h2
  rw [h1]
  have h3 : n ∈ ((configure c.enable ((history fresh hist).stgs c.iface)).filter fun t => t.2).map Prod.fst ↔
      (n, true) ∈ configure c.enable ((history fresh hist).stgs c.iface) := by
    simp only [List.mem_map, List.mem_filter]
    constructor
    · rintro ⟨⟨m, b⟩, ⟨h4, h5⟩, rfl⟩
      simp only at h5
      subst h5
      exact h4
    · intro h
      exact ⟨_, ⟨h, rfl⟩, rfl⟩
  rw [h3, h2]
  unfold Offered
  refine exists_congr fun b => and_congr_right fun _ => or_congr_right ?_
  constructor
  · rintro ⟨h, a1, a2, a3, a4⟩
    rcases List.mem_append.1 a1 with a1 | a1
    · exact Or.inr ⟨h, a1, a2, a3, a4⟩
    · rw [List.mem_singleton.1 a1] at a4
      exact Or.inl a4
  · rintro (h | ⟨h, a1, a2, a3, a4⟩)
    · exact ⟨c, by simp, rfl, hf, h⟩
    · exact ⟨h, List.mem_append_left _ a1, a2, a3, a4⟩

/-- The call stops while the workspace of two-stage mode is written. -/
def stopped (i : Iface) (h : Call) : Bool := decide (h.iface = i ∧ h.twoStage = true ∧ h.fails = some .inWorkspace)

theorem history_ptrs (hist : List Call) (i : Iface) :
    (history fresh hist).ptrs i =
      ((match (hist.filter fun h => stopped i h && h.retPrim).getLast? with
        | some h => "gradient_".toList ++ h.pfx ++ "sol_x".toList
        | none => (ptrs0 i).1),
       match (hist.filter (stopped i)).getLast? with
        | some h => "gradient_".toList ++ h.pfx ++ "sol_y".toList
        | none => (ptrs0 i).2) := by
  induction hist using List.reverseRecOn with
  | nil => rfl
  | append_singleton hist c ih =>
    rw [history_snoc, (gen_effect _ c i).2.1, ih]
    by_cases hc : c.iface = i ∧ c.twoStage = true ∧ c.fails = some .inWorkspace
    · have hs : stopped i c = true := decide_eq_true hc
      rw [if_pos hc, List.filter_append, List.filter_append]
      cases hr : c.retPrim with
      | true => simp [redirect, hs, hr]
      | false => simp [redirect, hs, hr]
    · have hs : stopped i c = false := decide_eq_false hc
      rw [if_neg hc, List.filter_append, List.filter_append]
      simp [hs]

/-- **C22 (pointers, exact)** After any history of calls, the code of `cpg_solve` reads the solution from the arrays of the interface
exactly until a call for this interface stops while the workspace of two-stage mode is written; afterwards from the arrays of the latest
such call. -/
theorem C22_pointers_exact (hist : List Call) (c : Call) (out : Out) (ho : (gen (history fresh hist) c).2 = .ok out) :
    out.solvePtrs =
      ((match (hist.filter fun h => stopped c.iface h && h.retPrim).getLast? with
        | some h => "gradient_".toList ++ h.pfx ++ "sol_x".toList
        | none => (ptrs0 c.iface).1),
       match (hist.filter (stopped c.iface)).getLast? with
        | some h => "gradient_".toList ++ h.pfx ++ "sol_y".toList
        | none => (ptrs0 c.iface).2) := by
  rw [((gen_effect (history fresh hist) c c.iface).2.2 out ho).2.2, history_ptrs]

/-- The hypothesis is met after a call with a further setting, and after one that stopped. -/
example : (∃ out, (gen (history fresh [shPolish]) shPlain).2 = .ok out ∧ "polishing".toList ∈ out.settings ∧
      "delta".toList ∉ out.settings) ∧
    ∃ out, (gen (history fresh [shBroken]) shQuad).2 = .ok out ∧ out.solvePtrs = ("gradient_sol_x".toList, "gradient_sol_y".toList) := by
  constructor
  · have h : ∃ out, (gen (history fresh [shPolish]) shPlain).2 = .ok out := ⟨_, rfl⟩
    obtain ⟨out, h⟩ := h
    refine ⟨out, h, ?_, ?_⟩
    · rw [C22_settings_exact _ _ _ h]
      exact ⟨false, by decide, Or.inr (Or.inr ⟨shPolish, by simp, rfl, by decide, by decide⟩)⟩
    · rw [C22_settings_exact _ _ _ h]
      rintro ⟨b, h1, rfl | h2 | ⟨h, h3, -, -, h4⟩⟩
      · revert h1; decide
      · exact absurd h2 (by decide)
      · rw [List.mem_singleton.1 h3] at h4
        exact absurd h4 (by decide)
  · have h : ∃ out, (gen (history fresh [shBroken]) shQuad).2 = .ok out := ⟨_, rfl⟩
    obtain ⟨out, h⟩ := h
    exact ⟨out, h, by rw [C22_pointers_exact _ _ _ h]; decide⟩

end Verif.Props
