import Verif.Model.Enable
import Verif.Props.ExactE
/-!
# C103: enabled settings are offered and work, other names are reported

All calls, all histories of calls in the process.
-/
namespace Verif.Props
open Verif.Model Verif.Model.Text Verif.Model.Dispatch Verif.Model.Shared Verif.Model.Enable

/-- The names of a class's settings never change. -/
theorem stgs_names (hist : List Call) (i : Iface) : ((history fresh hist).stgs i).map Prod.fst = (settings0 i).map Prod.fst := by
  induction hist using List.reverseRecOn with
  | nil => rfl
  | append_singleton hist c ih =>
    rw [history_snoc, (gen_effect _ c i).1]
    split
    · unfold configure
      rw [List.map_map, ← ih]
      apply List.map_congr_left
      intro s _
      rfl
    · exact ih

/-- **C103 (known and unknown names)** After any history: a name given in `enable_settings` is a setting that the generated code offers, or
there is a warning for it and the generated code does not offer it. -/
theorem C103_names (hist : List Call) (c : Call) (out : Out) (ho : (gen (history fresh hist) c).2 = .ok out) (n : Txt)
    (hn : n ∈ c.enable) :
    (n ∈ (settings0 c.iface).map Prod.fst ∧ n ∈ out.settings ∧ n ∉ warned (history fresh hist) c) ∨
    (n ∉ (settings0 c.iface).map Prod.fst ∧ n ∉ out.settings ∧ n ∈ warned (history fresh hist) c) := by
  have hw : n ∈ warned (history fresh hist) c ↔ n ∉ (settings0 c.iface).map Prod.fst := by
    unfold warned
    rw [stgs_names, List.mem_filter]
    simp [hn]
  have hs := C22_settings_exact hist c out ho n
  by_cases h : n ∈ (settings0 c.iface).map Prod.fst
  · left
    refine ⟨h, ?_, fun e => hw.mp e h⟩
    obtain ⟨⟨m, b⟩, hb, rfl⟩ := List.mem_map.1 h
    exact hs.mpr ⟨b, hb, .inr (.inl hn)⟩
  · right
    refine ⟨h, fun e => ?_, hw.mpr h⟩
    obtain ⟨b, hb, _⟩ := hs.mp e
    exact h (List.mem_map.2 ⟨_, hb, rfl⟩)

/-- **C103 (printing, iff)** For OSQP after any history: the code offers to set `verbose`, and is built such that the setting has an effect
only if it was enabled in this call. So the setting is offered without effect exactly if an earlier call for OSQP enabled it and this one
does not. -/
theorem C103_printing_iff (hist : List Call) (c : Call) (hc : c.iface = .osqp) (out : Out)
    (ho : (gen (history fresh hist) c).2 = .ok out) :
    ("verbose".toList ∈ out.settings ∧ definitions c = []) ↔
      "verbose".toList ∉ c.enable ∧
        ∃ h ∈ hist, h.iface = .osqp ∧ h.fails ≠ some .beforeInterface ∧ "verbose".toList ∈ h.enable := by
  rw [C22_settings_exact hist c out ho, hc]
  have hd : definitions c = [] ↔ "verbose".toList ∉ c.enable := by
    unfold definitions
    by_cases h : c.enable.contains "verbose".toList = true
    · rw [if_pos ⟨hc, h⟩]
      simp only [List.cons_ne_nil, false_iff, not_not]
      exact List.contains_iff_mem.mp h
    · rw [if_neg fun e => h e.2]
      simp only [true_iff]
      exact fun e => h (List.contains_iff_mem.mpr e)
  have hv : ∀ b, ("verbose".toList, b) ∈ settings0 .osqp → b = false := by
    intro b hb
    cases b with
    | false => rfl
    | true => exact absurd hb (by decide)
  constructor
  · rintro ⟨⟨b, hb, h | h | h⟩, h2⟩
    · rw [hv b hb] at h; cases h
    · exact absurd h (hd.mp h2)
    · exact ⟨hd.mp h2, h⟩
  · rintro ⟨h1, h2⟩
    exact ⟨⟨false, by decide, .inr (.inr h2)⟩, hd.mpr h1⟩

/-- **C103** (missing: calls in a process in which `verbose` was enabled for OSQP before, see `C103_printing_iff`) In a fresh process
the code for OSQP offers to set `verbose` exactly if it is built with printing. -/
theorem C103_partial (c : Call) (hc : c.iface = .osqp) (out : Out) (ho : (gen fresh c).2 = .ok out) :
    "verbose".toList ∈ out.settings ↔ definitions c ≠ [] := by
  have h := C103_printing_iff [] c hc out ho
  constructor
  · intro h1 h2
    obtain ⟨_, x, hx, _⟩ := h.mp ⟨h1, h2⟩
    cases hx
  · intro h1
    have he : "verbose".toList ∈ c.enable := by
      unfold definitions at h1
      by_cases he : c.enable.contains "verbose".toList = true
      · exact List.contains_iff_mem.mp he
      · rw [if_neg fun e => he e.2] at h1
        exact absurd rfl h1
    rcases C103_names [] c out ho _ he with h2 | h2
    · exact h2.2.1
    · exact absurd (by rw [hc]; decide) h2.1

/-- OSQP with `verbose` (and an unknown name), and without. -/
def enVerbose : Call := { shPlain with enable := ["verbose".toList, "colour".toList] }

/-- **C103 fails** A call for OSQP after one that enabled `verbose` offers the setting, and the code is built without printing. -/
theorem C103_fails : ∃ out, (gen (history fresh [enVerbose]) shPlain).2 = .ok out ∧ "verbose".toList ∈ out.settings ∧
    definitions shPlain = [] := by
  have h : ∃ out, (gen (history fresh [enVerbose]) shPlain).2 = .ok out := ⟨_, rfl⟩
  obtain ⟨out, h⟩ := h
  have := (C103_printing_iff [enVerbose] shPlain rfl out h).mpr ⟨by decide, enVerbose, by simp, rfl, by decide, by decide⟩
  exact ⟨out, h, this⟩

/-- The name `verbose` is offered, the other one reported. -/
example : ∃ out, (gen fresh enVerbose).2 = .ok out ∧ "verbose".toList ∈ out.settings ∧ warned fresh enVerbose = ["colour".toList] ∧
    definitions enVerbose ≠ [] := by
  have h : ∃ out, (gen fresh enVerbose).2 = .ok out := ⟨_, rfl⟩
  obtain ⟨out, h⟩ := h
  exact ⟨out, h, (C103_partial enVerbose rfl out h).mpr (by decide), by decide, by decide⟩

end Verif.Props
