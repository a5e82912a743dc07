import Verif.Props.Dispatch
import Verif.Props.Cones
import Verif.Props.Explicit
/-!
# Exact conditions for C37, C47 and C48
-/
namespace Verif.Props

section
open Verif.Model.Dispatch Verif.Spec.Dispatch

/-- **C47 (iff)** A call leaves the folder as it was if it is rejected, exactly if it is not one that explicit mode rejects after
canonicalization. -/
theorem C47_iff (a : Args) (f : Facts) :
    (Rejected a f → (generate a f).2 = .before) ↔
      ¬ (canonicalization a f = .ok .pdaqp ∧
        ((f.pChanges = true ∨ f.aChanges = true) ∨ f.simpleBounds = false ∨ f.solved = false ∨ f.printed = false)) := by
  constructor
  · rintro h ⟨hc, hr⟩
    have he : ∃ e, codeGeneration .pdaqp f = .error e := by
      unfold codeGeneration
      rw [if_pos rfl]
      by_cases h1 : (f.pChanges || f.aChanges) = true
      · rw [if_pos h1]; exact ⟨_, rfl⟩
      · rw [if_neg h1]
        by_cases h2 : f.simpleBounds = false
        · rw [if_pos h2]; exact ⟨_, rfl⟩
        · rw [if_neg h2]
          by_cases h3 : f.solved = false
          · rw [if_pos h3]; exact ⟨_, rfl⟩
          · rw [if_neg h3]
            by_cases h4 : f.printed = false
            · rw [if_pos h4]; exact ⟨_, rfl⟩
            · exfalso
              rcases hr with hr | hr | hr | hr
              · exact h1 (by rcases hr with hr | hr <;> simp [hr])
              · exact h2 hr
              · exact h3 hr
              · exact h4 hr
    obtain ⟨e, he⟩ := he
    have hg : generate a f = (.error e, .emptied) := by
      unfold generate
      simp only [hc, he]
    have := h ⟨e, by rw [hg]⟩
    rw [hg] at this
    cases this
  · intro h hr
    exact (C47_partial a f hr).resolve_right h

/-- Both sides occur: explicit mode with a changing matrix, and a name that is not a solver. -/
example : ¬ (Rejected ⟨some "explicit".toList, false, false, false⟩ { goodFacts with aChanges := true } →
      (generate ⟨some "explicit".toList, false, false, false⟩ { goodFacts with aChanges := true }).2 = .before) ∧
    (Rejected ⟨some "none".toList, false, false, false⟩ goodFacts ∧
      (generate ⟨some "none".toList, false, false, false⟩ goodFacts).2 = .before) :=
  ⟨fun h => (C47_iff _ _).mp h ⟨by rfl, Or.inl (Or.inr rfl)⟩, ⟨⟨.valueError, by rfl⟩, by rfl⟩⟩

end

section
open Verif.Model.Cones Verif.Spec.Cones

/-- **C48 (iff)** Clarabel reads the cones of the problem, in the order of the rows, exactly if there is no exponential cone, or a
single one and neither second-order nor semidefinite cones. -/
theorem C48_iff (d : Dims) : conesRead d = stacked d ↔ d.exp = 0 ∨ (d.exp = 1 ∧ d.soc = [] ∧ d.psd = []) := by
  obtain ⟨-, p2, p3⟩ := C48_partial d
  constructor
  · intro h
    have hlen : (stacked d).length = (coneList d).length := by
      have hz : (if 0 < d.zero then [Cone.zero d.zero] else []).length = (if d.zero = 0 then [] else [Cone.zero d.zero]).length := by
        by_cases h : d.zero = 0
        · rw [if_pos h, if_neg (by omega)]
        · rw [if_neg h, if_pos (by omega)]
      have hn : (if 0 < d.nonneg then [Cone.nonneg d.nonneg] else []).length =
          (if d.nonneg = 0 then [] else [Cone.nonneg d.nonneg]).length := by
        by_cases h : d.nonneg = 0
        · rw [if_pos h, if_neg (by omega)]
        · rw [if_neg h, if_pos (by omega)]
      unfold stacked coneList
      simp only [List.length_append, hz, hn]
      omega
    have hle : d.exp ≤ 1 := by
      by_contra h2
      have := C48_fails_general d (by omega)
      have h3 := congrArg List.length h
      unfold conesRead at h3
      rw [List.length_take, hlen] at h3
      omega
    rw [(p2 hle).2] at h
    by_cases h0 : d.exp = 0
    · exact Or.inl h0
    · have h1 : d.exp = 1 := by omega
      refine Or.inr ⟨h1, ?_⟩
      have hz : (if 0 < d.zero then [Cone.zero d.zero] else []) = if d.zero = 0 then [] else [Cone.zero d.zero] := by
        by_cases h : d.zero = 0
        · rw [if_pos h, if_neg (by omega)]
        · rw [if_neg h, if_pos (by omega)]
      have hn : (if 0 < d.nonneg then [Cone.nonneg d.nonneg] else []) =
          if d.nonneg = 0 then [] else [Cone.nonneg d.nonneg] := by
        by_cases h : d.nonneg = 0
        · rw [if_pos h, if_neg (by omega)]
        · rw [if_neg h, if_pos (by omega)]
      unfold coneList stacked at h
      rw [hz, hn, h1] at h
      simp only [List.append_assoc, List.append_cancel_left_eq, List.replicate_one] at h
      cases hs : d.soc with
      | cons a l => rw [hs] at h; simp at h
      | nil =>
        cases hp : d.psd with
        | cons a l => rw [hs, hp] at h; simp at h
        | nil => exact ⟨rfl, rfl⟩
  · rintro (h | ⟨h1, h2⟩)
    · rw [(p2 (by omega)).2, p3 (Or.inl h)]
    · rw [(p2 (by omega)).2, p3 (Or.inr h2)]

example : conesRead ⟨2, 3, 1, [], [], ["0.5"]⟩ = stacked ⟨2, 3, 1, [], [], ["0.5"]⟩ ∧
    conesRead ⟨2, 3, 0, [3, 4], [2], ["0.5"]⟩ = stacked ⟨2, 3, 0, [3, 4], [2], ["0.5"]⟩ ∧
    conesRead ⟨2, 3, 1, [3], [], []⟩ ≠ stacked ⟨2, 3, 1, [3], [], []⟩ := by decide

end

section
open Verif.Model Verif.Model.Explicit Verif.Spec Verif.Spec.Explicit Verif.Lemmas Verif.Lemmas.Explicit
variable {R : Type}

/-- The bounds on entry `k` that the problem declares by constraints on parameters only, in the order of the constraints. -/
def uppers (cons : List (PCon R)) (k : Nat) : List R :=
  cons.filterMap fun c => if c.hasVars = false ∧ c.hasParams = true then upperAt c k else none

def lowers (cons : List (PCon R)) (k : Nat) : List R :=
  cons.filterMap fun c => if c.hasVars = false ∧ c.hasParams = true then lowerAt c k else none

theorem boundStep_at (b b' : Bounds R) (c : PCon R) (h : boundStep b c = .ok b') (k : Nat) :
    b'.upper k = (if c.hasVars = false ∧ c.hasParams = true then upperAt c k else none).getD (b.upper k) ∧
    b'.lower k = (if c.hasVars = false ∧ c.hasParams = true then lowerAt c k else none).getD (b.lower k) := by
  unfold boundStep at h
  by_cases hc : c.hasVars = false ∧ c.hasParams = true
  · rw [if_pos hc] at h ⊢
    rw [if_pos hc]
    unfold upperAt lowerAt
    split at h
    · rename_i col size v e1 e2
      cases h
      simp only [e1, e2, setSlice]
      split <;> exact ⟨rfl, rfl⟩
    · rename_i v col size e1 e2
      cases h
      simp only [e1, e2, setSlice]
      split <;> exact ⟨rfl, rfl⟩
    · cases h
  · rw [if_neg hc] at h ⊢
    rw [if_neg hc]
    cases h
    exact ⟨rfl, rfl⟩

theorem boundFold_at (cons : List (PCon R)) : ∀ (b0 b : Bounds R), cons.foldlM boundStep b0 = .ok b → ∀ k,
    b.upper k = (uppers cons k).getLastD (b0.upper k) ∧ b.lower k = (lowers cons k).getLastD (b0.lower k) := by
  induction cons with
  | nil => intro b0 b h k; cases h; exact ⟨rfl, rfl⟩
  | cons c cons ih =>
    intro b0 b h k
    rw [List.foldlM_cons] at h
    cases hc : boundStep b0 c with
    | error e => rw [hc] at h; cases h
    | ok b1 =>
      rw [hc] at h
      obtain ⟨h1, h2⟩ := ih b1 b h k
      obtain ⟨s1, s2⟩ := boundStep_at b0 b1 c hc k
      constructor
      · rw [h1, s1]
        unfold uppers
        rw [List.filterMap_cons]
        cases (if c.hasVars = false ∧ c.hasParams = true then upperAt c k else none) with
        | none => rfl
        | some v => exact (List.getLastD_cons ..).symm
      · rw [h2, s2]
        unfold lowers
        rw [List.filterMap_cons]
        cases (if c.hasVars = false ∧ c.hasParams = true then lowerAt c k else none) with
        | none => rfl
        | some v => exact (List.getLastD_cons ..).symm

/-- **C37 (bounds)** The bounds in force for an entry are the ones declared last. -/
theorem C37_last [Neg R] [One R] (NP : Nat) (big : R) (cons : List (PCon R)) (b : Bounds R) (h : paramBounds NP big cons = .ok b) (k : Nat)
    (hk : k + 1 < NP) : b.upper k = (uppers cons k).getLastD big ∧ b.lower k = (lowers cons k).getLastD (-big) := by
  have := boundFold_at cons _ b h k
  simpa [show ¬ k + 1 = NP by omega] using this

/-- **C37 (iff)** Whatever values are given to entry `k`, and in whatever order, the constraints that the user declared on it hold
afterwards, exactly if the bounds declared last satisfy all of them. -/
theorem C37_iff [CommRing R] [LinearOrder R] (NP : Nat) (big : R) (cons : List (PCon R)) (b : Bounds R) (h : paramBounds NP big cons = .ok b)
    (k : Nat) (hk : k + 1 < NP) (hle : (lowers cons k).getLastD (-big) ≤ (uppers cons k).getLastD big) :
    (∀ (p : Nat → R) (us : List (Nat × R)) (x : R), lastGiven us k = some x →
      ∀ c ∈ cons, OnParams c → HoldsAt c k (clampRun b p us k)) ↔
    ∀ c ∈ cons, OnParams c → HoldsAt c k ((lowers cons k).getLastD (-big)) ∧ HoldsAt c k ((uppers cons k).getLastD big) := by
  obtain ⟨e1, e2⟩ := C37_last NP big cons b h k hk
  rw [← e1, ← e2] at hle ⊢
  constructor
  · intro hh c hc ho
    have key : ∀ x, b.lower k ≤ x → x ≤ b.upper k → HoldsAt c k x := by
      intro x h1 h2
      have h0 : lastGiven [(k, x)] k = some x := by simp [lastGiven]
      have := hh (fun _ => x) [(k, x)] x h0 c hc ho
      rw [clampRun_get, h0] at this
      have e : clamp b k x = x := clamp_id b k x h1 h2
      simpa only [e] using this
    exact ⟨key _ le_rfl hle, key _ hle le_rfl⟩
  · intro hh p us x hx c hc ho
    rw [clampRun_get, hx]
    have hin : b.lower k ≤ clamp b k x ∧ clamp b k x ≤ b.upper k := by
      unfold clamp
      by_cases h1 : x < b.lower k
      · simp only [if_pos h1, if_neg (not_lt.2 hle)]
        exact ⟨le_rfl, hle⟩
      · simp only [if_neg h1]
        by_cases h2 : b.upper k < x
        · rw [if_pos h2]; exact ⟨hle, le_rfl⟩
        · rw [if_neg h2]; exact ⟨not_lt.1 h1, not_lt.1 h2⟩
    obtain ⟨⟨a1, a2⟩, ⟨b1, b2⟩⟩ := hh c hc ho
    refine ⟨fun v hv => ⟨hin.2.trans (b1 v hv).1, fun he => ?_⟩, fun v hv => ⟨(a2 v hv).1.trans hin.1, fun he => ?_⟩⟩
    · exact le_antisymm (hin.2.trans ((b1 v hv).2 he).le) (((a1 v hv).2 he).symm.le.trans hin.1)
    · exact le_antisymm (hin.2.trans ((b2 v hv).2 he).le) (((a2 v hv).2 he).symm.le.trans hin.1)

/-- `p ≤ 5`, `0 ≤ p`, `p ≤ 3`: enforced; `p ≤ 3`, `0 ≤ p`, `p ≤ 5`: not. -/
example :
    let c := fun v : Int => (⟨false, true, false, .param 0 1, .const fun _ => v⟩ : PCon Int)
    let l : PCon Int := ⟨false, true, false, .const fun _ => 0, .param 0 1⟩
    (∃ b, paramBounds 2 100 [c 5, l, c 3] = .ok b) ∧ (∃ b, paramBounds 2 100 [c 3, l, c 5] = .ok b) ∧
    (∀ d ∈ [c 5, l, c 3], HoldsAt d 0 0 ∧ HoldsAt d 0 3) ∧ (uppers [c 5, l, c 3] 0, lowers [c 5, l, c 3] 0) = ([5, 3], [0]) ∧
    ¬ HoldsAt (c 3) 0 ((uppers [c 3, l, c 5] 0).getLastD 100) := by
  refine ⟨⟨_, rfl⟩, ⟨_, rfl⟩, ?_, by rfl, ?_⟩
  · intro d hd
    simp only [List.mem_cons, List.not_mem_nil, or_false] at hd
    rcases hd with rfl | rfl | rfl <;> refine ⟨⟨?_, ?_⟩, ⟨?_, ?_⟩⟩ <;> simp [upperAt, lowerAt]
  · intro h
    have := (h.1 3 rfl).1
    exact absurd this (by decide)

end

end Verif.Props
