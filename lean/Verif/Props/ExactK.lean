import Verif.Props.Repeat
/-!
# C83: for which solvers and problems the text of the updates depends on the order of sets
-/
namespace Verif.Props
open Verif.Model Verif.Spec Verif.Lemmas

variable {Θ V Act : Type}

/-- Static check: there is at most one root of the update structure of OSQP exactly if not both a matrix and a vector change, and if both do, two
orders give different texts. -/
def osqpCheck (quad lp : Bool) (ch : Changes) : Bool :=
  let both := (ch.getD .P || ch.getD .A) && (ch.getD .q || ch.getD .l || ch.getD .u)
  (match analyzePus (Kind.osqp.solver quad lp).pus genFuel ch with
    | .ok (roots, _) => decide (roots.length ≤ 1) == !both
    | .error _ => false) &&
  (!both || !decide (genBlock (Kind.osqp.solver quad lp).pus quad ch id = genBlock (Kind.osqp.solver quad lp).pus quad ch List.reverse))

/-- **C83, text for OSQP, exactly.** The text of the updates is the same for all orders of sets exactly if not both a matrix (`P` or `A`) and a vector
(`q`, `l` or `u`) depend on parameters. -/
theorem C83_text_osqp_iff {quad lp : Bool} {b : CId → Bool} {g : Gen Θ V Act} (hg : Generated .osqp quad lp b g) :
    (∀ order order' : List CId → List CId, (∀ l, (order l).Perm l) → (∀ l, (order' l).Perm l) →
      genBlock (Kind.osqp.solver quad lp).pus g.quad g.changes order = genBlock (Kind.osqp.solver quad lp).pus g.quad g.changes order') ↔
    ¬ ((g.changes.getD .P = true ∨ g.changes.getD .A = true) ∧
      (g.changes.getD .q = true ∨ g.changes.getD .l = true ∨ g.changes.getD .u = true)) := by
  have h := forall_changes .osqp quad (fun ch => osqpCheck quad lp ch = true)
    (by
      have hp := hg.possible
      clear hg
      cases quad <;> cases lp <;> first | decide +kernel | (revert hp; decide)) b
  rw [hg.changes, hg.mode]
  unfold osqpCheck at h
  simp only [Bool.and_eq_true] at h
  obtain ⟨h1, h2⟩ := h
  cases he : analyzePus (Kind.osqp.solver quad lp).pus genFuel (changesOf (Kind.osqp.canonIds quad) b) with
  | error e => rw [he] at h1; cases h1
  | ok r =>
    obtain ⟨roots, never⟩ := r
    rw [he] at h1
    simp only [beq_iff_eq] at h1
    constructor
    · intro hall hb
      have := hall id List.reverse (fun l => List.Perm.refl l) (fun l => List.reverse_perm l)
      rw [this] at h2
      simp at h2
      rcases hb with ⟨hm, hv⟩
      have := h2
      rcases hm with hm | hm <;> rcases hv with hv | hv | hv <;> simp [hm, hv] at this
    · intro hb order order' ho ho'
      have hlen : roots.length ≤ 1 := by
        have : ((((changesOf (Kind.osqp.canonIds quad) b).getD .P || (changesOf (Kind.osqp.canonIds quad) b).getD .A) &&
          ((changesOf (Kind.osqp.canonIds quad) b).getD .q || (changesOf (Kind.osqp.canonIds quad) b).getD .l ||
            (changesOf (Kind.osqp.canonIds quad) b).getD .u))) = false := by
          rw [Bool.eq_false_iff]
          intro hx
          simp only [Bool.and_eq_true, Bool.or_eq_true, or_assoc] at hx
          exact hb hx
        rw [this] at h1
        simpa using h1
      have heq : order roots = order' roots := by
        match roots, hlen with
        | [], _ => rw [List.Perm.eq_nil (ho []), List.Perm.eq_nil (ho' [])]
        | [r], _ => rw [List.perm_singleton.1 (ho [r]), List.perm_singleton.1 (ho' [r])]
      unfold genBlock
      rw [he]
      show writeUpdate _ _ _ _ (some (order roots)) 0 = writeUpdate _ _ _ _ (some (order' roots)) 0
      rw [heq]

/-! Two problems for OSQP: the first parameter gives the matrix `A` or the vector `l`, the second one the vector `u`. -/

def exOsqpB (mat : Bool) : CId → Bool := pat false false false false mat false (!mat) true false false

def exOsqp (mat : Bool) : Gen (Int × Int) Int (Bool × Int) where
  canonOf
    | .A, θ => if mat then θ.1 else 7
    | .l, θ => if mat then 7 else θ.1
    | .u, θ => 2 * θ.2
    | _, _ => 7
  assign a θ := if a.1 then (a.2, θ.2) else (θ.1, a.2)
  outdated a := if a.1 then (if mat then [.A] else [.l]) else [.u]
  changes := changesOf (Kind.osqp.canonIds true) (exOsqpB mat)
  quad := true
  θ0 := (1, 1)
  canon0 _ := 7

theorem exOsqp_generated (mat : Bool) : Generated .osqp true false (exOsqpB mat) (exOsqp mat) := by
  refine ⟨rfl, rfl, rfl, ?_, ?_, ?_⟩
  · rintro ⟨a, v⟩ p θ hp
    cases a <;> cases p <;> cases mat <;> simp_all [exOsqp]
  · intro p θ θ' hp
    cases p <;> cases mat <;> simp_all [exOsqp, exOsqpB, changesOf, pat, Changes.getD, Kind.canonIds]
  · intro p θ hp
    cases p <;> cases mat <;> simp_all [exOsqp, exOsqpB, changesOf, pat, Changes.getD, Kind.canonIds]

/-- Both sides occur: with a matrix and a vector the text depends on the order, with two vectors it does not. -/
example : (¬ ∀ order order' : List CId → List CId, (∀ l, (order l).Perm l) → (∀ l, (order' l).Perm l) →
      genBlock (Kind.osqp.solver true false).pus (exOsqp true).quad (exOsqp true).changes order =
        genBlock (Kind.osqp.solver true false).pus (exOsqp true).quad (exOsqp true).changes order') ∧
    ∀ order order' : List CId → List CId, (∀ l, (order l).Perm l) → (∀ l, (order' l).Perm l) →
      genBlock (Kind.osqp.solver true false).pus (exOsqp false).quad (exOsqp false).changes order =
        genBlock (Kind.osqp.solver true false).pus (exOsqp false).quad (exOsqp false).changes order' := by
  rw [C83_text_osqp_iff (exOsqp_generated true), C83_text_osqp_iff (exOsqp_generated false)]
  decide

/-- **C83, text for Clarabel.** The text of the updates does not depend on the order of sets. -/
theorem C83_text_clarabel {quad lp : Bool} {b : CId → Bool} {g : Gen Θ V Act} (hg : Generated .clarabel quad lp b g)
    (order order' : List CId → List CId) (ho : ∀ l, (order l).Perm l) (ho' : ∀ l, (order' l).Perm l) :
    genBlock (Kind.clarabel.solver quad lp).pus g.quad g.changes order = genBlock (Kind.clarabel.solver quad lp).pus g.quad g.changes order' := by
  have h := forall_changes .clarabel quad (fun ch => (match analyzePus (Kind.clarabel.solver quad lp).pus genFuel ch with
    | .ok (roots, _) => roots == [.init]
    | .error _ => false) = true)
    (by
      have hp := hg.possible
      clear hg
      cases quad <;> cases lp <;> first | decide +kernel | (revert hp; decide)) b
  unfold genBlock
  rw [hg.changes]
  cases he : analyzePus (Kind.clarabel.solver quad lp).pus genFuel (changesOf (Kind.clarabel.canonIds quad) b) with
  | error e => rw [he] at h; cases h
  | ok r =>
    obtain ⟨roots, never⟩ := r
    rw [he] at h
    have hr : roots = [.init] := by simpa using h
    subst hr
    show writeUpdate _ _ _ _ (some (order [.init])) 0 = writeUpdate _ _ _ _ (some (order' [.init])) 0
    rw [List.perm_singleton.1 (ho _), List.perm_singleton.1 (ho' _)]

/-- The canonical parameters that QOCO and QOCOGEN update: `P` is left out without indices of a quadratic
objective (/repo/cvxpygen/solvers/qoco.py:120-124 and 340-344). -/
def qocoParts (lp : Bool) : List CId := (if lp then [] else [.P]) ++ [.c, .A, .b, .G, .h]

/-- Static check: two orders give the same text exactly if at most one of these changes, and then there are at most two roots. -/
def qocoCheck (k : Kind) (quad lp : Bool) (ch : Changes) : Bool :=
  let few := decide (((qocoParts lp).filter ch.getD).length ≤ 1)
  (match analyzePus (k.solver quad lp).pus genFuel ch with
    | .ok (roots, _) => !few || decide (roots.length ≤ 2)
    | .error _ => false) &&
  (few == decide (genBlock (k.solver quad lp).pus quad ch id = genBlock (k.solver quad lp).pus quad ch List.reverse))

theorem perm_two {α : Type} {l l' : List α} (h : l'.Perm l) (hl : l.length ≤ 2) : l' = l ∨ l' = l.reverse := by
  match l, hl with
  | [], _ => exact .inl h.eq_nil
  | [a], _ => exact .inl (List.perm_singleton.1 h)
  | [x, y], _ =>
    match l', h.length_eq with
    | [c, d], _ =>
      have hc : c ∈ [x, y] := h.subset (by simp)
      rcases List.mem_cons.1 hc with rfl | hc
      · have := List.perm_singleton.1 ((List.perm_cons _).1 h)
        exact .inl (by rw [this])
      · obtain rfl : c = y := by simpa using hc
        have h2 : [c, d].Perm [c, x] := h.trans (List.Perm.swap _ _ _)
        have := List.perm_singleton.1 ((List.perm_cons _).1 h2)
        exact .inr (by rw [this]; rfl)

/-- **C83, text for QOCO and QOCOGEN, exactly.** The text of the updates is the same for all orders of sets exactly if at most one of the
canonical parameters that are updated depends on parameters. -/
theorem C83_text_qoco_iff {k : Kind} (hk : k = .qoco ∨ k = .qocogen) {quad lp : Bool} {b : CId → Bool} {g : Gen Θ V Act}
    (hg : Generated k quad lp b g) :
    (∀ order order' : List CId → List CId, (∀ l, (order l).Perm l) → (∀ l, (order' l).Perm l) →
      genBlock (k.solver quad lp).pus g.quad g.changes order = genBlock (k.solver quad lp).pus g.quad g.changes order') ↔
    ((qocoParts lp).filter g.changes.getD).length ≤ 1 := by
  have h := forall_changes k quad (fun ch => qocoCheck k quad lp ch = true)
    (by
      have hp := hg.possible
      clear hg
      rcases hk with rfl | rfl <;> cases quad <;> cases lp <;> first | decide +kernel | (revert hp; decide)) b
  rw [hg.changes, hg.mode]
  unfold qocoCheck at h
  simp only [Bool.and_eq_true, beq_iff_eq, decide_eq_decide] at h
  obtain ⟨h1, h2⟩ := h
  constructor
  · intro hall
    exact h2.2 (hall id List.reverse (fun l => List.Perm.refl l) (fun l => List.reverse_perm l))
  · intro hf
    have key : ∀ order : List CId → List CId, (∀ l, (order l).Perm l) →
        genBlock (k.solver quad lp).pus quad (changesOf (k.canonIds quad) b) order =
          genBlock (k.solver quad lp).pus quad (changesOf (k.canonIds quad) b) id := by
      intro order ho
      have hs := h2.1 hf
      cases he : analyzePus (k.solver quad lp).pus genFuel (changesOf (k.canonIds quad) b) with
      | error e => rw [he] at h1; cases h1
      | ok r =>
        obtain ⟨roots, never⟩ := r
        rw [he] at h1
        have hlen : roots.length ≤ 2 := by simpa [hf] using h1
        unfold genBlock at hs ⊢
        rw [he] at hs ⊢
        change writeUpdate _ _ _ _ (some (id roots)) 0 = writeUpdate _ _ _ _ (some roots.reverse) 0 at hs
        show writeUpdate _ _ _ _ (some (order roots)) 0 = writeUpdate _ _ _ _ (some (id roots)) 0
        rcases perm_two (ho roots) hlen with h | h
        · rw [h]; rfl
        · rw [h, hs]
    intro order order' ho ho'
    rw [key order ho, key order' ho']

/-! Problems for the other solvers: the parameters give `A` and `b`, or only `b`. -/

def exOtherB (mat : Bool) : CId → Bool := pat false false false false mat true false false false false

def exOther (k : Kind) (mat : Bool) : Gen (Int × Int) Int (Bool × Int) where
  canonOf
    | .A, θ => if mat then θ.1 else 7
    | .b, θ => 2 * θ.2
    | _, _ => 7
  assign a θ := if a.1 then (a.2, θ.2) else (θ.1, a.2)
  outdated a := if a.1 then (if mat then [.A] else []) else [.b]
  changes := changesOf (k.canonIds true) (exOtherB mat)
  quad := true
  θ0 := (1, 1)
  canon0 _ := 7

theorem exOther_generated (k : Kind) (hk : k = .qoco ∨ k = .qocogen ∨ k = .clarabel) (mat : Bool) :
    Generated k true false (exOtherB mat) (exOther k mat) := by
  refine ⟨by rcases hk with rfl | rfl | rfl <;> rfl, rfl, rfl, ?_, ?_, ?_⟩
  · rintro ⟨a, v⟩ p θ hp
    cases a <;> cases p <;> cases mat <;> simp_all [exOther]
  · intro p θ θ' hp
    rcases hk with rfl | rfl | rfl <;> cases p <;> cases mat <;> simp_all [exOther, exOtherB, changesOf, pat, Changes.getD, Kind.canonIds]
  · intro p θ hp
    rcases hk with rfl | rfl | rfl <;> cases p <;> cases mat <;> simp_all [exOther, exOtherB, changesOf, pat, Changes.getD, Kind.canonIds]

/-- Both sides occur for QOCO, and Clarabel meets the hypothesis. -/
example : (¬ ∀ order order' : List CId → List CId, (∀ l, (order l).Perm l) → (∀ l, (order' l).Perm l) →
      genBlock (Kind.qoco.solver true false).pus (exOther .qoco true).quad (exOther .qoco true).changes order =
        genBlock (Kind.qoco.solver true false).pus (exOther .qoco true).quad (exOther .qoco true).changes order') ∧
    (∀ order order' : List CId → List CId, (∀ l, (order l).Perm l) → (∀ l, (order' l).Perm l) →
      genBlock (Kind.qoco.solver true false).pus (exOther .qoco false).quad (exOther .qoco false).changes order =
        genBlock (Kind.qoco.solver true false).pus (exOther .qoco false).quad (exOther .qoco false).changes order') ∧
    genBlock (Kind.clarabel.solver true false).pus (exOther .clarabel true).quad (exOther .clarabel true).changes id =
      genBlock (Kind.clarabel.solver true false).pus (exOther .clarabel true).quad (exOther .clarabel true).changes List.reverse := by
  rw [C83_text_qoco_iff (.inl rfl) (exOther_generated .qoco (by simp) true), C83_text_qoco_iff (.inl rfl) (exOther_generated .qoco (by simp) false)]
  exact ⟨by decide, by decide, C83_text_clarabel (exOther_generated .clarabel (by simp) true) _ _ (fun l => List.Perm.refl l)
    fun l => List.reverse_perm l⟩

end Verif.Props
