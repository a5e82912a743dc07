import Verif.Spec.DeltaIndex
import Verif.Lemmas.Deltas
import Mathlib.Data.List.Induction
/-!
# C102: incoming gradients with any index

All histories of calls, all variables, all integer indices.
-/
namespace Verif.Props
open Verif.Model Verif.Model.DeltaIndex Verif.Spec.DeltaIndex
open Verif.Model.Index (storeZ)
variable {R : Type}

namespace DeltaIdx

theorem storeZ_iff (a : List R) (i : Int) (v : R) :
    storeZ a i v = if 0 ≤ i ∧ i < a.length then some (a.set i.toNat v) else none := by
  unfold storeZ store
  by_cases h : 0 ≤ i
  · rw [if_pos h]
    by_cases h2 : i < a.length
    · rw [if_pos (by omega), if_pos ⟨h, h2⟩]
    · rw [if_neg (by omega), if_neg (fun e => h2 e.2)]
  · rw [if_neg h, if_neg (fun e => h e.1)]

theorem updStep_eq (vs : List Var) (dx : List R) (u : Upd R) (he : Exists vs (.upd u)) :
    updStep vs dx u = if 0 ≤ place vs u ∧ place vs u < dx.length then some (dx.set (place vs u).toNat u.val) else none := by
  obtain ⟨v, hv, h1⟩ := he
  unfold updStep place
  rw [hv]
  simp only [Option.bind_eq_bind, Option.bind_some, Option.map_some, Option.getD_some]
  by_cases hs : v.size = 1
  · have := h1 hs
    rw [if_pos hs, if_pos this, storeZ_iff, this, Int.add_zero]
  · rw [if_neg hs, storeZ_iff]

theorem step_upd [Zero R] (vs : List Var) (n : Nat) (s : St R) (u : Upd R) :
    step vs n s (.upd u) = (updStep vs s.dx u).map fun dx => { s with dx := dx } := rfl

theorem given_snoc [Zero R] (vs : List Var) (ops : List (Op R)) (o : Op R) :
    given vs (ops ++ [o]) = match o with
      | .upd u => fun p => if p = place vs u then u.val else given vs ops p
      | .gradient => fun _ => 0 := by
  unfold given
  rw [List.foldl_append]
  rfl

theorem gradients_append (a b : List (Op R)) : gradients (a ++ b) = gradients a + gradients b := by
  induction a with
  | nil => simp [gradients]
  | cons o a ih => cases o <;> simp [gradients, ih] <;> omega

/-- The array is what was given. -/
def Holds [Zero R] (vs : List Var) (n : Nat) (ops : List (Op R)) (dx : List R) : Prop :=
  dx.length = n ∧ ∀ p : Nat, p < n → dx[p]? = some (given vs ops p)

theorem holds_step [Zero R] {vs : List Var} {n : Nat} {ops : List (Op R)} {s : St R} (h : Holds vs n ops s.dx) (o : Op R)
    (he : Exists vs o) : (step vs n s o = none ↔ ¬ Inside vs n o) ∧ ∀ s', step vs n s o = some s' → Holds vs n (ops ++ [o]) s'.dx := by
  cases o with
  | upd u =>
    have e := updStep_eq vs s.dx u he
    rw [h.1] at e
    simp only [step_upd]
    rw [e]
    unfold Inside
    by_cases hi : 0 ≤ place vs u ∧ place vs u < n
    · rw [if_pos hi]
      refine ⟨by simp [hi], fun s' hs => ?_⟩
      simp only [Option.map_some, Option.some.injEq] at hs
      subst hs
      refine ⟨by rw [List.length_set]; exact h.1, fun p hp => ?_⟩
      rw [given_snoc, List.getElem?_set]
      by_cases hpp : (place vs u).toNat = p
      · rw [if_pos hpp, if_pos (by rw [h.1]; omega)]
        simp only
        rw [if_pos (by omega)]
      · rw [if_neg hpp, h.2 p hp]
        simp only
        rw [if_neg (by omega)]
    · rw [if_neg hi]
      refine ⟨by simp [hi], fun s' hs => by cases hs⟩
  | gradient =>
    unfold step
    rw [Verif.Lemmas.Deltas.zero_loop n s.dx h.1]
    refine ⟨by simp [Inside], fun s' hs => ?_⟩
    simp only [Option.bind_eq_bind, Option.bind_some, Option.pure_def, Option.some.injEq] at hs
    subst hs
    refine ⟨by simp, fun p hp => ?_⟩
    rw [given_snoc]
    simp [hp]

theorem run_snoc [Zero R] (vs : List Var) (n : Nat) (ops : List (Op R)) (o : Op R) :
    run vs n (ops ++ [o]) = (run vs n ops).bind fun s => step vs n s o := by
  unfold run
  rw [List.foldlM_append]
  cases ops.foldlM (step vs n) (init n) with
  | none => rfl
  | some s => simp

theorem run_holds [Zero R] {vs : List Var} {n : Nat} (ops : List (Op R)) (he : ∀ o ∈ ops, Exists vs o) :
    (run vs n ops = none ↔ ∃ o ∈ ops, ¬ Inside vs n o) ∧
    ∀ s, run vs n ops = some s → Holds vs n ops s.dx ∧ s.log.length = gradients ops ∧
      ∀ pre post, ops = pre ++ .gradient :: post → ∃ dx, s.log[gradients pre]? = some dx ∧ Holds vs n pre dx := by
  induction ops using List.reverseRecOn with
  | nil =>
    refine ⟨by simp [run], fun s hs => ?_⟩
    have : s = init n := by simpa [run] using hs.symm
    subst this
    refine ⟨⟨by simp [init], fun p hp => by simp [init, given, hp]⟩, rfl, fun pre post h => ?_⟩
    cases pre <;> simp at h
  | append_singleton ops o ih =>
    obtain ⟨h1, h2⟩ := ih fun x hx => he x (by simp [hx])
    rw [run_snoc]
    cases hr : run vs n ops with
    | none =>
      obtain ⟨x, hx, hx2⟩ := h1.mp hr
      refine ⟨by simp; exact .inl ⟨x, hx, hx2⟩, fun s hs => by cases hs⟩
    | some s0 =>
      obtain ⟨i1, i2, i3⟩ := h2 s0 hr
      obtain ⟨k1, k2⟩ := holds_step i1 o (he o (by simp))
      have hno : ¬ ∃ x ∈ ops, ¬ Inside vs n x := fun h => by rw [h1.mpr h] at hr; cases hr
      simp only [Option.bind_some]
      refine ⟨?_, fun s hs => ?_⟩
      · rw [k1]
        constructor
        · intro h; exact ⟨o, by simp, h⟩
        · rintro ⟨x, hx, hx2⟩
          rcases List.mem_append.1 hx with hx | hx
          · exact absurd ⟨x, hx, hx2⟩ hno
          · rw [List.mem_singleton.1 hx] at hx2; exact hx2
      · refine ⟨k2 s hs, ?_⟩
        cases o with
        | upd u =>
          have hlog : s.log = s0.log := by
            rw [step_upd] at hs
            cases hu : updStep vs s0.dx u with
            | none => rw [hu] at hs; cases hs
            | some d => rw [hu] at hs; cases hs; rfl
          refine ⟨by rw [hlog, i2, gradients_append]; rfl, fun pre post h => ?_⟩
          rw [hlog]
          rcases List.eq_nil_or_concat post with hp | ⟨post', x, hp⟩
          · subst hp
            have := (List.append_inj' h rfl).2
            cases this
          · rw [hp, List.concat_eq_append, ← List.cons_append, ← List.append_assoc] at h
            exact i3 pre post' (List.append_inj' h rfl).1
        | gradient =>
          have hlog : s.log = s0.log ++ [s0.dx] := by
            unfold step at hs
            rw [Verif.Lemmas.Deltas.zero_loop n s0.dx i1.1] at hs
            simp only [Option.bind_eq_bind, Option.bind_some, Option.pure_def, Option.some.injEq] at hs
            subst hs
            rfl
          refine ⟨by rw [hlog, List.length_append, i2, gradients_append]; rfl, fun pre post h => ?_⟩
          rw [hlog]
          rcases List.eq_nil_or_concat post with hp | ⟨post', x, hp⟩
          · subst hp
            have := (List.append_inj' h rfl).1
            subst this
            refine ⟨s0.dx, ?_, i1⟩
            rw [← i2]
            simp
          · rw [hp, List.concat_eq_append, ← List.cons_append, ← List.append_assoc] at h
            have hh := (List.append_inj' h rfl).1
            obtain ⟨dx, d1, d2⟩ := i3 pre post' hh
            refine ⟨dx, ?_, d2⟩
            rw [List.getElem?_append_left (by rw [i2, hh, gradients_append]; simp [gradients]), d1]

end DeltaIdx
open DeltaIdx

/-- **C102 (exact)** For all histories of calls with any indices: memory outside of the array is written exactly if a call is for a place
outside of it. Otherwise every gradient computation finds, at each place, the value last given for this place since the gradient
computation before, and zero if none was given. -/
theorem C102_exact [Zero R] {vs : List Var} {n : Nat} (ops : List (Op R)) (he : ∀ o ∈ ops, Exists vs o) :
    (run vs n ops = none ↔ ∃ o ∈ ops, ¬ Inside vs n o) ∧
    ∀ s, run vs n ops = some s → s.log.length = gradients ops ∧
      ∀ pre post, ops = pre ++ .gradient :: post → ∃ dx, s.log[gradients pre]? = some dx ∧ dx.length = n ∧
        ∀ p : Nat, p < n → dx[p]? = some (given vs pre p) := by
  obtain ⟨h1, h2⟩ := run_holds (n := n) ops he
  exact ⟨h1, fun s hs => ⟨(h2 s hs).2.1, (h2 s hs).2.2⟩⟩

/-- **C102 (next gradient only)** Whatever was given before a gradient computation, with whatever indices, has no effect after it. -/
theorem C102_forgotten [Zero R] {vs : List Var} {n : Nat} (old new : List (Op R)) (ho : ∀ o ∈ old, Exists vs o)
    (s : St R) (hs : run vs n (old ++ [.gradient]) = some s) :
    run vs n (old ++ .gradient :: new) = (run vs n new).map fun t => { t with log := s.log ++ t.log } := by
  have hdx : s.dx = List.replicate n 0 := by
    obtain ⟨h1, h2⟩ := (run_holds (old ++ [.gradient]) (by
      intro o h
      rcases List.mem_append.1 h with h | h
      · exact ho o h
      · rw [List.mem_singleton.1 h]; trivial)).2 s hs |>.1
    apply List.ext_getElem?
    intro p
    by_cases hp : p < n
    · rw [h2 p hp, given_snoc]; simp [hp]
    · rw [List.getElem?_eq_none (by omega), List.getElem?_eq_none (by simp; omega)]
  have e : old ++ Op.gradient :: new = (old ++ [.gradient]) ++ new := by simp
  rw [e]
  clear e
  induction new using List.reverseRecOn with
  | nil =>
    rw [List.append_nil, hs]
    simp only [run, List.foldlM_nil, Option.pure_def, Option.map_some, init]
    rw [← hdx]
    simp
  | append_singleton new o ih =>
    rw [← List.append_assoc, run_snoc, ih, run_snoc]
    cases run vs n new with
    | none => rfl
    | some t =>
      simp only [Option.map_some, Option.bind_some]
      cases o with
      | upd u =>
        rw [step_upd, step_upd]
        cases updStep vs t.dx u <;> rfl
      | gradient =>
        unfold step
        simp only
        cases (List.range n).foldlM (init := t.dx) (fun dx i => store dx i 0) with
        | none => rfl
        | some d => simp

/-- **C102 (own block, iff)** A call changes nothing outside of the entries of its own variable, whatever the array holds, exactly if the
index is that of an entry. -/
theorem C102_own_iff [Nontrivial R] {vs : List Var} {n : Nat} (u : Upd R) (v : Var)
    (hv : vs.find? (fun v => v.name == u.name) = some v) (h1 : v.size = 1 → u.idx = 0) (hb : v.offset + v.size ≤ n) :
    (∀ dx : List R, dx.length = n → ∃ dx', updStep vs dx u = some dx' ∧
      ∀ p : Nat, ¬ (v.offset ≤ p ∧ p < v.offset + v.size) → dx'[p]? = dx[p]?) ↔ 0 ≤ u.idx ∧ u.idx < v.size := by
  have hp : place vs u = v.offset + u.idx := by unfold place; rw [hv]; rfl
  constructor
  · intro h
    obtain ⟨w, hw⟩ := exists_ne u.val
    obtain ⟨dx', e, hd⟩ := h (List.replicate n w) (by simp)
    rw [updStep_eq vs _ u ⟨v, hv, h1⟩, hp] at e
    by_cases hin : (0 : Int) ≤ v.offset + u.idx ∧ (v.offset : Int) + u.idx < (List.replicate n w).length
    · rw [if_pos hin] at e
      cases e
      by_contra hc
      have := hd ((v.offset : Int) + u.idx).toNat (by omega)
      have hlt : ((v.offset : Int) + u.idx).toNat < n := by
        have := hin.2
        simp only [List.length_replicate] at this
        omega
      rw [List.getElem?_set, if_pos rfl, if_pos (by simpa using hlt), List.getElem?_replicate, if_pos hlt] at this
      exact hw (Option.some.inj this).symm
    · rw [if_neg hin] at e; cases e
  · rintro ⟨a, b⟩ dx hdx
    rw [updStep_eq vs dx u ⟨v, hv, h1⟩, hp, if_pos (by rw [hdx]; omega)]
    refine ⟨_, rfl, fun p hpn => ?_⟩
    rw [List.getElem?_set, if_neg (by omega)]

/-- **C102 fails** With two variables, the index after the last entry of the first is the first entry of the second; a negative index
of the second is an entry of the first; and the index after the last entry of the second is outside of the array. -/
theorem C102_fails :
    let vs : List Var := [⟨"x", 2, 0⟩, ⟨"y", 2, 2⟩]
    (run vs 4 [.upd ⟨"x", 2, (7 : Int)⟩, .gradient]).map St.log = some [[0, 0, 7, 0]] ∧
    (run vs 4 [.upd ⟨"y", -1, (7 : Int)⟩, .gradient]).map St.log = some [[0, 7, 0, 0]] ∧
    (run vs 4 [.upd ⟨"y", 2, (7 : Int)⟩, .gradient]).map St.log = none := by
  decide

/-- A history with calls in and out of range, over two gradient computations. -/
example : (run [⟨"x", 2, 0⟩, ⟨"z", 1, 2⟩, ⟨"y", 2, 3⟩] 6
      [.upd ⟨"x", 0, (5 : Int)⟩, .upd ⟨"y", 2, 8⟩, .upd ⟨"x", 0, 6⟩, .gradient, .upd ⟨"z", 0, 1⟩, .gradient]).map St.log
    = some [[6, 0, 0, 0, 0, 8], [0, 0, 1, 0, 0, 0]] := by decide

end Verif.Props
