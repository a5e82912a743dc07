import Verif.Lemmas.Backward
import Mathlib.Data.List.Induction
/-! C56: what reaches the compiled gradient function in a backward call. -/
namespace Verif.Props
open Verif.Model.Flatten Verif.Model.Backward Verif.Spec.Backward Verif.Lemmas.Backward
section
variable {R : Type}

/-- C56 for a context that has all variables of the problem: whatever was done before (gradients set by the user, other
calls, calls that failed), the compiled function gets exactly the entries of this call's gradients. Missing: contexts with
fewer variables, see `C56_independent_iff`. -/
theorem C56_partial (vs : List PVar) (ops : List (Op R)) (ctx : List Nat) (dvars : List (Arr R))
    (hn : ctx.Nodup) (hc : ∀ i ∈ ctx, i ∈ vs.map PVar.id) (hl : dvars.length = ctx.length)
    (hall : ∀ v ∈ vs, v.id ∈ ctx) (hfit : ∀ v ∈ vs, ∀ a, own ctx dvars v.id = some a → Fits v a) :
    (backward vs (run vs ops) ctx dvars).2 = .ok (vs.map (ownEntries ctx dvars)) := by
  have hmap : (ctx.zip dvars).map Prod.fst = ctx := List.map_fst_zip (by omega)
  have ha := assign_spec (vs.map PVar.id) (ctx.zip dvars) (run vs ops)
    (fun e he => hc e.1 (by rw [← hmap]; exact List.mem_map_of_mem he)) (by rw [hmap]; exact hn)
  unfold backward
  rw [ha]
  unfold vdelta
  apply mapM_ok'
  intro v hv
  have hlk : ∃ a, (ctx.zip dvars).lookup v.id = some a := by
    cases h : (ctx.zip dvars).lookup v.id with
    | some a => exact ⟨a, rfl⟩
    | none =>
      rw [List.lookup_eq_none_iff] at h
      have hm := hall v hv
      rw [← hmap] at hm
      obtain ⟨e, he, hid⟩ := List.mem_map.1 hm
      exact absurd (h e he) (by simp [hid])
  obtain ⟨a, ha⟩ := hlk
  simp only [ha]
  rw [field_ok v a (hfit v hv a ha)]
  unfold ownEntries own
  rw [ha]

/-- On a new problem, a backward call of a context that lacks a variable raises. -/
theorem C56_fails_fresh (vs : List PVar) (ctx : List Nat) (dvars : List (Arr R)) (v : PVar) (hv : v ∈ vs)
    (hc : v.id ∉ ctx) : ∃ e, (backward vs (run vs []) ctx dvars).2 = .error e := by
  unfold backward
  have key : ∀ (l : List (Nat × Arr R)) (gr gr' : Grads R), assign (vs.map PVar.id) gr l = .ok gr' →
      v.id ∉ l.map Prod.fst → gr' v.id = gr v.id := by
    intro l
    induction l with
    | nil => intro gr gr' h _; cases h; rfl
    | cons e l ih =>
      intro gr gr' h hn
      obtain ⟨i, a⟩ := e
      have e1 : assign (vs.map PVar.id) gr ((i, a) :: l) =
        if i ∈ vs.map PVar.id then assign (vs.map PVar.id) (fun j => if j = i then some a else gr j) l
        else .error .stopIteration := rfl
      rw [e1] at h
      rw [List.map_cons, List.mem_cons, not_or] at hn
      by_cases hi : i ∈ vs.map PVar.id
      · rw [if_pos hi] at h
        rw [ih _ _ h hn.2, if_neg hn.1]
      · rw [if_neg hi] at h; cases h
  cases h : assign (vs.map PVar.id) (run vs []) (ctx.zip dvars) with
  | error e => exact ⟨e, rfl⟩
  | ok gr' =>
    have hg := key _ _ _ h (by
      intro hm
      obtain ⟨e, he, hid⟩ := List.mem_map.1 hm
      exact hc (hid ▸ (List.of_mem_zip he).1))
    apply mapM_error' _ _ v hv
    rw [hg]
    unfold field run
    by_cases h1 : size v.shape = 1
    · exact ⟨.typeError, by simp [h1]⟩
    · exact ⟨.attributeError, by simp [h1]⟩

/-- Any array of a shape. -/
def constArr (s : List Nat) (r : R) : Arr R := ⟨s, fun _ => r⟩

/-- The calls are independent of the history exactly for contexts that have all variables. -/
theorem C56_independent_iff (vs : List PVar) (r : R) (ctx : List Nat) (dvars : List (Arr R)) (hids : (vs.map PVar.id).Nodup)
    (hn : ctx.Nodup) (hc : ∀ i ∈ ctx, i ∈ vs.map PVar.id) (hl : dvars.length = ctx.length)
    (hfit : ∀ v ∈ vs, ∀ a, own ctx dvars v.id = some a → Fits v a) :
    (∀ ops ops' : List (Op R), (backward vs (run vs ops) ctx dvars).2 = (backward vs (run vs ops') ctx dvars).2) ↔
      ∀ v ∈ vs, v.id ∈ ctx := by
  constructor
  · intro h v hv
    by_contra hc'
    obtain ⟨e, he⟩ := C56_fails_fresh vs ctx dvars v hv hc'
    have hops : ∃ ops : List (Op R), ∀ w ∈ vs, run vs ops w.id = some (constArr w.shape r) := by
      have key : ∀ l : List PVar, (l.map PVar.id).Nodup →
          ∀ w ∈ l, run vs (l.map fun v => Op.setGrad v.id (some (constArr v.shape r))) w.id = some (constArr w.shape r) := by
        intro l
        induction l using List.reverseRecOn with
        | nil => intro _ w hw; cases hw
        | append_singleton l u ih =>
          intro hnd w hw
          have hnd' : (l.map PVar.id).Nodup ∧ ∀ w ∈ l, w.id ≠ u.id := by
            rw [List.map_append, List.nodup_append] at hnd
            exact ⟨hnd.1, fun w hw => hnd.2.2 _ (List.mem_map_of_mem hw) _ (by simp)⟩
          have er : run vs ((l ++ [u]).map fun v => Op.setGrad v.id (some (constArr v.shape r))) w.id
              = if w.id = u.id then some (constArr u.shape r)
                else run vs (l.map fun v => Op.setGrad v.id (some (constArr v.shape r))) w.id := by
            unfold run
            rw [List.map_append, List.foldl_append]
            rfl
          rw [er]
          rcases List.mem_append.1 hw with hw | hw
          · rw [if_neg (hnd'.2 w hw)]
            exact ih hnd'.1 w hw
          · rw [List.mem_singleton] at hw
            subst hw
            rw [if_pos rfl]
      exact ⟨_, key vs hids⟩
    obtain ⟨ops, hops⟩ := hops
    have h2 := h [] ops
    rw [he] at h2
    have hmap : (ctx.zip dvars).map Prod.fst = ctx := List.map_fst_zip (by omega)
    have ha := assign_spec (vs.map PVar.id) (ctx.zip dvars) (run vs ops)
      (fun e he => hc e.1 (by rw [← hmap]; exact List.mem_map_of_mem he)) (by rw [hmap]; exact hn)
    unfold backward at h2
    rw [ha] at h2
    unfold vdelta at h2
    dsimp only at h2
    rw [mapM_ok' _ (fun w => match (ctx.zip dvars).lookup w.id with
      | some a => flattenF w.shape a.val
      | none => flattenF w.shape fun _ => r) vs ?_] at h2
    · cases h2
    · intro w hw
      cases hk : (ctx.zip dvars).lookup w.id with
      | some a =>
        exact field_ok w a (hfit w hw a hk)
      | none =>
        simp only [hops w hw]
        exact field_ok w _ rfl
  · intro hall ops ops'
    rw [C56_partial vs ops ctx dvars hn hc hl hall hfit, C56_partial vs ops' ctx dvars hn hc hl hall hfit]

end

/-- Two variables; a first call sets both gradients, a second call, of a context with the first variable only, uses the
second variable's gradient of the first call. -/
theorem C56_fails_stale :
    let vs : List PVar := [⟨0, "x", [2]⟩, ⟨1, "y", [2]⟩]
    (backward vs (run vs [.backward [0, 1] [constArr [2] 1, constArr [2] 5]]) [0] [constArr [2] (3 : Int)]).2
      = .ok [[3, 3], [5, 5]] := by decide

example : (let vs : List PVar := [⟨0, "x", [2]⟩, ⟨1, "y", [1, 1]⟩]
    (backward vs (run vs [.backward [0] [constArr [2] 1], .setGrad 1 none, .forward]) [1, 0]
      [constArr [1, 1] 4, constArr [2] (3 : Int)]).2 = .ok [[3, 3], [4]]) ∧
    (∀ v ∈ [PVar.mk 0 "x" [2], ⟨1, "y", [1, 1]⟩], v.id ∈ [1, 0]) ∧ ([1, 0] : List Nat).Nodup := by decide
end Verif.Props
