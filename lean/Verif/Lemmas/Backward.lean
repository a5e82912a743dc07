import Verif.Spec.Backward
import Mathlib.Data.List.Nodup
namespace Verif.Lemmas.Backward
open Verif.Model.Flatten Verif.Model.Backward Verif.Spec.Backward
variable {R : Type}

theorem assign_spec (ids : List Nat) : ∀ (l : List (Nat × Arr R)) (gr : Grads R), (∀ e ∈ l, e.1 ∈ ids) →
    (l.map Prod.fst).Nodup →
    assign ids gr l = .ok fun j => match l.lookup j with
      | some a => some a
      | none => gr j := by
  intro l
  induction l with
  | nil => intro gr _ _; rfl
  | cons e l ih =>
    intro gr h hn
    obtain ⟨i, a⟩ := e
    rw [List.map_cons, List.nodup_cons] at hn
    have e1 : assign ids gr ((i, a) :: l) =
        if i ∈ ids then assign ids (fun j => if j = i then some a else gr j) l else .error .stopIteration := rfl
    rw [e1, if_pos (h (i, a) (List.mem_cons_self ..)), ih _ (fun e he => h e (List.mem_cons_of_mem _ he)) hn.2]
    congr 1
    funext j
    by_cases hj : j = i
    · subst hj
      have : l.lookup j = none := by
        rw [List.lookup_eq_none_iff]
        intro p hp
        simp only [bne_iff_ne, ne_eq]
        intro hjp
        have h' := List.mem_map_of_mem (f := Prod.fst) hp
        rw [← hjp] at h'
        exact hn.1 h'
      simp [this]
    · have hb : (j == i) = false := by simpa using hj
      simp only [List.lookup_cons, hb, if_neg hj]

theorem mapM_ok' {α β ε : Type} (f : α → Except ε β) (g : α → β) (l : List α) (h : ∀ a ∈ l, f a = .ok (g a)) :
    l.mapM f = .ok (l.map g) := by
  induction l with
  | nil => rfl
  | cons a l ih =>
    rw [List.mapM_cons, h a (List.mem_cons_self ..), ih fun b hb => h b (List.mem_cons_of_mem _ hb)]
    rfl

theorem mapM_error' {α β ε : Type} (f : α → Except ε β) (l : List α) (a : α) (ha : a ∈ l)
    (h : ∃ e, f a = .error e) : ∃ e, l.mapM f = .error e := by
  induction l with
  | nil => cases ha
  | cons b l ih =>
    rw [List.mapM_cons]
    cases hb : f b with
    | error e => exact ⟨e, rfl⟩
    | ok y =>
      rcases List.mem_cons.1 ha with rfl | ha
      · obtain ⟨e, he⟩ := h; rw [he] at hb; cases hb
      · obtain ⟨e, he⟩ := ih ha
        rw [he]
        exact ⟨e, rfl⟩

theorem one_of_mul {a b : Nat} (h : a * b = 1) : a = 1 ∧ b = 1 :=
  ⟨Nat.dvd_one.1 ⟨b, h.symm⟩, Nat.dvd_one.1 ⟨a, by rw [Nat.mul_comm]; exact h.symm⟩⟩

theorem field_ok (v : PVar) (a : Arr R) (h : Fits v a) : field v (some a) = .ok (flattenF v.shape a.val) := by
  unfold Fits at h
  unfold field
  by_cases h1 : size v.shape = 1
  · simp only [if_pos h1, h, if_true]
    congr 1
    have key : ∀ (s : List Nat) (t : List Nat → R), size s = 1 → ravelC s t = [t (s.map fun _ => 0)] := by
      intro s
      induction s with
      | nil => intro t _; rfl
      | cons d s ih =>
        intro t hs
        have hd : d = 1 ∧ size s = 1 := one_of_mul hs
        obtain ⟨rfl, hs'⟩ := hd
        have e : ravelC (1 :: s) t = ravelC s fun r => t (0 :: r) := by
          have : ravelC (1 :: s) t = (List.range 1).flatMap fun i => ravelC s fun r => t (i :: r) := rfl
          rw [this]; simp
        rw [e, ih _ hs']; rfl
    have hrev : ∀ s : List Nat, size s = 1 → size s.reverse = 1 := by
      have happ : ∀ a b : List Nat, size (a ++ b) = size a * size b := by
        intro a b
        induction a with
        | nil => simp [size]
        | cons d a ih => simp only [List.cons_append, size, ih, Nat.mul_assoc]
      intro s
      induction s with
      | nil => intro h; exact h
      | cons d s ih =>
        intro h
        have hd : d = 1 ∧ size s = 1 := one_of_mul h
        rw [List.reverse_cons, happ, ih hd.2, hd.1]
        rfl
    unfold flattenF
    rw [key _ _ (hrev _ h1)]
    congr 2
    rw [← List.map_reverse, List.reverse_reverse]
  · simp only [if_neg h1, h, if_true]

end Verif.Lemmas.Backward
