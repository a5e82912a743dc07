import Verif.Model.Register
import Mathlib.Data.List.Induction
namespace Verif.Lemmas.Register
open Verif.Model.Register

theorem split_none (c : Char) (s : List Char) (h : c ∉ s) : split c s = [s] := by
  induction s with
  | nil => rfl
  | cons a s ih =>
    rw [List.mem_cons, not_or] at h
    have ha : ¬ a = c := fun e => h.1 e.symm
    simp only [split, if_neg ha, ih h.2]

theorem importSolver_other (s : St) (n m : List Char) (h : m ≠ n) :
    (importSolver s n).1.mods m = s.mods m ∧ (importSolver s n).1.pkgs m = s.pkgs m := by
  unfold importSolver
  cases s.mods n with
  | some v => exact ⟨rfl, rfl⟩
  | none =>
    dsimp only
    cases (s.pkgs n).or (search s.fs s.sysPath n) with
    | none => exact ⟨rfl, rfl⟩
    | some p =>
      dsimp only
      cases s.fs p with
      | none => exact ⟨rfl, if_neg h⟩
      | some c =>
        dsimp only
        by_cases hb : c.built
        · rw [if_pos hb]; exact ⟨if_neg h, if_neg h⟩
        · rw [if_neg hb]; exact ⟨rfl, if_neg h⟩

theorem importSolver_kept (s : St) (n : List Char) (v : Nat) (h : (importSolver s n).2 = .ok v) :
    (importSolver s n).1.mods n = some v := by
  unfold importSolver at h ⊢
  cases hm : s.mods n with
  | some w => rw [hm] at h; cases h; exact hm
  | none =>
    rw [hm] at h
    dsimp only at h ⊢
    cases hp : (s.pkgs n).or (search s.fs s.sysPath n) with
    | none => rw [hp] at h; cases h
    | some p =>
      rw [hp] at h
      dsimp only at h ⊢
      cases hf : s.fs p with
      | none => rw [hf] at h; cases h
      | some c =>
        rw [hf] at h
        dsimp only at h ⊢
        by_cases hb : c.built
        · rw [if_pos hb] at h ⊢
          cases h
          exact if_pos rfl
        · rw [if_neg hb] at h; cases h

theorem step_other (s : St) (o : Op) (cd : List Char) (h : ∀ ok, Op.generate cd ok ≠ o) :
    (step s o).mods cd = s.mods cd ∧ (step s o).pkgs cd = s.pkgs cd := by
  cases o with
  | chdir p => exact ⟨rfl, rfl⟩
  | generate cd' ok =>
    have hne : cd ≠ cd' := fun e => h ok (by rw [e])
    exact importSolver_other _ cd' cd hne

theorem split_mem_no (c : Char) (s : List Char) : ∀ w ∈ split c s, c ∉ w := by
  induction s with
  | nil => intro w hw; rw [show split c [] = [[]] from rfl, List.mem_singleton] at hw; subst hw; simp
  | cons a s ih =>
    intro w hw
    unfold split at hw
    by_cases h : a = c
    · rw [if_pos h] at hw
      rcases List.mem_cons.1 hw with rfl | hw
      · simp
      · exact ih w hw
    · rw [if_neg h] at hw
      cases hsp : split c s with
      | nil =>
        rw [hsp] at hw
        rw [List.mem_singleton] at hw; subst hw
        simpa using fun e => h e.symm
      | cons x xs =>
        rw [hsp] at hw ih
        rcases List.mem_cons.1 hw with rfl | hw
        · rw [List.mem_cons, not_or]
          exact ⟨fun e => h e.symm, ih x (List.mem_cons_self ..)⟩
        · exact ih w (List.mem_cons_of_mem _ hw)

theorem split_mem_other (c d : Char) (hcd : c ≠ d) (s : List Char) (h : d ∈ s) : ∃ w ∈ split c s, d ∈ w := by
  induction s with
  | nil => cases h
  | cons a s ih =>
    unfold split
    by_cases ha : a = c
    · rw [if_pos ha]
      rcases List.mem_cons.1 h with e | h
      · exact absurd (e.trans ha).symm hcd
      · obtain ⟨w, hw, hd⟩ := ih h
        exact ⟨w, List.mem_cons_of_mem _ hw, hd⟩
    · rw [if_neg ha]
      cases hsp : split c s with
      | nil =>
        rcases List.mem_cons.1 h with e | h
        · exact ⟨[a], by simp, by simp [e]⟩
        · obtain ⟨w, hw, _⟩ := ih h; rw [hsp] at hw; cases hw
      | cons x xs =>
        rcases List.mem_cons.1 h with e | h
        · exact ⟨a :: x, List.mem_cons_self .., by simp [e]⟩
        · obtain ⟨w, hw, hd⟩ := ih h
          rw [hsp] at hw
          rcases List.mem_cons.1 hw with rfl | hw
          · exact ⟨a :: w, List.mem_cons_self .., List.mem_cons_of_mem _ hd⟩
          · exact ⟨w, List.mem_cons_of_mem _ hw, hd⟩

end Verif.Lemmas.Register
