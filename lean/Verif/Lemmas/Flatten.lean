import Verif.Spec.Flatten
import Mathlib.Tactic.Ring
import Mathlib.Tactic.Linarith
import Mathlib.Data.List.Basic
namespace Verif.Lemmas.Flatten
open Verif.Model.Flatten Verif.Spec.Flatten

variable {R : Type}

/-- Row-major position. -/
def posC : List Nat → List Nat → Nat
  | _ :: ds, i :: r => i * size ds + posC ds r
  | _, _ => 0

theorem inBounds_length : ∀ (s r : List Nat), InBounds s r → s.length = r.length
  | [], [], _ => rfl
  | _ :: ds, _ :: r, h => by simp [inBounds_length ds r h.2]

theorem inBounds_append : ∀ (s r : List Nat) (d i : Nat), s.length = r.length →
    (InBounds (s ++ [d]) (r ++ [i]) ↔ InBounds s r ∧ i < d)
  | [], [], d, i, _ => by simp [InBounds]
  | a :: s, b :: r, d, i, h => by
    have := inBounds_append s r d i (by simpa using h)
    simp only [List.cons_append, InBounds, this]
    tauto

theorem inBounds_reverse (s : List Nat) : ∀ r : List Nat, InBounds s r → InBounds s.reverse r.reverse := by
  induction s with
  | nil => intro r h; cases r with
    | nil => trivial
    | cons => exact absurd h (by simp [InBounds])
  | cons d ds ih =>
    intro r h
    cases r with
    | nil => exact absurd h (by simp [InBounds])
    | cons i r =>
      rw [List.reverse_cons, List.reverse_cons, inBounds_append _ _ _ _ (by simp [inBounds_length _ _ h.2])]
      exact ⟨ih r h.2, h.1⟩

theorem size_append (s : List Nat) (d : Nat) : size (s ++ [d]) = size s * d := by
  induction s with
  | nil => simp [size]
  | cons a s ih => simp only [List.cons_append, size, ih]; ring

theorem size_reverse (s : List Nat) : size s.reverse = size s := by
  induction s with
  | nil => rfl
  | cons d s ih => rw [List.reverse_cons, size_append, ih, size]; ring

theorem posC_append : ∀ (s r : List Nat) (d i : Nat), s.length = r.length →
    posC (s ++ [d]) (r ++ [i]) = posC s r * d + i
  | [], [], d, i, _ => by simp [posC, size]
  | a :: s, b :: r, d, i, h => by
    have := posC_append s r d i (by simpa using h)
    simp only [List.cons_append, posC, this, size_append]
    ring

theorem posC_reverse (s : List Nat) : ∀ r : List Nat, s.length = r.length → posC s.reverse r.reverse = pos s r := by
  induction s with
  | nil => intro r h; cases r <;> simp_all [posC, pos]
  | cons d s ih =>
    intro r h
    cases r with
    | nil => simp at h
    | cons i r =>
      have h' : s.length = r.length := by simpa using h
      rw [List.reverse_cons, List.reverse_cons, posC_append _ _ _ _ (by simpa using h'), ih r h', pos]
      ring

theorem posC_lt : ∀ (s r : List Nat), InBounds s r → posC s r < size s
  | [], [], _ => by simp [posC, size]
  | d :: ds, i :: r, h => by
    have := posC_lt ds r h.2
    have h1 := h.1
    simp only [posC, size]
    calc i * size ds + posC ds r < i * size ds + size ds := by omega
      _ = (i + 1) * size ds := by ring
      _ ≤ d * size ds := Nat.mul_le_mul_right _ h1

theorem flatMap_block (f : Nat → List R) (b : Nat) (hf : ∀ i, (f i).length = b) (d : Nat) :
    ((List.range d).flatMap f).length = d * b ∧
    ∀ i k, i < d → k < b → ((List.range d).flatMap f)[i * b + k]? = (f i)[k]? := by
  induction d with
  | zero => simp
  | succ d ih =>
    obtain ⟨h1, h2⟩ := ih
    rw [List.range_succ, List.flatMap_append]
    have e : [d].flatMap f = f d := by simp
    rw [e]
    refine ⟨by rw [List.length_append, h1, hf]; ring, fun i k hi hk => ?_⟩
    by_cases h : i < d
    · rw [List.getElem?_append_left, h2 i k h hk]
      rw [h1]
      calc i * b + k < i * b + b := by omega
        _ = (i + 1) * b := by ring
        _ ≤ d * b := Nat.mul_le_mul_right _ h
    · have : i = d := by omega
      subst this
      rw [List.getElem?_append_right (by rw [h1]; omega), h1]
      congr 1
      omega

theorem ravelC_spec : ∀ (s : List Nat) (t : List Nat → R),
    (ravelC s t).length = size s ∧ ∀ r, InBounds s r → (ravelC s t)[posC s r]? = some (t r)
  | [], t => ⟨rfl, fun r h => by cases r with
    | nil => rfl
    | cons => exact absurd h (by simp [InBounds])⟩
  | d :: ds, t => by
    have ih := fun i => ravelC_spec ds (fun r => t (i :: r))
    obtain ⟨h1, h2⟩ := flatMap_block (fun i => ravelC ds fun r => t (i :: r)) (size ds) (fun i => (ih i).1) d
    refine ⟨h1, fun r h => ?_⟩
    cases r with
    | nil => exact absurd h (by simp [InBounds])
    | cons i r =>
      have := h2 i (posC ds r) h.1 (posC_lt ds r h.2)
      rw [show ravelC (d :: ds) t = (List.range d).flatMap fun i => ravelC ds fun r => t (i :: r) from rfl,
        show posC (d :: ds) (i :: r) = i * size ds + posC ds r from rfl, this]
      exact (ih i).2 r h.2

theorem reshapeC_spec : ∀ (s : List Nat) (l : List R) (r : List Nat), InBounds s r →
    reshapeC s l r = l[posC s r]? ∨ l.length < size s
  | [], l, [], _ => by left; cases l <;> rfl
  | d :: ds, l, i :: r, h => by
    by_cases hl : l.length < size (d :: ds)
    · exact Or.inr hl
    · left
      rw [show reshapeC (d :: ds) l (i :: r) =
        if i < d then reshapeC ds ((l.drop (i * size ds)).take (size ds)) r else none from rfl, if_pos h.1]
      have hp := posC_lt ds r h.2
      have hb : (i + 1) * size ds ≤ d * size ds := Nat.mul_le_mul_right _ h.1
      rcases reshapeC_spec ds ((l.drop (i * size ds)).take (size ds)) r h.2 with e | e
      · rw [e, List.getElem?_take_of_lt hp, List.getElem?_drop]
        rfl
      · exfalso
        rw [List.length_take, List.length_drop] at e
        simp only [size] at hl
        have : (i + 1) * size ds = i * size ds + size ds := by ring
        omega

/-- The index at a column-major position. -/
def idxOf : List Nat → Nat → List Nat
  | [], _ => []
  | d :: ds, k => (k % d) :: idxOf ds (k / d)

theorem idxOf_spec : ∀ (s : List Nat) (k : Nat), k < size s → InBounds s (idxOf s k) ∧ pos s (idxOf s k) = k
  | [], k, h => ⟨trivial, by simp [size] at h; subst h; rfl⟩
  | d :: ds, k, h => by
    have hd : 0 < d := by
      rcases Nat.eq_zero_or_pos d with e | e
      · subst e; simp [size] at h
      · exact e
    obtain ⟨h1, h2⟩ := idxOf_spec ds (k / d) (Nat.div_lt_of_lt_mul h)
    refine ⟨⟨Nat.mod_lt _ hd, h1⟩, ?_⟩
    simp only [idxOf, pos, h2]
    exact Nat.mod_add_div k d

theorem pos_inj : ∀ (s r r' : List Nat), InBounds s r → InBounds s r' → pos s r = pos s r' → r = r'
  | [], [], [], _, _, _ => rfl
  | d :: ds, i :: r, i' :: r', h, h', e => by
    simp only [pos] at e
    have e1 : i = i' := by
      have := congrArg (· % d) e
      simpa [Nat.add_mul_mod_self_left, Nat.mod_eq_of_lt h.1, Nat.mod_eq_of_lt h'.1] using this
    subst e1
    have hd : 0 < d := Nat.lt_of_le_of_lt (Nat.zero_le _) h.1
    have e2 : pos ds r = pos ds r' := Nat.eq_of_mul_eq_mul_left hd (by omega)
    rw [pos_inj ds r r' h.2 h'.2 e2]

theorem pos_lt (s r : List Nat) (h : InBounds s r) : pos s r < size s := by
  rw [← posC_reverse s r (inBounds_length s r h), ← size_reverse s]
  exact posC_lt _ _ (inBounds_reverse s r h)

theorem flattenF_spec (s : List Nat) (t : List Nat → R) :
    (flattenF s t).length = size s ∧ ∀ r, InBounds s r → (flattenF s t)[pos s r]? = some (t r) := by
  obtain ⟨h1, h2⟩ := ravelC_spec s.reverse (fun r => t r.reverse)
  refine ⟨by rw [flattenF, h1, size_reverse], fun r h => ?_⟩
  rw [flattenF, ← posC_reverse s r (inBounds_length s r h), h2 _ (inBounds_reverse s r h), List.reverse_reverse]

theorem reshapeF_spec (s : List Nat) (l : List R) (hl : l.length = size s) : ∃ f, reshapeF s l = some f ∧
    ∀ r, InBounds s r → f r = l[pos s r]? := by
  refine ⟨_, if_pos hl, fun r h => ?_⟩
  rcases reshapeC_spec s.reverse l r.reverse (inBounds_reverse s r h) with e | e
  · rw [e, posC_reverse s r (inBounds_length s r h)]
  · rw [size_reverse] at e; omega

theorem mul_one_iff {a b : Nat} (h : a * b = 1) : a = 1 ∧ b = 1 :=
  ⟨Nat.eq_one_of_dvd_one ⟨b, h.symm⟩, Nat.eq_one_of_dvd_one ⟨a, by rw [Nat.mul_comm]; exact h.symm⟩⟩

theorem zeros_of_size_one : ∀ (s r : List Nat), size s = 1 → InBounds s r → r = s.map fun _ => 0
  | [], [], _, _ => rfl
  | d :: ds, i :: r, h, hb => by
    simp only [size] at h
    obtain ⟨h1, h2⟩ := mul_one_iff h
    have := zeros_of_size_one ds r h2 hb.2
    have hi := hb.1
    have : i = 0 := by omega
    rw [List.map_cons, ‹r = _›, this]

theorem zeros_inBounds : ∀ (s : List Nat), size s = 1 → InBounds s (s.map fun _ => 0)
  | [], _ => trivial
  | d :: ds, h => by
    simp only [size] at h
    obtain ⟨h1, h2⟩ := mul_one_iff h
    exact ⟨by show 0 < d; omega, zeros_inBounds ds h2⟩

end Verif.Lemmas.Flatten
