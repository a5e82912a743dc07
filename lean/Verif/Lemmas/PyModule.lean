import Verif.Spec.PyModule
import Verif.Props.Dispatch
import Mathlib.Data.List.Infix
/-!
Helper lemmas for C65.
-/
namespace Verif.Lemmas.PyModule
open Verif.Model.Text Verif.Model.Dispatch Verif.Model.Symbols Verif.Model.Structs Verif.Model.PyModule
open Verif.Spec.Dispatch Verif.Spec.PyModule

@[simp] theorem mem_ifl {α : Type} (p : Prop) [Decidable p] (a : α) (l m : List α) :
    (a ∈ if p then l else m) ↔ (p ∧ a ∈ l) ∨ (¬ p ∧ a ∈ m) := by
  split <;> simp [*]

theorem hasAttr_some (l : List (Txt × Txt)) (a : Txt) : HasAttr (some l) a ↔ a ∈ l.map Prod.fst :=
  ⟨fun ⟨_, e, h⟩ => (Option.some.inj e) ▸ h, fun h => ⟨l, rfl, h⟩⟩
theorem hasAttr_none (a : Txt) : HasAttr none a ↔ False := ⟨fun ⟨_, e, _⟩ => (by cases e), False.elim⟩
theorem hasAttr_ite (p : Prop) [Decidable p] (x y : Option (List (Txt × Txt))) (a : Txt) :
    HasAttr (if p then x else y) a ↔ (p ∧ HasAttr x a) ∨ (¬ p ∧ HasAttr y a) := by split <;> simp [*]
theorem hasMember_some (l : List Txt) (a : Txt) : HasMember (some l) a ↔ a ∈ l :=
  ⟨fun ⟨_, e, h⟩ => (Option.some.inj e) ▸ h, fun h => ⟨l, rfl, h⟩⟩
theorem hasMember_none (a : Txt) : HasMember none a ↔ False := ⟨fun ⟨_, e, _⟩ => (by cases e), False.elim⟩
theorem hasMember_ite (p : Prop) [Decidable p] (x y : Option (List Txt)) (a : Txt) :
    HasMember (if p then x else y) a ↔ (p ∧ HasMember x a) ∨ (¬ p ∧ HasMember y a) := by split <;> simp [*]

/-- May stand in front of an identifier. -/
def PreOK (a : Txt) : Prop := a = [] ∨ isIdentifier a = true

/-- The keywords as lists of characters. -/
def kwChars : List Txt := [
  ['a', 'l', 'i', 'g', 'n', 'a', 's'],
  ['a', 'l', 'i', 'g', 'n', 'o', 'f'],
  ['a', 'u', 't', 'o'],
  ['b', 'o', 'o', 'l'],
  ['b', 'r', 'e', 'a', 'k'],
  ['c', 'a', 's', 'e'],
  ['c', 'h', 'a', 'r'],
  ['c', 'o', 'n', 's', 't'],
  ['c', 'o', 'n', 's', 't', 'e', 'x', 'p', 'r'],
  ['c', 'o', 'n', 't', 'i', 'n', 'u', 'e'],
  ['d', 'e', 'f', 'a', 'u', 'l', 't'],
  ['d', 'o'],
  ['d', 'o', 'u', 'b', 'l', 'e'],
  ['e', 'l', 's', 'e'],
  ['e', 'n', 'u', 'm'],
  ['e', 'x', 't', 'e', 'r', 'n'],
  ['f', 'a', 'l', 's', 'e'],
  ['f', 'l', 'o', 'a', 't'],
  ['f', 'o', 'r'],
  ['g', 'o', 't', 'o'],
  ['i', 'f'],
  ['i', 'n', 'l', 'i', 'n', 'e'],
  ['i', 'n', 't'],
  ['l', 'o', 'n', 'g'],
  ['n', 'u', 'l', 'l', 'p', 't', 'r'],
  ['r', 'e', 'g', 'i', 's', 't', 'e', 'r'],
  ['r', 'e', 's', 't', 'r', 'i', 'c', 't'],
  ['r', 'e', 't', 'u', 'r', 'n'],
  ['s', 'h', 'o', 'r', 't'],
  ['s', 'i', 'g', 'n', 'e', 'd'],
  ['s', 'i', 'z', 'e', 'o', 'f'],
  ['s', 't', 'a', 't', 'i', 'c'],
  ['s', 't', 'a', 't', 'i', 'c', '_', 'a', 's', 's', 'e', 'r', 't'],
  ['s', 't', 'r', 'u', 'c', 't'],
  ['s', 'w', 'i', 't', 'c', 'h'],
  ['t', 'h', 'r', 'e', 'a', 'd', '_', 'l', 'o', 'c', 'a', 'l'],
  ['t', 'r', 'u', 'e'],
  ['t', 'y', 'p', 'e', 'd', 'e', 'f'],
  ['t', 'y', 'p', 'e', 'o', 'f'],
  ['t', 'y', 'p', 'e', 'o', 'f', '_', 'u', 'n', 'q', 'u', 'a', 'l'],
  ['u', 'n', 'i', 'o', 'n'],
  ['u', 'n', 's', 'i', 'g', 'n', 'e', 'd'],
  ['v', 'o', 'i', 'd'],
  ['v', 'o', 'l', 'a', 't', 'i', 'l', 'e'],
  ['w', 'h', 'i', 'l', 'e'],
  ['_', 'A', 'l', 'i', 'g', 'n', 'a', 's'],
  ['_', 'A', 'l', 'i', 'g', 'n', 'o', 'f'],
  ['_', 'A', 't', 'o', 'm', 'i', 'c'],
  ['_', 'B', 'i', 't', 'I', 'n', 't'],
  ['_', 'B', 'o', 'o', 'l'],
  ['_', 'C', 'o', 'm', 'p', 'l', 'e', 'x'],
  ['_', 'D', 'e', 'c', 'i', 'm', 'a', 'l', '1', '2', '8'],
  ['_', 'D', 'e', 'c', 'i', 'm', 'a', 'l', '3', '2'],
  ['_', 'D', 'e', 'c', 'i', 'm', 'a', 'l', '6', '4'],
  ['_', 'G', 'e', 'n', 'e', 'r', 'i', 'c'],
  ['_', 'I', 'm', 'a', 'g', 'i', 'n', 'a', 'r', 'y'],
  ['_', 'N', 'o', 'r', 'e', 't', 'u', 'r', 'n'],
  ['_', 'S', 't', 'a', 't', 'i', 'c', '_', 'a', 's', 's', 'e', 'r', 't'],
  ['_', 'T', 'h', 'r', 'e', 'a', 'd', '_', 'l', 'o', 'c', 'a', 'l'],
  ['a', 'n', 'd'],
  ['a', 'n', 'd', '_', 'e', 'q'],
  ['a', 's', 'm'],
  ['b', 'i', 't', 'a', 'n', 'd'],
  ['b', 'i', 't', 'o', 'r'],
  ['c', 'a', 't', 'c', 'h'],
  ['c', 'h', 'a', 'r', '8', '_', 't'],
  ['c', 'h', 'a', 'r', '1', '6', '_', 't'],
  ['c', 'h', 'a', 'r', '3', '2', '_', 't'],
  ['c', 'l', 'a', 's', 's'],
  ['c', 'o', 'm', 'p', 'l'],
  ['c', 'o', 'n', 'c', 'e', 'p', 't'],
  ['c', 'o', 'n', 's', 't', 'e', 'v', 'a', 'l'],
  ['c', 'o', 'n', 's', 't', 'i', 'n', 'i', 't'],
  ['c', 'o', 'n', 's', 't', '_', 'c', 'a', 's', 't'],
  ['c', 'o', '_', 'a', 'w', 'a', 'i', 't'],
  ['c', 'o', '_', 'r', 'e', 't', 'u', 'r', 'n'],
  ['c', 'o', '_', 'y', 'i', 'e', 'l', 'd'],
  ['d', 'e', 'c', 'l', 't', 'y', 'p', 'e'],
  ['d', 'e', 'l', 'e', 't', 'e'],
  ['d', 'y', 'n', 'a', 'm', 'i', 'c', '_', 'c', 'a', 's', 't'],
  ['e', 'x', 'p', 'l', 'i', 'c', 'i', 't'],
  ['e', 'x', 'p', 'o', 'r', 't'],
  ['f', 'r', 'i', 'e', 'n', 'd'],
  ['m', 'u', 't', 'a', 'b', 'l', 'e'],
  ['n', 'a', 'm', 'e', 's', 'p', 'a', 'c', 'e'],
  ['n', 'e', 'w'],
  ['n', 'o', 'e', 'x', 'c', 'e', 'p', 't'],
  ['n', 'o', 't'],
  ['n', 'o', 't', '_', 'e', 'q'],
  ['o', 'p', 'e', 'r', 'a', 't', 'o', 'r'],
  ['o', 'r'],
  ['o', 'r', '_', 'e', 'q'],
  ['p', 'r', 'i', 'v', 'a', 't', 'e'],
  ['p', 'r', 'o', 't', 'e', 'c', 't', 'e', 'd'],
  ['p', 'u', 'b', 'l', 'i', 'c'],
  ['r', 'e', 'i', 'n', 't', 'e', 'r', 'p', 'r', 'e', 't', '_', 'c', 'a', 's', 't'],
  ['r', 'e', 'q', 'u', 'i', 'r', 'e', 's'],
  ['s', 't', 'a', 't', 'i', 'c', '_', 'c', 'a', 's', 't'],
  ['t', 'e', 'm', 'p', 'l', 'a', 't', 'e'],
  ['t', 'h', 'i', 's'],
  ['t', 'h', 'r', 'o', 'w'],
  ['t', 'r', 'y'],
  ['t', 'y', 'p', 'e', 'i', 'd'],
  ['t', 'y', 'p', 'e', 'n', 'a', 'm', 'e'],
  ['u', 's', 'i', 'n', 'g'],
  ['v', 'i', 'r', 't', 'u', 'a', 'l'],
  ['w', 'c', 'h', 'a', 'r', '_', 't'],
  ['x', 'o', 'r'],
  ['x', 'o', 'r', '_', 'e', 'q'],
  ['F', 'a', 'l', 's', 'e'],
  ['N', 'o', 'n', 'e'],
  ['T', 'r', 'u', 'e'],
  ['a', 's'],
  ['a', 's', 's', 'e', 'r', 't'],
  ['a', 's', 'y', 'n', 'c'],
  ['a', 'w', 'a', 'i', 't'],
  ['d', 'e', 'f'],
  ['d', 'e', 'l'],
  ['e', 'l', 'i', 'f'],
  ['e', 'x', 'c', 'e', 'p', 't'],
  ['f', 'i', 'n', 'a', 'l', 'l', 'y'],
  ['f', 'r', 'o', 'm'],
  ['g', 'l', 'o', 'b', 'a', 'l'],
  ['i', 'm', 'p', 'o', 'r', 't'],
  ['i', 'n'],
  ['i', 's'],
  ['l', 'a', 'm', 'b', 'd', 'a'],
  ['n', 'o', 'n', 'l', 'o', 'c', 'a', 'l'],
  ['p', 'a', 's', 's'],
  ['r', 'a', 'i', 's', 'e'],
  ['w', 'i', 't', 'h'],
  ['y', 'i', 'e', 'l', 'd']]

theorem keywords_eq : keywords = kwChars := by decide +kernel

/-- Does `b` occur in `k`? -/
def occurs (b : Txt) : Txt → Bool
  | [] => b.isPrefixOf []
  | c :: k => b.isPrefixOf (c :: k) || occurs b k

theorem occurs_mid (a b c : Txt) : occurs b (a ++ (b ++ c)) = true := by
  have hp : b.isPrefixOf (b ++ c) = true := List.isPrefixOf_iff_prefix.2 ⟨c, rfl⟩
  induction a with
  | nil =>
    rw [List.nil_append]
    cases h : b ++ c with
    | nil => rw [h] at hp; exact hp
    | cons x k => rw [h] at hp; simp only [occurs, hp, Bool.true_or]
  | cons x a ih => simp only [List.cons_append, occurs, ih, Bool.or_true]

/-- An identifier that is part of no keyword. -/
def solid (b : Txt) : Bool := isIdentifier b && kwChars.all fun k => !occurs b k

/-- An identifier that is the end of no keyword. -/
def solidEnd (b : Txt) : Bool := isIdentifier b && kwChars.all fun k => !b.isSuffixOf k

theorem all_of_identifier {b : Txt} (h : isIdentifier b = true) : b.all isIdChar = true := by
  cases b with
  | nil => cases h
  | cons c t =>
    simp only [isIdentifier, Bool.and_eq_true, Bool.or_eq_true] at h
    simp only [List.all_cons, Bool.and_eq_true, isIdChar, Bool.or_eq_true]
    exact ⟨h.1.elim (fun x => .inl (.inl x)) .inr, h.2⟩

theorem identifier_append {a b : Txt} (h : isIdentifier a = true) (hb : b.all isIdChar = true) :
    isIdentifier (a ++ b) = true := by
  cases a with
  | nil => cases h
  | cons c t =>
    simp only [isIdentifier, Bool.and_eq_true] at h
    simp only [List.cons_append, isIdentifier, Bool.and_eq_true, List.all_append]
    exact ⟨h.1, h.2, hb⟩

theorem identifier_pre {a b : Txt} (h : PreOK a) (hb : isIdentifier b = true) : isIdentifier (a ++ b) = true := by
  rcases h with rfl | h
  · exact hb
  · exact identifier_append h (all_of_identifier hb)

theorem preOK_append {a b : Txt} (h : PreOK a) (hb : PreOK b) : PreOK (a ++ b) := by
  rcases hb with rfl | hb
  · rwa [List.append_nil]
  · exact .inr (identifier_pre h hb)

@[simp] theorem word3 {a b c : Txt} (ha : PreOK a) (hb : solid b = true) (hc : c.all isIdChar = true) : isWord (a ++ (b ++ c)) = true := by
  simp only [solid, Bool.and_eq_true] at hb
  simp only [isWord, Bool.and_eq_true, Bool.not_eq_true', ← Bool.not_eq_true, List.contains_iff_mem]
  refine ⟨identifier_pre ha (identifier_append hb.1 hc), fun hk => ?_⟩
  have := List.all_eq_true.1 hb.2 _ (keywords_eq ▸ hk)
  rw [occurs_mid] at this
  cases this

@[simp] theorem word2 {a b : Txt} (ha : PreOK a) (hb : solid b = true) : isWord (a ++ b) = true := by
  have := word3 (c := []) ha hb rfl
  rwa [List.append_nil] at this

@[simp] theorem word1 {b : Txt} (hb : solid b = true) : isWord b = true := word2 (.inl rfl) hb
theorem word1' {b c : Txt} (hb : solid b = true) (hc : c.all isIdChar = true) : isWord (b ++ c) = true := word3 (.inl rfl) hb hc

@[simp] theorem wordEnd {a b : Txt} (ha : PreOK a) (hb : solidEnd b = true) : isWord (a ++ b) = true := by
  simp only [solidEnd, Bool.and_eq_true] at hb
  simp only [isWord, Bool.and_eq_true, Bool.not_eq_true', ← Bool.not_eq_true, List.contains_iff_mem]
  refine ⟨identifier_pre ha hb.1, fun hk => ?_⟩
  have := List.all_eq_true.1 hb.2 _ (keywords_eq ▸ hk)
  rw [List.isSuffixOf_iff_suffix.2 ⟨a, rfl⟩] at this
  cases this

@[simp] theorem solid_cpg_params_vec : solid S.cpg_params_vec = true := by decide +kernel
@[simp] theorem solid_cpg_params_vec_lower : solid S.cpg_params_vec_lower = true := by decide +kernel
@[simp] theorem solid_cpg_params_vec_upper : solid S.cpg_params_vec_upper = true := by decide +kernel
@[simp] theorem solid_canon_ : solid S.canon_ = true := by decide +kernel
/-- No keyword ends in `d` and a number. -/
def noNumber (k : Txt) : Bool := k.tails.all fun s => match s with
  | 'd' :: ds => ds.isEmpty || !ds.all Char.isDigit
  | _ => true

theorem noNumber_all : kwChars.all noNumber = true := by decide +kernel

theorem digit_idChar {c : Char} (h : c.isDigit = true) : isIdChar c = true := by
  simp only [Char.isDigit, Bool.and_eq_true, decide_eq_true_eq] at h
  have h1 : 48 ≤ c.toNat := h.1
  have h2 : c.toNat ≤ 57 := h.2
  simp only [isIdChar, Bool.or_eq_true, Bool.and_eq_true, decide_eq_true_eq]
  exact .inl (.inr ⟨h1, h2⟩)

theorem toDigits_cons (i : Nat) : Nat.toDigits 10 i ≠ [] := by
  intro h
  have := Nat.length_toDigits_pos (b := 10) (n := i)
  rw [h] at this
  exact absurd this (Nat.lt_irrefl 0)

theorem wordNumber {a : Txt} (ha : PreOK a) (i : Nat) : isWord (a ++ 'd' :: Nat.toDigits 10 i) = true := by
  have hd : (Nat.toDigits 10 i).all Char.isDigit = true :=
    List.all_eq_true.2 fun c hc => Nat.isDigit_of_mem_toDigits (by decide) (by decide) hc
  have hid : isIdentifier ('d' :: Nat.toDigits 10 i) = true := by
    simp only [isIdentifier, Bool.and_eq_true]
    exact ⟨by decide, List.all_eq_true.2 fun c hc => digit_idChar (List.all_eq_true.1 hd c hc)⟩
  simp only [isWord, Bool.and_eq_true, Bool.not_eq_true', ← Bool.not_eq_true, List.contains_iff_mem]
  refine ⟨identifier_pre ha hid, fun hk => ?_⟩
  have := List.all_eq_true.1 noNumber_all _ (keywords_eq ▸ hk)
  have := List.all_eq_true.1 this ('d' :: Nat.toDigits 10 i) ((List.mem_tails _ _).2 ⟨a, rfl⟩)
  simp only [hd, Bool.not_true, Bool.or_false, List.isEmpty_iff] at this
  exact toDigits_cons i this

theorem preOK_normPrefix {p : Txt} (hp : p.all isIdChar = true) : PreOK (normPrefix p) := by
  cases p with
  | nil => exact .inl rfl
  | cons c t =>
    refine .inr ?_
    simp only [List.all_cons, Bool.and_eq_true] at hp
    unfold normPrefix
    by_cases hc : isAlpha c = true
    · simp only [hc, if_true, List.cons_append, isIdentifier, Bool.true_or, Bool.true_and, List.all_append, hp.2]
      decide
    · simp only [if_neg hc, List.cons_append, isIdentifier, Bool.and_eq_true, List.all_cons, hp.1, hp.2, List.all_append]
      decide

theorem chars_of_word {t : Txt} (h : isWord t = true) : t.all isIdChar = true := by
  simp only [isWord, Bool.and_eq_true] at h
  exact all_of_identifier h.1

@[simp] theorem chars_map : S._map.all isIdChar = true := by decide +kernel
@[simp] theorem chars_conditioning : S._conditioning.all isIdChar = true := by decide +kernel
@[simp] theorem chars_i : S._i.all isIdChar = true := by decide +kernel
@[simp] theorem chars_p : S._p.all isIdChar = true := by decide +kernel
@[simp] theorem chars_x : S._x.all isIdChar = true := by decide +kernel
@[simp] theorem solid_cpg_theta : solid S.cpg_theta = true := by decide +kernel
@[simp] theorem solid_sol_x : solid S.sol_x = true := by decide +kernel
@[simp] theorem solid_sol_y : solid S.sol_y = true := by decide +kernel
@[simp] theorem solid_Canon_Params : solid S.Canon_Params = true := by decide +kernel
@[simp] theorem solid_Canon_Params_conditioning : solid S.Canon_Params_conditioning = true := by decide +kernel
@[simp] theorem solid_Canon_Outdated : solid S.Canon_Outdated = true := by decide +kernel
@[simp] theorem solid_Canon_Outdated_Grad : solid S.Canon_Outdated_Grad = true := by decide +kernel
@[simp] theorem solid_cpg_ : solid S.cpg_ = true := by decide +kernel
@[simp] theorem solid_CPG_Prim : solid S.CPG_Prim = true := by decide +kernel
@[simp] theorem solid_CPG_Dual : solid S.CPG_Dual = true := by decide +kernel
@[simp] theorem solid_CPG_Info : solid S.CPG_Info = true := by decide +kernel
@[simp] theorem solid_CPG_Result : solid S.CPG_Result = true := by decide +kernel
@[simp] theorem solid_Canon_Settings : solid S.Canon_Settings = true := by decide +kernel
@[simp] theorem solid_cpg_dp : solid S.cpg_dp = true := by decide +kernel
@[simp] theorem solid_CPG_Delta : solid S.CPG_Delta = true := by decide +kernel
@[simp] theorem solid_gradient_ : solid S.gradient_ = true := by decide +kernel
@[simp] theorem solid_scs_ : solid S.scs_ = true := by decide +kernel
@[simp] theorem solid_Scs_ : solid S.Scs_ = true := by decide +kernel
@[simp] theorem solid_Scs_D : solid S.Scs_D = true := by decide +kernel
@[simp] theorem solid_scs_q : solid S.scs_q = true := by decide +kernel
@[simp] theorem solid_Scs_K : solid S.Scs_K = true := by decide +kernel
@[simp] theorem solid_scs_x : solid S.scs_x = true := by decide +kernel
@[simp] theorem solid_scs_y : solid S.scs_y = true := by decide +kernel
@[simp] theorem solid_scs_s : solid S.scs_s = true := by decide +kernel
@[simp] theorem solid_Scs_Sol : solid S.Scs_Sol = true := by decide +kernel
@[simp] theorem solid_Scs_Info : solid S.Scs_Info = true := by decide +kernel
@[simp] theorem solid_Scs_Work : solid S.Scs_Work = true := by decide +kernel
@[simp] theorem solid_ecos_q : solid S.ecos_q = true := by decide +kernel
@[simp] theorem solid_ecos_workspace : solid S.ecos_workspace = true := by decide +kernel
@[simp] theorem solid_ecos_flag : solid S.ecos_flag = true := by decide +kernel
@[simp] theorem solid_cones : solid S.cones = true := by decide +kernel
@[simp] theorem solid_settings : solid S.settings = true := by decide +kernel
@[simp] theorem solid_solver : solid S.solver = true := by decide +kernel
@[simp] theorem solid_solution : solid S.solution = true := by decide +kernel
@[simp] theorem solid_qoco_q : solid S.qoco_q = true := by decide +kernel
@[simp] theorem solid_qoco_solver : solid S.qoco_solver = true := by decide +kernel
@[simp] theorem solid_qoco_flag : solid S.qoco_flag = true := by decide +kernel
@[simp] theorem solid_qoco_custom_q : solid S.qoco_custom_q = true := by decide +kernel
@[simp] theorem solid_qoco_custom_workspace : solid S.qoco_custom_workspace = true := by decide +kernel
@[simp] theorem solid_qoco_custom_flag : solid S.qoco_custom_flag = true := by decide +kernel
@[simp] theorem solid_cpg_update_ : solid S.cpg_update_ = true := by decide +kernel
@[simp] theorem solid_cpg_update_d : solid S.cpg_update_d = true := by decide +kernel
@[simp] theorem solid_cpg_canonicalize_ : solid S.cpg_canonicalize_ = true := by decide +kernel
@[simp] theorem solid_cpg_retrieve_prim : solid S.cpg_retrieve_prim = true := by decide +kernel
@[simp] theorem solid_cpg_retrieve_dual : solid S.cpg_retrieve_dual = true := by decide +kernel
@[simp] theorem solid_cpg_retrieve_info : solid S.cpg_retrieve_info = true := by decide +kernel
@[simp] theorem solid_cpg_copy_ : solid S.cpg_copy_ = true := by decide +kernel
@[simp] theorem solid_cpg_copy_all : solid S.cpg_copy_all = true := by decide +kernel
@[simp] theorem solid_cpg_solve : solid S.cpg_solve = true := by decide +kernel
@[simp] theorem solid_cpg_obj : solid S.cpg_obj = true := by decide +kernel
@[simp] theorem solid_cpg_set_solver_default_settings : solid S.cpg_set_solver_default_settings = true := by decide +kernel
@[simp] theorem solid_cpg_set_solver_ : solid S.cpg_set_solver_ = true := by decide +kernel
@[simp] theorem solid_cpg_gradient : solid S.cpg_gradient = true := by decide +kernel
@[simp] theorem solid_cpg_retrieve_intermediate_primal : solid S.cpg_retrieve_intermediate_primal = true := by decide +kernel
@[simp] theorem solid_cpg_retrieve_intermediate_dual : solid S.cpg_retrieve_intermediate_dual = true := by decide +kernel
@[simp] theorem solid_obj_val : solid S.obj_val = true := by decide +kernel
@[simp] theorem solid_CPG_OSQP_Grad : solid S.CPG_OSQP_Grad = true := by decide +kernel
@[simp] theorem solid_cpg_osqp_grad_ : solid S.cpg_osqp_grad_ = true := by decide +kernel
@[simp] theorem solid_cpg_ldl_symbolic : solid S.cpg_ldl_symbolic = true := by decide +kernel
@[simp] theorem solid_cpg_ldl_numeric : solid S.cpg_ldl_numeric = true := by decide +kernel
@[simp] theorem solid_cpg_osqp_gradient : solid S.cpg_osqp_gradient = true := by decide +kernel
@[simp] theorem chars_to_K : S._to_K.all isIdChar = true := by decide +kernel
@[simp] theorem solid_cpg_grad_a : solid S.cpg_grad_a = true := by decide +kernel
@[simp] theorem solid_cpg_grad_a_bar : solid S.cpg_grad_a_bar = true := by decide +kernel
@[simp] theorem solid_cpg_grad_gamma : solid S.cpg_grad_gamma = true := by decide +kernel
@[simp] theorem solid_insert_nonzero : solid S.insert_nonzero = true := by decide +kernel
@[simp] theorem solid_insert_nonzero_and_value : solid S.insert_nonzero_and_value = true := by decide +kernel
@[simp] theorem solid_remove_nonzero : solid S.remove_nonzero = true := by decide +kernel
@[simp] theorem solid_symbolic_ldl_update : solid S.symbolic_ldl_update = true := by decide +kernel
@[simp] theorem solid_symbolic_ldl_downdate : solid S.symbolic_ldl_downdate = true := by decide +kernel
@[simp] theorem solid_cpg_rank_1_update : solid S.cpg_rank_1_update = true := by decide +kernel
@[simp] theorem solid_cpg_ldl_delete : solid S.cpg_ldl_delete = true := by decide +kernel
@[simp] theorem solid_cpg_ldl_add : solid S.cpg_ldl_add = true := by decide +kernel
@[simp] theorem solid_cpg_P_to_K : solid S.cpg_P_to_K = true := by decide +kernel
@[simp] theorem solid_cpg_A_to_K : solid S.cpg_A_to_K = true := by decide +kernel
@[simp] theorem solid_pdaqp_evaluate : solid S.pdaqp_evaluate = true := by decide +kernel
@[simp] theorem solid_pdaqp_active_region : solid S.pdaqp_active_region = true := by decide +kernel
@[simp] theorem solid_pdaqp_feedbacks : solid S.pdaqp_feedbacks = true := by decide +kernel
@[simp] theorem solid_pdaqp_hp_list : solid S.pdaqp_hp_list = true := by decide +kernel
@[simp] theorem solid_cpg_dx : solid S.cpg_dx = true := by decide +kernel
@[simp] theorem solid_cpg_dtheta : solid S.cpg_dtheta = true := by decide +kernel
@[simp] theorem solid_solve_cpp : solid S.solve_cpp = true := by decide +kernel
@[simp] theorem solid_gradient_cpp : solid S.gradient_cpp = true := by decide +kernel
@[simp] theorem word_main : isWord S.main = true := by decide +kernel
@[simp] theorem word_i : isWord S.i = true := by decide +kernel
@[simp] theorem word_j : isWord S.j = true := by decide +kernel
@[simp] theorem word_k : isWord S.k = true := by decide +kernel
@[simp] theorem word_kk : isWord S.kk = true := by decide +kernel
@[simp] theorem word_n : isWord S.n = true := by decide +kernel
@[simp] theorem word_N : isWord S.N = true := by decide +kernel
@[simp] theorem chars_id_d : S.d.all isIdChar = true := by decide +kernel
@[simp] theorem chars_id_P : S.P.all isIdChar = true := by decide +kernel
@[simp] theorem end_P : solidEnd S.P = true := by decide +kernel
@[simp] theorem chars_id_A : S.A.all isIdChar = true := by decide +kernel
@[simp] theorem end_A : solidEnd S.A = true := by decide +kernel
@[simp] theorem chars_id_G : S.G.all isIdChar = true := by decide +kernel
@[simp] theorem chars_id_q : S.q.all isIdChar = true := by decide +kernel
@[simp] theorem chars_id_u : S.u.all isIdChar = true := by decide +kernel
@[simp] theorem chars_id_l : S.l.all isIdChar = true := by decide +kernel
@[simp] theorem chars_id_b : S.b.all isIdChar = true := by decide +kernel
@[simp] theorem chars_id_c : S.c.all isIdChar = true := by decide +kernel
@[simp] theorem chars_id_h : S.h.all isIdChar = true := by decide +kernel
@[simp] theorem solid_PYBIND11_MODULE : solid S.PYBIND11_MODULE = true := by decide +kernel
@[simp] theorem word_F_obj_val : isWord F.obj_val = true := by decide +kernel
@[simp] theorem word_F_iter : isWord F.iter = true := by decide +kernel
@[simp] theorem word_F_status : isWord F.status = true := by decide +kernel
@[simp] theorem word_F_pri_res : isWord F.pri_res = true := by decide +kernel
@[simp] theorem word_F_dua_res : isWord F.dua_res = true := by decide +kernel
@[simp] theorem word_F_prim : isWord F.prim = true := by decide +kernel
@[simp] theorem word_F_dual : isWord F.dual = true := by decide +kernel
@[simp] theorem word_F_info : isWord F.info = true := by decide +kernel
@[simp] theorem word_M_primal : isWord M.primal = true := by decide +kernel
@[simp] theorem word_M_time : isWord M.time = true := by decide +kernel
@[simp] theorem word_M_region : isWord M.region = true := by decide +kernel
@[simp] theorem word_M_gradient_primal : isWord M.gradient_primal = true := by decide +kernel
@[simp] theorem word_M_gradient_dual : isWord M.gradient_dual = true := by decide +kernel
@[simp] theorem word_M_cpg_prim : isWord M.cpg_prim = true := by decide +kernel
@[simp] theorem word_M_cpg_dual : isWord M.cpg_dual = true := by decide +kernel
@[simp] theorem word_M_cpg_info : isWord M.cpg_info = true := by decide +kernel

end Verif.Lemmas.PyModule
