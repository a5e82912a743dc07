import Verif.Model.PyModule
import Verif.Props.Dispatch
import Verif.Props.Structs
/-!
C66: several generated Python modules in one process.
-/
namespace Verif.Props
open Verif.Model.Text Verif.Model.Dispatch Verif.Model.Symbols Verif.Model.Structs Verif.Model.PyModule

theorem register_ok (reg ts : List Txt) (hn : ts.Nodup) (hd : ∀ t ∈ ts, t ∉ reg) : register reg ts = (reg ++ ts, true) := by
  induction ts generalizing reg with
  | nil => simp [register]
  | cons t ts ih =>
    rw [List.nodup_cons] at hn
    unfold register
    rw [if_neg (hd t List.mem_cons_self), ih _ hn.2]
    · simp
    · intro u hu hm
      rcases List.mem_append.1 hm with hm | hm
      · exact hd u (List.mem_cons_of_mem _ hu) hm
      · rw [List.mem_singleton] at hm
        exact hn.1 (hm ▸ hu)

theorem suffix_clash : ∀ c d : Cls, suffix c <:+ suffix d → c = d := by
  intro c d
  cases c <;> cases d <;> decide +kernel

theorem struct_inj {p q : Txt} {c d : Cls} (h : p ++ suffix c = q ++ suffix d) : p = q ∧ c = d := by
  have hcd : c = d := by
    rcases List.suffix_or_suffix_of_suffix (l₁ := suffix c) (l₂ := suffix d) (l₃ := p ++ suffix c) ⟨p, rfl⟩ ⟨q, h.symm⟩ with h | h
    · exact suffix_clash c d h
    · exact (suffix_clash d c h).symm
  subst hcd
  exact ⟨List.append_cancel_right h, rfl⟩

theorem registered_nodup (I : In) : (registered I).Nodup := by
  unfold registered
  refine List.Nodup.map_on ?_ (List.Nodup.filter _ (by decide))
  intro c _ d _ h
  exact (struct_inj h).2

theorem mem_registered (I : In) (t : Txt) (h : t ∈ registered I) : ∃ c, t = I.pre ++ suffix c := by
  obtain ⟨c, _, e⟩ := List.mem_map.1 h
  exact ⟨c, e.symm⟩

/-- The first struct of every module. -/
theorem registered_head (I : In) : ∃ l, registered I = (I.pre ++ suffix .params) :: l := by
  unfold registered
  rw [List.filter_cons_of_pos (by simp [bound])]
  exact ⟨_, rfl⟩

/-- The registry holds all structs of some prefixes and nothing else. -/
def Holds (reg : List Txt) (ps : List Txt) : Prop :=
  (∀ t ∈ reg, ∃ p ∈ ps, ∃ c, t = p ++ suffix c) ∧ ∀ p ∈ ps, p ++ suffix .params ∈ reg

theorem register_holds {reg ps : List Txt} (h : Holds reg ps) (I : In) :
    (I.pre ∈ ps → register reg (registered I) = (reg, false)) ∧
    (I.pre ∉ ps → (register reg (registered I)).2 = true ∧ Holds (register reg (registered I)).1 (I.pre :: ps)) := by
  constructor
  · intro hm
    obtain ⟨l, e⟩ := registered_head I
    rw [e]
    unfold register
    rw [if_pos (h.2 _ hm)]
  · intro hm
    have e := register_ok reg (registered I) (registered_nodup I) (by
      intro t ht hr
      obtain ⟨c, rfl⟩ := mem_registered I t ht
      obtain ⟨p, hp, d, e⟩ := h.1 _ hr
      exact hm ((struct_inj e).1 ▸ hp))
    rw [e]
    refine ⟨rfl, ?_, ?_⟩
    · intro t ht
      rcases List.mem_append.1 ht with ht | ht
      · obtain ⟨p, hp, c, e⟩ := h.1 t ht
        exact ⟨p, List.mem_cons_of_mem _ hp, c, e⟩
      · obtain ⟨c, e⟩ := mem_registered I t ht
        exact ⟨_, List.mem_cons_self, c, e⟩
    · intro p hp
      rcases List.mem_cons.1 hp with rfl | hp
      · obtain ⟨l, e⟩ := registered_head I
        rw [e]
        simp
      · exact List.mem_append_left _ (h.2 p hp)

/-- Which of a sequence of imports should succeed if exactly the first one with a prefix does. -/
def firstOf (seen : List Txt) : List In → List Bool
  | [] => []
  | I :: Is => decide (I.pre ∉ seen) :: firstOf (I.pre :: seen) Is

theorem firstOf_congr (Is : List In) (a b : List Txt) (h : ∀ p, p ∈ a ↔ p ∈ b) : firstOf a Is = firstOf b Is := by
  induction Is generalizing a b with
  | nil => rfl
  | cons I Is ih =>
    simp only [firstOf, h I.pre]
    rw [ih (I.pre :: a) (I.pre :: b) (fun p => by simp [h p])]

/-- C66: in one process, of all generated modules with the same prefix exactly the first can be imported, whatever problems,
solvers and modes they were generated for. -/
theorem C66_imports (Is : List In) : importAll [] Is = firstOf [] Is := by
  suffices ∀ (Is : List In) (reg ps : List Txt), Holds reg ps → importAll reg Is = firstOf ps Is from
    this Is [] [] ⟨fun t ht => (by cases ht), fun p hp => (by cases hp)⟩
  intro Is
  induction Is with
  | nil => intros; rfl
  | cons I Is ih =>
    intro reg ps h
    obtain ⟨h1, h2⟩ := register_holds h I
    simp only [importAll, firstOf]
    by_cases hm : I.pre ∈ ps
    · rw [h1 hm, ih _ _ h, firstOf_congr Is ps (I.pre :: ps)]
      · simp [hm]
      · intro p
        simp only [List.mem_cons]
        exact ⟨.inr, fun h => h.elim (fun e => e ▸ hm) id⟩
    · rw [(h2 hm).1, ih _ _ (h2 hm).2]
      simp [hm]

theorem firstOf_all (Is : List In) (seen : List Txt) :
    (∀ b ∈ firstOf seen Is, b = true) ↔ (Is.map fun I => I.pre).Nodup ∧ ∀ I ∈ Is, I.pre ∉ seen := by
  induction Is generalizing seen with
  | nil => simp [firstOf]
  | cons I Is ih =>
    simp only [firstOf, List.mem_cons, forall_eq_or_imp, decide_eq_true_eq, ih, List.map_cons, List.nodup_cons, List.mem_map,
      not_or]
    constructor
    · rintro ⟨a, b, c⟩
      exact ⟨⟨fun ⟨J, hJ, e⟩ => (c J hJ).1 e, b⟩, a, fun J hJ => (c J hJ).2⟩
    · rintro ⟨⟨a, b⟩, c, d⟩
      exact ⟨c, b, fun J hJ => ⟨fun e => a ⟨J, hJ, e⟩, d J hJ⟩⟩

/-- C66: all modules can be imported together if and only if the arguments `prefix` are pairwise different. -/
theorem C66_together (Is : List In) (ps : List Txt) (h : Is.map (fun I => I.pre) = ps.map normPrefix) :
    (∀ b ∈ importAll [] Is, b = true) ↔ ps.Nodup := by
  rw [C66_imports, firstOf_all, h]
  constructor
  · exact fun h => List.Nodup.of_map _ h.1
  · exact fun h => ⟨h.map_on (fun a _ b _ e => C45_prefix_injective a b e), fun I _ hm => (by cases hm)⟩

/-- The full claim: code generated for two problems can be used together in one process. -/
def C66Claim : Prop := ∀ I J : In, importAll [] [I, J] = [true, true]

/-- Two problems, both without a prefix: the second module cannot be imported. -/
theorem C66_fails : ¬ C66Claim := fun h => by
  have := h (exStruct "" [("x", 2)]) (exStruct "" [("y", 3)])
  rw [C66_imports] at this
  revert this
  decide

example : importAll [] [exStruct "a_" [("x", 2)], exStruct "b_" [("y", 3)], exStruct "a_" [("z", 1)], exStruct "" [("x", 2)]] =
    [true, true, false, true] := by
  rw [C66_imports]
  decide

example : (registered (exStruct "a_" [("x", 2)])).length = 6 := by decide

end Verif.Props
