import Verif.Spec.Symbols
/-!
Scope of names in the generated files: helper lemmas for `Props/Symbols.lean`.
-/
namespace Verif.Lemmas.Symbols
open Verif.Model.Text Verif.Model.Dispatch Verif.Model.Symbols Verif.Spec.Symbols

/-- Uses are in `env` or defined earlier. -/
def Closed : List Txt → List Item → Prop
  | _, [] => True
  | env, it :: r => (∀ u ∈ it.uses, u ∈ env) ∧ Closed (it.name :: env) r

theorem Closed.mono : ∀ (l : List Item) (e e' : List Txt), (∀ x ∈ e, x ∈ e') → Closed e l → Closed e' l
  | [], _, _, _, _ => trivial
  | it :: r, e, e', h, hc => by
    refine ⟨fun u hu => h u (hc.1 u hu), Closed.mono r _ _ ?_ hc.2⟩
    intro x hx
    rcases List.mem_cons.1 hx with rfl | hx
    · exact List.mem_cons_self
    · exact List.mem_cons_of_mem _ (h x hx)

theorem Closed.append : ∀ (a b : List Item) (e : List Txt), Closed e a → Closed (e ++ a.map Item.name) b →
    Closed e (a ++ b)
  | [], b, e, _, hb => by simpa using hb
  | it :: r, b, e, ha, hb => by
    refine ⟨ha.1, Closed.append r b _ ha.2 (Closed.mono b _ _ ?_ hb)⟩
    intro x hx
    simp only [List.map_cons, List.mem_append, List.mem_cons] at hx ⊢
    tauto

theorem Closed.of_sub : ∀ (l : List Item) (e : List Txt), (∀ it ∈ l, ∀ u ∈ it.uses, u ∈ e) → Closed e l
  | [], _, _ => trivial
  | it :: r, e, h => ⟨h it List.mem_cons_self, Closed.mono r e _ (fun _ hx => List.mem_cons_of_mem _ hx)
      (Closed.of_sub r e fun jt hj => h jt (List.mem_cons_of_mem _ hj))⟩

theorem Closed.flatMap {α : Type} (g : α → List Item) (e : List Txt) (l : List α) (h : ∀ a ∈ l, Closed e (g a)) :
    Closed e (l.flatMap g) := by
  induction l with
  | nil => trivial
  | cons a r ih =>
    rw [List.flatMap_cons]
    exact Closed.append _ _ _ (h a List.mem_cons_self)
      (Closed.mono _ _ _ (fun x hx => List.mem_append_left _ hx) (ih fun b hb => h b (List.mem_cons_of_mem _ hb)))

theorem Closed.split : ∀ (l : List Item) (e : List Txt), Closed e l → ∀ before it after, l = before ++ it :: after →
    ∀ u ∈ it.uses, u ∈ e ∨ u ∈ before.map Item.name
  | [], _, _, before, it, after, h, _, _ => by cases before <;> cases h
  | jt :: r, e, hc, before, it, after, h, u, hu => by
    cases before with
    | nil => cases h; exact Or.inl (hc.1 u hu)
    | cons b bs =>
      injection h with h1 h2
      subst h1
      rcases Closed.split r _ hc.2 bs it after h2 u hu with h | h
      · rcases List.mem_cons.1 h with rfl | h
        · exact Or.inr List.mem_cons_self
        · exact Or.inl h
      · exact Or.inr (List.mem_cons_of_mem _ h)

theorem inScope_of_closed (f : CFile) (e : List Txt) (he : ∀ x ∈ e, x ∈ f.headers ∨ x ∈ f.statics)
    (hc : Closed e f.items) : InScope f := by
  intro before it after h u hu
  rcases hc.split _ _ before it after h u hu with h | h
  · rcases he u h with h | h
    · exact Or.inl h
    · exact Or.inr (Or.inl h)
  · exact Or.inr (Or.inr h)

theorem uses_of_closed (l : List Item) (e : List Txt) (hc : Closed e l) (it : Item) (hit : it ∈ l) (u : Txt)
    (hu : u ∈ it.uses) : u ∈ e ∨ u ∈ l.map Item.name := by
  obtain ⟨a, b, rfl⟩ := List.append_of_mem hit
  rcases hc.split _ _ a it b rfl u hu with h | h
  · exact Or.inl h
  · refine Or.inr ?_
    rw [List.map_append]
    exact List.mem_append_left _ h

theorem closed_mat (n : Txt) (e : List Txt) : Closed e (matItems n) := by
  refine ⟨by simp, by simp, by simp, ?_, trivial⟩
  intro u hu
  simp only [List.mem_cons, List.not_mem_nil, or_false] at hu ⊢
  tauto

theorem closed_param (pre suf : Txt) (c : CanonP) (e : List Txt) : Closed e (paramItems pre suf c) := by
  unfold paramItems
  split
  · trivial
  · split
    · exact closed_mat _ _
    · exact ⟨by simp, trivial⟩

theorem name_mem_param (pre suf : Txt) (c : CanonP) (h : c.len ≠ 0) :
    pre ++ S.canon_ ++ c.id ++ suf ∈ (paramItems pre suf c).map Item.name := by
  unfold paramItems
  rw [if_neg h]
  split <;> simp [matItems]

theorem closed_canon (pre : Txt) (cond : Bool) (canon ids : List CanonP) (e : List Txt) :
    Closed e (canonItems pre cond canon ids) := by
  unfold canonItems
  refine Closed.append _ _ _ (Closed.flatMap _ _ _ fun c _ => closed_mat _ _) (Closed.flatMap _ _ _ fun c _ => ?_)
  refine Closed.append _ _ _ (closed_param _ _ _ _) ?_
  split
  · exact closed_param _ _ _ _
  · trivial

theorem structUses_mem (pre suf : Txt) (cond : Bool) (canon ids : List CanonP) (u : Txt)
    (h : u ∈ structUses pre suf ids) (hs : suf = [] ∨ (cond = true ∧ suf = S._conditioning)) :
    u ∈ (canonItems pre cond canon ids).map Item.name := by
  simp only [structUses, List.mem_map, List.mem_filter, Bool.and_eq_true, bne_iff_ne, ne_eq] at h
  obtain ⟨c, ⟨hc, hl, hd⟩, rfl⟩ := h
  unfold canonItems
  rw [List.map_append]
  refine List.mem_append_right _ ?_
  rw [List.map_flatMap]
  refine List.mem_flatMap.2 ⟨c, List.mem_filter.2 ⟨hc, by simpa using hd⟩, ?_⟩
  rw [List.map_append]
  rcases hs with rfl | ⟨rfl, rfl⟩
  · exact List.mem_append_left _ (name_mem_param _ _ _ hl)
  · refine List.mem_append_right _ ?_
    rw [if_pos rfl]
    exact name_mem_param _ _ _ hl

theorem map_mem_canon (pre : Txt) (cond : Bool) (canon ids : List CanonP) (c : CanonP) (hc : c ∈ canon)
    (h : c.changes = true) : pre ++ S.canon_ ++ c.id ++ S._map ∈ (canonItems pre cond canon ids).map Item.name := by
  unfold canonItems
  rw [List.map_append]
  refine List.mem_append_left _ ?_
  rw [List.map_flatMap]
  exact List.mem_flatMap.2 ⟨c, List.mem_filter.2 ⟨hc, h⟩, by simp [matItems]⟩

variable (I : In)

/-- The declarations of cpg_workspace.h that the proofs rely on. -/
def wsReal : List Txt :=
  let p := I.pre
  libDecls I ++
  [p ++ S.cpg_params_vec] ++
  (if I.explicit = 0 then [] else [p ++ S.cpg_params_vec_lower, p ++ S.cpg_params_vec_upper]) ++
  ((I.canon.filter fun c => c.changes).map fun c => p ++ S.canon_ ++ c.id ++ S._map) ++
  (if I.explicit = 0 then [] else [p ++ S.cpg_theta, S.sol_x]) ++
  (if I.explicit = 2 then [S.sol_y] else []) ++
  [p ++ S.Canon_Params] ++
  (if precond I.iface then [p ++ S.Canon_Params_conditioning] else []) ++
  [p ++ S.Canon_Outdated] ++
  (if I.gradient && !I.two then [p ++ S.Canon_Outdated_Grad] else []) ++
  [p ++ S.CPG_Prim] ++
  (if I.explicit = 1 ∨ I.duals = [] then [] else [p ++ S.CPG_Dual]) ++
  (if I.explicit = 0 then [p ++ S.CPG_Info] else []) ++
  [p ++ S.CPG_Result] ++
  (if I.explicit = 0 ∧ stgsExtra I.iface = true then [p ++ S.Canon_Settings] else []) ++
  (match I.iface with
    | .scs => (if I.soc then [p ++ S.scs_q] else []) ++ [p ++ S.Scs_D, p ++ S.Scs_K, p ++ S.Canon_Settings, p ++ S.scs_x,
        p ++ S.scs_y, p ++ S.scs_s, p ++ S.Scs_Sol, p ++ S.Scs_Info, p ++ S.Scs_Work]
    | _ => solverDecls I) ++
  (if I.gradient then [p ++ S.cpg_dp, p ++ S.CPG_Delta] else [])

theorem wsReal_decl (u : Txt) (h : u ∈ wsReal I) : u ∈ wsDecls I := by
  unfold wsReal at h
  simp only [List.mem_append] at h
  unfold wsDecls canonDecls
  simp only [List.mem_append]
  rcases h with ((((((((((((((((h | h) | h) | h) | h) | h) | h) | h) | h) | h) | h) | h) | h) | h) | h) | h) | h)
  case inl.inl.inr =>
    have h' : u ∈ (if stgsExtra I.iface = true then [I.pre ++ S.Canon_Settings] else []) := by
      by_cases hs : stgsExtra I.iface = true <;> simp_all
    simp only [h', true_or, or_true]
  case inl.inr =>
    have h' : u ∈ solverDecls I := by
      cases hi : I.iface <;> simp only [hi] at h <;> try exact h
      unfold solverDecls
      simp only [hi, List.mem_append, List.mem_cons, List.not_mem_nil, or_false] at h ⊢
      rcases h with h | h | h | h | h | h | h | h | h | h <;> simp only [h, true_or, or_true]
    simp only [h', true_or, or_true]
  all_goals simp only [h, true_or, or_true]

theorem wsReal_def (u : Txt) (h : u ∈ wsReal I) : u ∈ (wsItems I).map Item.name ∨ u ∈ libDecls I := by
  unfold wsReal at h
  simp only [List.mem_append] at h
  rcases h with ((((((((((((((((h | h) | h) | h) | h) | h) | h) | h) | h) | h) | h) | h) | h) | h) | h) | h) | h)
  · exact Or.inr h
  all_goals
    refine Or.inl ?_
    unfold wsItems
    simp only [List.map_append, List.mem_append]
  case inl.inl.inl.inl.inl.inl.inl.inl.inl.inl.inl.inl.inl.inr =>
    obtain ⟨c, hc, rfl⟩ := List.mem_map.1 h
    have := map_mem_canon I.pre (precond I.iface) I.canon (pIds I) c (List.mem_filter.1 hc).1 (List.mem_filter.1 hc).2
    simp only [this, true_or, or_true]
  case inl.inr =>
    have h' : u ∈ (solverItems I).map Item.name := by
      unfold solverDecls at h
      unfold solverItems
      cases hi : I.iface <;> simp only [hi] at h ⊢ <;> simp at h
      all_goals
        simp only [List.map_append, List.map_cons, List.map_nil, List.mem_append, List.mem_cons, List.not_mem_nil,
          or_false]
      case scs => rcases h with h | h | h | h | h | h | h | h | h | h <;> simp [h]
      case clarabel => simpa using h
      all_goals rcases h with h | h | h <;> simp [h]
    simp only [h', true_or, or_true]
  case inl.inl.inl.inl.inl.inr =>
    have h' : u ∈ List.map Item.name (if I.explicit = 1 ∨ I.duals = [] then [] else
        (((I.duals.filter fun v => ownDual I v).map fun v => (⟨I.pre ++ v.1, []⟩ : Item)) ++
        [⟨I.pre ++ S.CPG_Dual, (I.duals.filter fun v => v.2 != 1).map fun v =>
          if ownDual I v then I.pre ++ v.1 else dualPtr I⟩])) := by
      by_cases hd : I.explicit = 1 ∨ I.duals = []
      · rw [if_pos hd] at h; cases h
      · rw [if_neg hd] at h ⊢
        rw [List.map_append]
        exact List.mem_append_right _ h
    simp only [h', true_or, or_true]
  all_goals
    simp only [apply_ite (List.map Item.name), List.map_cons, List.map_nil]
    simp only [h, true_or, or_true]

theorem closed_ite (c : Prop) [Decidable c] (e : List Txt) (a b : List Item) (ha : c → Closed e a)
    (hb : ¬ c → Closed e b) : Closed e (if c then a else b) := by
  by_cases h : c
  · rw [if_pos h]; exact ha h
  · rw [if_neg h]; exact hb h

theorem real_lib (u : Txt) (h : u ∈ libDecls I) : u ∈ wsReal I := by
  unfold wsReal; simp only [List.mem_append, h, true_or]

theorem real_params : I.pre ++ S.cpg_params_vec ∈ wsReal I := by
  unfold wsReal; simp only [List.mem_append, List.mem_singleton, true_or, or_true]

theorem real_bounds (h : I.explicit ≠ 0) : I.pre ++ S.cpg_params_vec_lower ∈ wsReal I ∧
    I.pre ++ S.cpg_params_vec_upper ∈ wsReal I := by
  unfold wsReal
  simp only [List.mem_append, if_neg h, List.mem_cons, true_or, or_true, and_self]

theorem real_map (c : CanonP) (hc : c ∈ I.canon) (h : c.changes = true) :
    I.pre ++ S.canon_ ++ c.id ++ S._map ∈ wsReal I := by
  have : I.pre ++ S.canon_ ++ c.id ++ S._map ∈
      ((I.canon.filter fun c => c.changes).map fun c => I.pre ++ S.canon_ ++ c.id ++ S._map) :=
    List.mem_map.2 ⟨c, List.mem_filter.2 ⟨hc, h⟩, rfl⟩
  unfold wsReal
  simp only [List.mem_append]
  simp only [this, true_or, or_true]

theorem real_theta (h : I.explicit ≠ 0) : I.pre ++ S.cpg_theta ∈ wsReal I ∧ S.sol_x ∈ wsReal I := by
  unfold wsReal
  simp only [List.mem_append, if_neg h, List.mem_cons, true_or, or_true, and_self]

theorem real_soly (h : I.explicit = 2) : S.sol_y ∈ wsReal I := by
  unfold wsReal
  simp only [List.mem_append, if_pos h, List.mem_cons, true_or, or_true]

theorem real_canonParams : I.pre ++ S.Canon_Params ∈ wsReal I := by
  unfold wsReal; simp only [List.mem_append, List.mem_singleton, true_or, or_true]

theorem real_conditioning (h : precond I.iface = true) : I.pre ++ S.Canon_Params_conditioning ∈ wsReal I := by
  unfold wsReal; simp only [List.mem_append, if_pos h, List.mem_singleton, true_or, or_true]

theorem real_outdated : I.pre ++ S.Canon_Outdated ∈ wsReal I := by
  unfold wsReal; simp only [List.mem_append, List.mem_singleton, true_or, or_true]

theorem real_outdatedGrad (h : (I.gradient && !I.two) = true) : I.pre ++ S.Canon_Outdated_Grad ∈ wsReal I := by
  unfold wsReal; simp only [List.mem_append, if_pos h, List.mem_singleton, true_or, or_true]

theorem real_prim : I.pre ++ S.CPG_Prim ∈ wsReal I := by
  unfold wsReal; simp only [List.mem_append, List.mem_singleton, true_or, or_true]

theorem real_dual (h : ¬ (I.explicit = 1 ∨ I.duals = [])) : I.pre ++ S.CPG_Dual ∈ wsReal I := by
  unfold wsReal; simp only [List.mem_append, if_neg h, List.mem_singleton, true_or, or_true]

theorem real_info (h : I.explicit = 0) : I.pre ++ S.CPG_Info ∈ wsReal I := by
  unfold wsReal; simp only [List.mem_append, if_pos h, List.mem_singleton, true_or, or_true]

theorem real_result : I.pre ++ S.CPG_Result ∈ wsReal I := by
  unfold wsReal; simp only [List.mem_append, List.mem_singleton, true_or, or_true]

theorem real_dp (h : I.gradient = true) : I.pre ++ S.cpg_dp ∈ wsReal I ∧ I.pre ++ S.CPG_Delta ∈ wsReal I := by
  unfold wsReal
  simp only [List.mem_append, if_pos h, List.mem_cons, true_or, or_true, and_self]

/-- The declarations of the solver's workspace. -/
def solReal : List Txt :=
  match I.iface with
  | .scs => (if I.soc then [I.pre ++ S.scs_q] else []) ++ [I.pre ++ S.Scs_D, I.pre ++ S.Scs_K,
      I.pre ++ S.Canon_Settings, I.pre ++ S.scs_x, I.pre ++ S.scs_y, I.pre ++ S.scs_s, I.pre ++ S.Scs_Sol,
      I.pre ++ S.Scs_Info, I.pre ++ S.Scs_Work]
  | _ => solverDecls I

theorem real_solver (u : Txt) (h : u ∈ solReal I) : u ∈ wsReal I := by
  unfold wsReal
  unfold solReal at h
  simp only [List.mem_append]
  cases hi : I.iface <;> simp only [hi] at h ⊢
  case scs =>
    simp only [List.mem_append] at h ⊢
    simp only [h, true_or, or_true]
  all_goals simp only [h, true_or, or_true]

theorem real_settings (h : I.explicit = 0) (hp : I.iface ≠ .pdaqp) (hq : I.iface ≠ .qocogen) :
    I.pre ++ S.Canon_Settings ∈ wsReal I := by
  by_cases hs : I.iface = .scs
  · refine real_solver I _ ?_
    unfold solReal
    rw [hs]
    simp
  · have : stgsExtra I.iface = true := by cases hi : I.iface <;> simp_all [stgsExtra]
    unfold wsReal
    simp only [List.mem_append, if_pos (And.intro h this), List.mem_singleton, true_or, or_true]

theorem real_primObj (hI : Coherent I) : resultPre I ++ primObj I.iface ∈ wsReal I := by
  unfold resultPre
  cases hi : I.iface
  case osqp => exact real_lib I _ (by simp [libDecls, hi, wsStatic, primObj])
  case pdaqp => simpa [wsStatic, primObj] using (real_theta I (hI.expl.2 hi)).2
  all_goals
    refine real_solver I _ ?_
    simp [solReal, hi, solverDecls, wsStatic, primObj]

theorem real_dualObj (hI : Coherent I) (h1 : I.explicit = 0 ∨ I.explicit = 2) :
    resultPre I ++ dualObj I.iface ∈ wsReal I := by
  unfold resultPre
  cases hi : I.iface
  case osqp => exact real_lib I _ (by simp [libDecls, hi, wsStatic, dualObj])
  case pdaqp =>
    have := hI.expl.2 hi
    simpa [wsStatic, dualObj] using real_soly I (by omega)
  all_goals
    refine real_solver I _ ?_
    simp [solReal, hi, solverDecls, wsStatic, dualObj]

theorem real_infoObj (h : I.explicit = 0) (hI : Coherent I) (o : Txt) (ho : o ∈ infoObjs I.iface) :
    resultPre I ++ o ∈ wsReal I := by
  unfold resultPre
  cases hi : I.iface <;> simp only [hi, infoObjs, List.mem_cons, List.not_mem_nil, or_false] at ho
  case osqp => subst ho; exact real_lib I _ (by simp [libDecls, hi, wsStatic])
  case pdaqp => exact absurd h (hI.expl.2 hi)
  case ecos =>
    refine real_solver I _ ?_
    rcases ho with rfl | rfl <;> simp [solReal, hi, solverDecls, wsStatic]
  all_goals
    subst ho
    refine real_solver I _ ?_
    simp [solReal, hi, solverDecls, wsStatic]


theorem closed_one (e : List Txt) (n : Txt) (us : List Txt) (h : ∀ u ∈ us, u ∈ e) : Closed e [⟨n, us⟩] :=
  ⟨h, trivial⟩

theorem closed_map {α : Type} (e : List Txt) (l : List α) (n : α → Txt) (us : α → List Txt)
    (h : ∀ a ∈ l, ∀ u ∈ us a, u ∈ e) : Closed e (l.map fun a => ⟨n a, us a⟩) := by
  refine Closed.of_sub _ _ ?_
  intro it hit u hu
  obtain ⟨a, ha, rfl⟩ := List.mem_map.1 hit
  exact h a ha u hu

theorem closed_nouse (e : List Txt) (l : List Item) (h : ∀ it ∈ l, it.uses = []) : Closed e l := by
  refine Closed.of_sub _ _ fun it hit u hu => ?_
  rw [h it hit] at hu; cases hu

theorem upper_P : upperId S.P = true := by decide
theorem upper_A : upperId S.A = true := by decide
theorem lower_b : upperId S.b = false := by decide
theorem lower_c : upperId S.c = false := by decide

theorem pIds_of_key (h0 : I.explicit = 0) (c : CanonP) (hc : c ∈ keys I.canon) : c ∈ pIds I :=
  List.mem_filter.2 ⟨hc, by simp [h0]⟩

/-- The stored vectors of a matrix are defined with the canonical parameters. -/
theorem canon_data (h0 : I.explicit = 0) (m : Txt) (hm : upperId m = true) (hd : m ≠ S.d)
    (h : ∃ c ∈ keys I.canon, c.id = m ∧ c.len ≠ 0) (suf : Txt) (hs : suf = S._x ∨ suf = S._i ∨ suf = S._p) :
    I.pre ++ S.canon_ ++ m ++ suf ∈ (canonItems I.pre (precond I.iface) I.canon (pIds I)).map Item.name := by
  obtain ⟨c, hc, rfl, hl⟩ := h
  unfold canonItems
  rw [List.map_append]
  refine List.mem_append_right _ ?_
  rw [List.map_flatMap]
  refine List.mem_flatMap.2 ⟨c, List.mem_filter.2 ⟨pIds_of_key I h0 c hc, by simpa using hd⟩, ?_⟩
  rw [List.map_append]
  refine List.mem_append_left _ ?_
  unfold paramItems
  rw [if_neg hl, if_pos hm]
  rcases hs with rfl | rfl | rfl <;> simp [matItems]

theorem canon_vec (h0 : I.explicit = 0) (m : Txt) (hd : m ≠ S.d)
    (h : ∃ c ∈ keys I.canon, c.id = m ∧ c.len ≠ 0) :
    I.pre ++ S.canon_ ++ m ∈ (canonItems I.pre (precond I.iface) I.canon (pIds I)).map Item.name := by
  obtain ⟨c, hc, rfl, hl⟩ := h
  unfold canonItems
  rw [List.map_append]
  refine List.mem_append_right _ ?_
  rw [List.map_flatMap]
  refine List.mem_flatMap.2 ⟨c, List.mem_filter.2 ⟨pIds_of_key I h0 c hc, by simpa using hd⟩, ?_⟩
  rw [List.map_append]
  refine List.mem_append_left _ ?_
  simpa using name_mem_param I.pre [] c hl

theorem ws_closed (hI : Coherent I) : Closed (wsReal I) (wsItems I) := by
  have h2 := hI.one
  have hx : ∀ {a : List Item} {u : Txt}, u ∈ wsReal I → u ∈ wsReal I ++ a.map Item.name :=
    fun h => List.mem_append_left _ h
  unfold wsItems
  iterate 16 refine Closed.append _ _ _ ?_ ?_
  · exact closed_one _ _ _ (by simp)
  · exact closed_nouse _ _ (by intro it hit; split at hit <;> simp at hit; rcases hit with rfl | rfl <;> rfl)
  · exact closed_canon _ _ _ _ _
  · exact closed_nouse _ _ (by intro it hit; split at hit <;> simp at hit; rcases hit with rfl | rfl <;> rfl)
  · exact closed_nouse _ _ (by intro it hit; split at hit <;> simp at hit; rw [hit])
  · refine closed_one _ _ _ fun u hu => List.mem_append_right _ ?_
    have := structUses_mem I.pre [] (precond I.iface) I.canon (pIds I) u hu (Or.inl rfl)
    simp only [List.map_append, List.mem_append, this, true_or, or_true]
  · refine closed_ite _ _ _ _ (fun hp => closed_one _ _ _ fun u hu => List.mem_append_right _ ?_) (fun _ => trivial)
    have := structUses_mem I.pre S._conditioning (precond I.iface) I.canon (pIds I) u hu (Or.inr ⟨hp, rfl⟩)
    simp only [List.map_append, List.mem_append, this, true_or, or_true]
  · exact closed_one _ _ _ (by simp)
  · exact closed_nouse _ _ (by intro it hit; split at hit <;> simp at hit; rw [hit])
  · exact closed_nouse _ _ (by intro it hit; obtain ⟨v, _, rfl⟩ := List.mem_map.1 hit; rfl)
  · refine closed_one _ _ _ fun u hu => ?_
    obtain ⟨v, hv, rfl⟩ := List.mem_map.1 hu
    by_cases ho : ownArray I v = true
    · rw [if_pos ho]
      have : I.pre ++ v.name ∈ List.map Item.name ((I.vars.filter fun v => ownArray I v).map fun v =>
          (⟨I.pre ++ v.name, []⟩ : Item)) := by
        rw [List.map_map]
        exact List.mem_map.2 ⟨v, List.mem_filter.2 ⟨(List.mem_filter.1 hv).1, ho⟩, rfl⟩
      refine List.mem_append_right _ ?_
      rw [List.map_append]
      exact List.mem_append_right _ this
    · rw [if_neg ho]
      unfold primPtr
      rw [h2]
      exact hx (real_primObj I hI)
  · refine closed_ite _ _ _ _ (fun _ => trivial) (fun hd => Closed.append _ _ _ ?_ ?_)
    · exact closed_nouse _ _ (by intro it hit; obtain ⟨v, _, rfl⟩ := List.mem_map.1 hit; rfl)
    · refine closed_one _ _ _ fun u hu => ?_
      obtain ⟨v, hv, rfl⟩ := List.mem_map.1 hu
      by_cases ho : ownDual I v = true
      · rw [if_pos ho]
        refine List.mem_append_right _ ?_
        rw [List.map_map]
        exact List.mem_map.2 ⟨v, List.mem_filter.2 ⟨(List.mem_filter.1 hv).1, ho⟩, rfl⟩
      · rw [if_neg ho]
        unfold dualPtr
        rw [h2]
        refine List.mem_append_left _ (hx (real_dualObj I hI ?_))
        have := hI.mode
        have : I.explicit ≠ 1 := fun h => hd (Or.inl h)
        omega
  · exact closed_nouse _ _ (by intro it hit; split at hit <;> simp at hit; rw [hit])
  · refine closed_one _ _ _ fun u hu => hx ?_
    simp only [List.mem_append, List.mem_singleton] at hu
    rcases hu with (rfl | hu) | hu
    · exact real_prim I
    · by_cases hd : I.explicit = 1 ∨ I.duals = []
      · rw [if_pos hd] at hu; cases hu
      · rw [if_neg hd] at hu; rw [List.mem_singleton.1 hu]; exact real_dual I hd
    · by_cases hd : I.explicit = 0
      · rw [if_pos hd] at hu; rw [List.mem_singleton.1 hu]; exact real_info I hd
      · rw [if_neg hd] at hu; cases hu
  · exact closed_nouse _ _ (by intro it hit; split at hit <;> simp at hit; rw [hit])
  · cases hi : I.iface
    case scs =>
      have h0 : I.explicit = 0 := by
        by_contra h; have := hI.expl.1 h; rw [hi] at this; cases this
      have hq := hI.scs hi
      have mat : ∀ m, m ∈ (if I.quad then [S.P, S.A] else [S.A]) → ∀ suf, suf = S._x ∨ suf = S._i ∨ suf = S._p →
          I.pre ++ S.canon_ ++ m ++ suf ∈ (canonItems I.pre (precond I.iface) I.canon (pIds I)).map Item.name := by
        intro m hm suf hs
        have hmm : m = S.P ∨ m = S.A := by split at hm <;> simp at hm <;> tauto
        refine canon_data I h0 m ?_ ?_ (hq m (List.mem_append_left _ hm)) suf hs
        · rcases hmm with rfl | rfl
          · exact upper_P
          · exact upper_A
        · rcases hmm with rfl | rfl <;> decide
      have vb := canon_vec I h0 S.b (by decide) (hq S.b (by simp))
      have vc := canon_vec I h0 S.c (by decide) (hq S.c (by simp))
      rw [hi] at mat vb vc
      unfold solverItems
      simp only [hi]
      iterate 3 refine Closed.append _ _ _ ?_ ?_
      · refine closed_map _ _ _ _ fun m hm u hu => List.mem_append_right _ ?_
        simp only [List.mem_cons, List.not_mem_nil, or_false] at hu
        simp only [List.map_append, List.mem_append]
        rcases hu with rfl | rfl | rfl
        · have := mat m hm S._x (by simp); simp only [this, true_or, or_true]
        · have := mat m hm S._i (by simp); simp only [this, true_or, or_true]
        · have := mat m hm S._p (by simp); simp only [this, true_or, or_true]
      · refine closed_one _ _ _ fun u hu => ?_
        simp only [List.mem_append, List.mem_cons, List.not_mem_nil, or_false] at hu
        rcases hu with (rfl | hu) | (rfl | rfl)
        · refine List.mem_append_right _ ?_
          cases I.quad <;> simp
        · refine List.mem_append_right _ ?_
          cases hq : I.quad <;> simp [hq] at hu ⊢
          exact Or.inl hu
        · refine List.mem_append_left _ (List.mem_append_right _ ?_)
          simp only [List.map_append, List.mem_append]
          simp only [vb, true_or, or_true]
        · refine List.mem_append_left _ (List.mem_append_right _ ?_)
          simp only [List.map_append, List.mem_append]
          simp only [vc, true_or, or_true]
      · exact closed_nouse _ _ (by intro it hit; split at hit <;> simp at hit; rw [hit])
      · refine Closed.mono _ (wsReal I) _ (fun x hx' => ?_) ?_
        · simp only [List.mem_append, hx', true_or]
        refine Closed.of_sub _ _ fun it hit u hu => real_solver I u ?_
        simp only [solReal, hi]
        simp only [List.mem_cons, List.not_mem_nil, or_false] at hit
        rcases hit with rfl | rfl | rfl | rfl | rfl | rfl | rfl | rfl
        · cases hs : I.soc <;> simp [hs] at hu ⊢
          exact Or.inl hu
        all_goals simp at hu
        rcases hu with rfl | rfl | rfl <;> simp
    all_goals
      refine closed_nouse _ _ ?_
      intro it hit
      unfold solverItems at hit
      simp only [hi] at hit
      simp only [List.mem_append, List.mem_cons, List.not_mem_nil, or_false] at hit
    case clarabel => rcases hit with rfl | rfl | rfl | rfl | rfl | rfl <;> rfl
    all_goals
      rcases hit with hit | rfl | rfl
      · split at hit <;> simp at hit; rw [hit]
      · rfl
      · rfl
  · refine closed_ite _ _ _ _ (fun hg => ⟨by simp, ?_, trivial⟩) (fun _ => trivial)
    intro u hu
    obtain ⟨v, hv, rfl⟩ := List.mem_map.1 hu
    exact List.mem_cons_self


/-! ### cpg_solve.c -/

/-- The declarations of cpg_solve.h are definitions in cpg_solve.c. -/
theorem solveDecls_def (u : Txt) (h : u ∈ solveDecls I) : u ∈ (solveItems I).map Item.name := by
  unfold solveDecls at h
  simp only [List.mem_append] at h
  unfold solveItems
  simp only [List.map_append, List.mem_append]
  rcases h with (((((((h | h) | h) | h) | h) | h) | h) | h) | h
  case inl.inl.inl.inl.inl.inl.inl.inl =>
    have h' : u ∈ List.map Item.name (I.params.map fun q => (⟨I.pre ++ S.cpg_update_ ++ q.1,
        (if I.explicit = 0 then [] else [I.pre ++ S.cpg_params_vec_lower, I.pre ++ S.cpg_params_vec_upper]) ++
        [I.pre ++ S.cpg_params_vec, I.pre ++ S.Canon_Outdated] ++
        (if I.gradient && !I.two then [I.pre ++ S.Canon_Outdated_Grad] else []) ++
        (if I.two then [gpre I ++ S.Canon_Outdated_Grad] else [])⟩ : Item)) := by
      rw [List.map_map]; exact h
    simp only [h', true_or]
  case inl.inl.inl.inl.inl.inl.inl.inr =>
    have h' : u ∈ List.map Item.name ((I.canon.filter fun c => c.changes).map fun c =>
        (⟨I.pre ++ S.cpg_canonicalize_ ++ c.id, S.i :: S.j :: canonicalizeUses I.pre I.pre c.id⟩ : Item)) := by
      rw [List.map_map]; exact h
    simp only [h', true_or, or_true]
  case inl.inl.inl.inl.inl.inr =>
    have hw : writesDual I = true := by
      by_cases hd : I.explicit ≠ 1 ∧ retDual I = true
      · simp [writesDual, hd.1, hd.2]
      · rw [if_neg hd] at h; cases h
    simp only [if_pos hw, List.map_cons, List.map_nil]
    have h' : u ∈ [I.pre ++ S.cpg_retrieve_dual] := by
      by_cases hd : I.explicit ≠ 1 ∧ retDual I = true
      · rw [if_pos hd] at h; exact h
      · rw [if_neg hd] at h; cases h
    simp only [h', true_or, or_true]
  case inl.inl.inl.inr =>
    by_cases hp : precond I.iface = true
    · rw [if_pos hp] at h ⊢
      simp only [List.map_append, List.map_map, List.mem_append, List.map_cons, List.map_nil] at h ⊢
      rcases h with h | h
      · have h' : u ∈ (I.canon.filter fun c => c.id != S.d).map (Item.name ∘ fun c =>
            (⟨I.pre ++ S.cpg_copy_ ++ c.id,
              if c.len = 0 then [] else [S.i, I.pre ++ S.Canon_Params_conditioning, I.pre ++ S.Canon_Params]⟩ : Item)) := h
        simp only [h', true_or, or_true]
      · simp only [h, true_or, or_true]
    · rw [if_neg hp] at h; cases h
  case inr =>
    by_cases hp : I.explicit = 0
    · rw [if_pos hp] at h
      simp only [if_pos hp, List.map_append, List.map_map, List.mem_append, List.map_cons, List.map_nil] at h ⊢
      rcases h with h | h
      · simp only [h, true_or, or_true]
      · have h' : u ∈ I.settings.map (Item.name ∘ fun s =>
            (⟨I.pre ++ S.cpg_set_solver_ ++ s, [setUses I]⟩ : Item)) := h
        simp only [h', or_true]
    · rw [if_neg hp] at h; cases h
  all_goals
    simp only [apply_ite (List.map Item.name), List.map_cons, List.map_nil]
    simp only [h, true_or, or_true]

/-- Names that cpg_solve.c may use. -/
def solveEnv : List Txt :=
  wsReal I ++ solveDecls I ++ [S.i, S.j] ++ (if I.explicit = 0 then [] else [S.obj_val])

theorem env_ws (u : Txt) (h : u ∈ wsReal I) : u ∈ solveEnv I := by
  unfold solveEnv; simp only [List.mem_append, h, true_or]

theorem env_decl (u : Txt) (h : u ∈ solveDecls I) : u ∈ solveEnv I := by
  unfold solveEnv; simp only [List.mem_append, h, true_or, or_true]

theorem env_i : S.i ∈ solveEnv I ∧ S.j ∈ solveEnv I := by
  unfold solveEnv
  simp only [List.mem_append, List.mem_cons, true_or, or_true, and_self]

theorem decl_canonicalize (c : CanonP) (hc : c ∈ I.canon.filter fun c => c.changes) :
    I.pre ++ S.cpg_canonicalize_ ++ c.id ∈ solveDecls I := by
  have h : I.pre ++ S.cpg_canonicalize_ ++ c.id ∈
      ((I.canon.filter fun c => c.changes).map fun c => I.pre ++ S.cpg_canonicalize_ ++ c.id) := List.mem_map.2 ⟨c, hc, rfl⟩
  unfold solveDecls
  simp only [List.mem_append]
  simp only [h, true_or, or_true]

theorem decl_update (q : Txt × Nat) (hq : q ∈ I.params) : I.pre ++ S.cpg_update_ ++ q.1 ∈ solveDecls I := by
  have h : I.pre ++ S.cpg_update_ ++ q.1 ∈ (I.params.map fun q => I.pre ++ S.cpg_update_ ++ q.1) :=
    List.mem_map.2 ⟨q, hq, rfl⟩
  unfold solveDecls
  simp only [List.mem_append]
  simp only [h, true_or, or_true]

theorem decl_copy (hp : precond I.iface = true) (c : CanonP) (hc : c ∈ I.canon) (hd : c.id ≠ S.d) :
    I.pre ++ S.cpg_copy_ ++ c.id ∈ solveDecls I := by
  have h : I.pre ++ S.cpg_copy_ ++ c.id ∈ ((I.canon.filter fun c => c.id != S.d).map fun c => I.pre ++ S.cpg_copy_ ++ c.id) :=
    List.mem_map.2 ⟨c, List.mem_filter.2 ⟨hc, by simpa using hd⟩, rfl⟩
  unfold solveDecls
  simp only [List.mem_append, if_pos hp]
  simp only [h, true_or, or_true]

theorem decl_copy_all (hp : precond I.iface = true) : I.pre ++ S.cpg_copy_all ∈ solveDecls I := by
  unfold solveDecls
  simp only [List.mem_append, if_pos hp, List.mem_singleton, true_or, or_true]

theorem decl_solve : I.pre ++ S.cpg_solve ∈ solveDecls I := by
  unfold solveDecls
  simp only [List.mem_append, List.mem_singleton, true_or, or_true]

theorem decl_prim (h : retPrim I = true) : I.pre ++ S.cpg_retrieve_prim ∈ solveDecls I := by
  unfold solveDecls
  simp only [List.mem_append, if_pos h, List.mem_singleton, true_or, or_true]

theorem decl_dual (h : I.explicit ≠ 1 ∧ retDual I = true) : I.pre ++ S.cpg_retrieve_dual ∈ solveDecls I := by
  unfold solveDecls
  simp only [List.mem_append, if_pos h, List.mem_singleton, true_or, or_true]

theorem decl_info (h : I.explicit = 0) : I.pre ++ S.cpg_retrieve_info ∈ solveDecls I := by
  unfold solveDecls
  simp only [List.mem_append, if_pos h, List.mem_singleton, true_or, or_true]

theorem decl_settings (h : I.explicit = 0) : I.pre ++ S.cpg_set_solver_default_settings ∈ solveDecls I ∧
    ∀ s ∈ I.settings, I.pre ++ S.cpg_set_solver_ ++ s ∈ solveDecls I := by
  unfold solveDecls
  constructor
  · simp only [List.mem_append, if_pos h, List.mem_singleton, true_or, or_true]
  · intro s hs
    have : I.pre ++ S.cpg_set_solver_ ++ s ∈ (I.settings.map fun s => I.pre ++ S.cpg_set_solver_ ++ s) :=
      List.mem_map.2 ⟨s, hs, rfl⟩
    simp only [List.mem_append, if_pos h]
    simp only [this, or_true]

theorem writesDual_iff (h2 : I.two = false) : writesDual I = true ↔ I.explicit ≠ 1 ∧ retDual I = true := by
  simp [writesDual, h2]

theorem solverUses_env (hI : Coherent I) (u : Txt) (hu : u ∈ solverUses I) : u ∈ solveEnv I := by
  unfold solverUses at hu
  cases hi : I.iface <;> simp only [hi] at hu
  case osqp =>
    simp only [List.mem_cons, List.not_mem_nil, or_false] at hu
    rcases hu with rfl | rfl
    · exact env_ws I _ (real_lib I _ (by simp [libDecls, hi]))
    · exact env_ws I _ (real_canonParams I)
  case scs =>
    simp only [List.mem_cons, List.not_mem_nil, or_false] at hu
    refine env_ws I _ ?_
    have hs : ∀ v, v ∈ solReal I → v ∈ wsReal I := real_solver I
    simp only [solReal, hi] at hs
    rcases hu with rfl | rfl | rfl | rfl | rfl | rfl | rfl
    all_goals first | exact real_canonParams I | (refine hs _ ?_; simp)
  case ecos =>
    have hp : precond I.iface = true := by rw [hi]; rfl
    simp only [List.mem_append, List.mem_cons, List.not_mem_nil, or_false] at hu
    have hs : ∀ v, v ∈ solReal I → v ∈ wsReal I := real_solver I
    simp only [solReal, hi, solverDecls] at hs
    rcases hu with ((rfl | rfl | rfl | rfl | rfl) | hu) | hu
    · exact (env_i I).1
    · exact env_ws I _ (hs _ (by simp))
    · exact env_ws I _ (hs _ (by simp))
    · exact env_decl I _ (decl_copy_all I hp)
    · exact env_ws I _ (real_conditioning I hp)
    · refine env_ws I _ (hs _ ?_)
      exact List.mem_append_left _ hu
    · obtain ⟨c, hc, rfl⟩ := List.mem_map.1 hu
      have hf := List.mem_filter.1 hc
      refine env_decl I _ (decl_copy I hp c hf.1 ?_)
      intro hd
      rw [hd] at hf
      exact absurd hf.2 (by decide)
  case clarabel =>
    have hp : precond I.iface = true := by rw [hi]; rfl
    simp only [List.mem_append, List.mem_cons, List.not_mem_nil, or_false] at hu
    have hs : ∀ v, v ∈ solReal I → v ∈ wsReal I := real_solver I
    simp only [solReal, hi, solverDecls] at hs
    rcases hu with (rfl | rfl | rfl | rfl | rfl | rfl | rfl | rfl) | hu
    case inr =>
      obtain ⟨c, hc, rfl⟩ := List.mem_map.1 hu
      have hf := List.mem_filter.1 hc
      refine env_decl I _ (decl_copy I hp c hf.1 ?_)
      have := hf.2
      simp at this
      exact this.2
    all_goals
      first
      | exact env_decl I _ (decl_copy_all I hp)
      | exact env_ws I _ (real_conditioning I hp)
      | exact env_ws I _ (hs _ (by simp))
  case qoco =>
    have hp : precond I.iface = true := by rw [hi]; rfl
    simp only [List.mem_append, List.mem_cons, List.not_mem_nil, or_false] at hu
    have hs : ∀ v, v ∈ solReal I → v ∈ wsReal I := real_solver I
    simp only [solReal, hi, solverDecls] at hs
    rcases hu with (rfl | rfl | rfl) | hu
    · exact env_ws I _ (hs _ (by simp))
    · exact env_decl I _ (decl_copy_all I hp)
    · exact env_ws I _ (real_canonParams I)
    · exact env_ws I _ (hs _ (List.mem_append_left _ hu))
  case qocogen =>
    simp only [List.mem_cons, List.not_mem_nil, or_false] at hu
    have hs : ∀ v, v ∈ solReal I → v ∈ wsReal I := real_solver I
    simp only [solReal, hi, solverDecls] at hs
    rcases hu with rfl | rfl
    · exact env_ws I _ (hs _ (by simp))
    · exact env_ws I _ (real_canonParams I)
  case pdaqp =>
    have he := hI.expl.2 hi
    simp only [List.mem_append, List.mem_cons, List.not_mem_nil, or_false] at hu
    refine env_ws I _ ?_
    rcases hu with (rfl | rfl | rfl) | hu
    · exact real_lib I _ (by simp [libDecls, hi])
    · exact (real_theta I he).1
    · exact (real_theta I he).2
    · by_cases h2 : I.explicit = 2
      · rw [if_pos h2] at hu
        rw [List.mem_singleton.1 hu]
        exact real_soly I h2
      · rw [if_neg h2] at hu; cases hu

theorem setUses_ws (hI : Coherent I) (h0 : I.explicit = 0) : setUses I ∈ wsReal I := by
  have hn : I.iface ≠ .pdaqp := fun h => hI.expl.2 h h0
  unfold setUses
  cases hi : I.iface
  case osqp => exact real_lib I _ (by simp [libDecls, hi])
  case qocogen => exact real_solver I _ (by simp [solReal, hi, solverDecls])
  all_goals exact real_settings I h0 hn (by rw [hi]; decide)

theorem resetUses_ws (hI : Coherent I) (h0 : I.explicit = 0) (u : Txt) (hu : u ∈ resetUses I) : u ∈ wsReal I := by
  have hn : I.iface ≠ .pdaqp := fun h => hI.expl.2 h h0
  unfold resetUses at hu
  cases hi : I.iface <;> simp only [hi] at hu
  case osqp => rw [List.mem_singleton.1 hu]; exact real_lib I _ (by simp [libDecls, hi])
  case qocogen => rw [List.mem_singleton.1 hu]; exact real_solver I _ (by simp [solReal, hi, solverDecls])
  case scs => rw [List.mem_singleton.1 hu]; exact real_settings I h0 hn (by rw [hi]; decide)
  all_goals
    obtain ⟨s, _, rfl⟩ := List.mem_map.1 hu
    exact real_settings I h0 hn (by rw [hi]; decide)

theorem stgsObj_ws (hd : stgsDynamic I.iface = true) : I.pre ++ primObjStgs I.iface ∈ wsReal I := by
  refine real_solver I _ ?_
  cases hi : I.iface <;> rw [hi] at hd
  case ecos => simp [solReal, hi, solverDecls, primObjStgs]
  case clarabel => simp [solReal, hi, solverDecls, primObjStgs]
  case qoco => simp [solReal, hi, solverDecls, primObjStgs]
  all_goals cases hd

theorem solve_closed (hI : Coherent I) : Closed (solveEnv I) (solveItems I) := by
  have h2 := hI.one
  have ws := env_ws I
  have hx : ∀ {a : List Item} {u : Txt}, u ∈ solveEnv I → u ∈ solveEnv I ++ a.map Item.name :=
    fun h => List.mem_append_left _ h
  unfold solveItems
  iterate 8 refine Closed.append _ _ _ ?_ ?_
  · refine closed_map _ _ _ _ fun q hq u hu => ?_
    rw [h2] at hu
    simp only [List.mem_append, List.mem_cons, List.not_mem_nil, or_false] at hu
    rcases hu with ((hu | rfl | rfl) | hu) | hu
    · by_cases h0 : I.explicit = 0
      · rw [if_pos h0] at hu; cases hu
      · rw [if_neg h0] at hu
        simp only [List.mem_cons, List.not_mem_nil, or_false] at hu
        rcases hu with rfl | rfl
        · exact ws _ (real_bounds I h0).1
        · exact ws _ (real_bounds I h0).2
    · exact ws _ (real_params I)
    · exact ws _ (real_outdated I)
    · by_cases hg : I.gradient = true
      · rw [if_pos (by simp [hg])] at hu
        rw [List.mem_singleton.1 hu]
        exact ws _ (real_outdatedGrad I (by simp [hg, h2]))
      · rw [if_neg (by simpa using hg)] at hu; cases hu
    · simp at hu
  · refine closed_map _ _ _ _ fun c hc u hu => hx ?_
    simp only [canonicalizeUses, List.mem_cons, List.not_mem_nil, or_false] at hu
    have hf := List.mem_filter.1 hc
    rcases hu with rfl | rfl | rfl | rfl | rfl
    · exact (env_i I).1
    · exact (env_i I).2
    · exact ws _ (real_canonParams I)
    · exact ws _ (real_map I c hf.1 hf.2)
    · exact ws _ (real_params I)
  · refine closed_ite _ _ _ _ (fun _ => closed_one _ _ _ fun u hu => hx ?_) (fun _ => trivial)
    rw [h2] at hu
    simp at hu
    rcases hu with rfl | rfl
    · exact ws _ (real_prim I)
    · exact ws _ (real_primObj I hI)
  · refine closed_ite _ _ _ _ (fun hw => closed_one _ _ _ fun u hu => hx ?_) (fun _ => trivial)
    have hd := (writesDual_iff I h2).1 hw
    have hm := hI.mode
    rw [h2] at hu
    simp only [List.mem_append] at hu
    rcases hu with hu | hu
    · simp at hu
    · by_cases hn : I.duals = []
      · rw [if_pos hn] at hu; cases hu
      · rw [if_neg hn] at hu
        simp only [List.mem_cons, List.not_mem_nil, or_false] at hu
        rcases hu with rfl | rfl
        · exact ws _ (real_dual I (by tauto))
        · exact ws _ (real_dualObj I hI (by omega))
  · refine closed_ite _ _ _ _ (fun h0 => closed_one _ _ _ fun u hu => hx ?_) (fun _ => trivial)
    simp only [List.mem_append, List.mem_cons, List.not_mem_nil, or_false] at hu
    rcases hu with (rfl | rfl) | hu
    · exact ws _ (real_info I h0)
    · exact ws _ (real_canonParams I)
    · obtain ⟨o, ho, rfl⟩ := List.mem_map.1 hu
      exact ws _ (real_infoObj I h0 hI o ho)
  · refine closed_ite _ _ _ _ (fun hp => Closed.append _ _ _ ?_ ?_) (fun _ => trivial)
    · refine closed_map _ _ _ _ fun c hc u hu => hx ?_
      by_cases hl : c.len = 0
      · rw [if_pos hl] at hu; cases hu
      · rw [if_neg hl] at hu
        simp only [List.mem_cons, List.not_mem_nil, or_false] at hu
        rcases hu with rfl | rfl | rfl
        · exact (env_i I).1
        · exact ws _ (real_conditioning I hp)
        · exact ws _ (real_canonParams I)
    · refine closed_one _ _ _ fun u hu => List.mem_append_left _ (hx ?_)
      obtain ⟨c, hc, rfl⟩ := List.mem_map.1 hu
      have hf := List.mem_filter.1 hc
      exact env_decl I _ (decl_copy I hp c (List.mem_filter.1 hf.1).1 (by simpa using hf.2))
  · refine closed_one _ _ _ fun u hu => hx ?_
    simp only [List.mem_append] at hu
    rcases hu with ((((((hu | hu) | hu) | hu) | hu) | hu) | hu) | hu
    · rw [List.mem_singleton.1 hu]; exact ws _ (real_outdated I)
    · obtain ⟨c, hc, rfl⟩ := List.mem_map.1 hu
      exact env_decl I _ (decl_canonicalize I c hc)
    · by_cases h0 : I.explicit = 0
      · rw [if_pos h0] at hu; cases hu
      · rw [if_neg h0] at hu
        simp only [List.mem_cons, List.not_mem_nil, or_false] at hu
        rcases hu with rfl | rfl
        · exact ws _ (real_theta I h0).1
        · exact ws _ (real_canonParams I)
    · exact solverUses_env I hI u hu
    · by_cases hd : stgsDynamic I.iface = true
      · rw [if_pos hd] at hu
        obtain ⟨s, _, hu⟩ := List.mem_flatMap.1 hu
        have hn : I.iface ≠ .pdaqp := by intro h; rw [h] at hd; cases hd
        have hq : I.iface ≠ .qocogen := by intro h; rw [h] at hd; cases hd
        have h0 : I.explicit = 0 := by by_contra h; exact hn (hI.expl.1 h)
        simp only [List.mem_cons, List.not_mem_nil, or_false] at hu
        rcases hu with rfl | rfl
        · exact ws _ (stgsObj_ws I hd)
        · exact ws _ (real_settings I h0 hn hq)
      · rw [if_neg hd] at hu; cases hu
    · by_cases h : retPrim I = true
      · rw [if_pos h] at hu; rw [List.mem_singleton.1 hu]; exact env_decl I _ (decl_prim I h)
      · rw [if_neg h] at hu; cases hu
    · by_cases h : writesDual I = true
      · rw [if_pos h] at hu; rw [List.mem_singleton.1 hu]; exact env_decl I _ (decl_dual I ((writesDual_iff I h2).1 h))
      · rw [if_neg h] at hu; cases hu
    · by_cases h : I.explicit = 0
      · rw [if_pos h] at hu; rw [List.mem_singleton.1 hu]; exact env_decl I _ (decl_info I h)
      · rw [if_neg h] at hu; cases hu
  · refine closed_ite _ _ _ _ (fun h => closed_one _ _ _ fun u hu => hx ?_) (fun _ => trivial)
    simp only [List.mem_cons, List.not_mem_nil, or_false] at hu
    rcases hu with rfl | rfl | rfl | rfl | rfl
    · unfold solveEnv; rw [if_neg h.1]; simp
    · exact (env_i I).1
    · exact (env_i I).2
    · exact ws _ (real_theta I h.1).2
    · exact ws _ (real_canonParams I)
  · refine closed_ite _ _ _ _ (fun h0 => Closed.append _ _ _ ?_ ?_) (fun _ => trivial)
    · exact closed_one _ _ _ fun u hu => hx (ws _ (resetUses_ws I hI h0 u hu))
    · refine closed_map _ _ _ _ fun s _ u hu => List.mem_append_left _ (hx ?_)
      rw [List.mem_singleton.1 hu]
      exact ws _ (setUses_ws I hI h0)

/-! ### derivatives -/

theorem gradDecls_def (h2 : I.two = false) (h0 : I.explicit = 0) (u : Txt) (h : u ∈ gradDecls I) :
    u ∈ (gradItems I).map Item.name := by
  unfold gradDecls at h
  unfold gradItems
  rw [h2] at h ⊢
  simpa using h

theorem gradDecls_defExplicit (h2 : I.two = false) (u : Txt) (h : u ∈ gradDecls I) :
    u ∈ (gradItemsExplicit I).map Item.name := by
  unfold gradDecls at h
  unfold gradItemsExplicit
  rw [h2] at h
  simpa using h

/-- Names that cpg_gradient.c may use. -/
def gradEnv : List Txt := wsReal I ++ gradWsDecls I ++ computeDecls

theorem grad_closed (hI : Coherent I) (hg : I.gradient = true) : Closed (gradEnv I) (gradItems I) := by
  have h2 := hI.one
  have ws : ∀ u, u ∈ wsReal I → u ∈ gradEnv I := fun u h => by
    unfold gradEnv; simp only [List.mem_append, h, true_or]
  have hw : I.pre ++ S.CPG_OSQP_Grad ∈ gradEnv I := by simp [gradEnv, gradWsDecls]
  have hc : ∀ u, u ∈ computeDecls → u ∈ gradEnv I := fun u h => by
    unfold gradEnv; simp only [List.mem_append, h, or_true]
  unfold gradItems gradPre gradCanon
  rw [h2]
  simp only [Bool.false_eq_true, if_false, List.nil_append]
  refine Closed.append _ _ _ ?_ ?_
  · refine closed_map _ _ _ _ fun v _ u hu => ?_
    rw [List.mem_singleton.1 hu]; exact hw
  · refine closed_one _ _ _ fun u hu => List.mem_append_left _ ?_
    simp only [List.mem_append] at hu
    rcases hu with ((hu | hu) | hu) | hu
    · obtain ⟨c, hcc, hu⟩ := List.mem_flatMap.1 hu
      have hf := List.mem_filter.1 hcc
      have hup : upperId c.id = true := by have := hf.2; simp at this; exact this.2
      simp only [List.mem_cons, List.not_mem_nil, or_false] at hu
      rcases hu with rfl | rfl
      · rcases hI.ids hg c hf.1 hup with h | h <;> rw [h] <;> refine hc _ ?_ <;> decide
      · exact ws _ (real_canonParams I)
    · simp only [List.mem_cons, List.not_mem_nil, or_false] at hu
      rcases hu with rfl | rfl | rfl | rfl | rfl
      · exact hw
      · exact hc _ (by decide)
      · exact hc _ (by decide)
      · exact hc _ (by decide)
      · exact ws _ (real_dp I hg).1
    · obtain ⟨c, hcc, rfl⟩ := List.mem_map.1 hu
      have hf := List.mem_filter.1 hcc
      have := hf.2
      simp at this
      exact ws _ (real_map I c hf.1 this.1)
    · obtain ⟨c, hcc, rfl⟩ := List.mem_map.1 hu
      exact ws _ (real_outdatedGrad I (by simp [hg, h2]))

def gradEnvExplicit : List Txt := wsReal I ++ [S.cpg_dx, S.cpg_dtheta]

theorem gradExplicit_closed (hI : Coherent I) (hg : I.gradient = true) (he : I.explicit ≠ 0) :
    Closed (gradEnvExplicit I) (gradItemsExplicit I) := by
  have hi := hI.expl.1 he
  have ws : ∀ u, u ∈ wsReal I → u ∈ gradEnvExplicit I := fun u h => List.mem_append_left _ h
  have st : ∀ u, u ∈ [S.cpg_dx, S.cpg_dtheta] → u ∈ gradEnvExplicit I := fun u h => List.mem_append_right _ h
  have lib : ∀ u, u ∈ libDecls I → u ∈ gradEnvExplicit I := fun u h => ws u (real_lib I u h)
  unfold gradItemsExplicit
  refine Closed.append _ _ _ ?_ ?_
  · refine closed_map _ _ _ _ fun v _ u hu => ?_
    rw [List.mem_singleton.1 hu]; exact st _ (by simp)
  · refine closed_one _ _ _ fun u hu => List.mem_append_left _ ?_
    simp only [List.mem_append, List.mem_cons, List.not_mem_nil, or_false] at hu
    rcases hu with (rfl | rfl | rfl | rfl | rfl | rfl) | hu
    · exact lib _ (by simp [libDecls, hi, hg])
    · exact lib _ (by simp [libDecls, hi, hg])
    · exact lib _ (by simp [libDecls, hi, hg])
    · exact st _ (by simp)
    · exact st _ (by simp)
    · exact ws _ (real_dp I hg).1
    · obtain ⟨c, hcc, rfl⟩ := List.mem_map.1 hu
      have hf := List.mem_filter.1 hcc
      have := hf.2
      simp at this
      exact ws _ (real_map I c hf.1 this.1)

theorem osqp_of_grad (hI : Coherent I) (hg : I.gradient = true) (h0 : I.explicit = 0) : I.iface = .osqp := by
  rcases hI.grad hg with h | h
  · exact h
  · exact absurd h0 (hI.expl.2 h)

/-- Names that cpg_osqp_grad_compute.c may use. -/
def computeEnv : List Txt := [I.pre ++ S.CPG_OSQP_Grad, S.sol_x, S.sol_y]

theorem compute_closed (h2 : I.two = false) : Closed (computeEnv I) (computeItems I) := by
  unfold computeItems gradSolX gradSolY
  rw [h2]
  simp only [Closed, List.mem_cons, List.not_mem_nil, or_false, forall_eq_or_imp, forall_eq, computeEnv, Bool.false_eq_true,
    if_false, true_or, or_true, and_true, false_imp_iff, implies_true]

theorem gradWs_closed : Closed [] (gradWsItems I) := by
  unfold gradWsItems
  refine Closed.append _ _ _ (Closed.flatMap _ _ _ fun w _ => ?_) (closed_one _ _ _ fun u hu => ?_)
  · cases w.2
    · exact closed_one _ _ _ (by simp)
    · exact closed_mat _ _
  · obtain ⟨w, hw, rfl⟩ := List.mem_map.1 hu
    refine List.mem_append_right _ ?_
    rw [List.map_flatMap]
    refine List.mem_flatMap.2 ⟨w, hw, ?_⟩
    cases w.2 <;> simp [matItems]

theorem gradWsDecls_def (u : Txt) (h : u ∈ gradWsDecls I) : u ∈ (gradWsItems I).map Item.name := by
  unfold gradWsItems
  rw [List.map_append]
  exact List.mem_append_right _ h

theorem computeDecls_def (u : Txt) (h : u ∈ computeDecls) : u ∈ (computeItems I).map Item.name := by
  simp only [computeDecls, computeItems, List.map_cons, List.map_nil, List.mem_cons, List.not_mem_nil, or_false] at h ⊢
  rcases h with h | h | h | h | h | h | h | h <;> simp only [h, true_or, or_true]

/-! ### example program and Python module -/

def moduleEnv : List Txt := wsReal I ++ solveDecls I ++ (if I.gradient then gradDecls I else [])

theorem gdecl_update (v : Var) (hv : v ∈ I.vars) : I.pre ++ S.cpg_update_d ++ v.name ∈ gradDecls I := by
  have : I.pre ++ S.cpg_update_d ++ v.name ∈ (I.vars.map fun v => I.pre ++ S.cpg_update_d ++ v.name) :=
    List.mem_map.2 ⟨v, hv, rfl⟩
  unfold gradDecls
  simp only [List.mem_append]
  simp only [this, true_or, or_true]

theorem gdecl_gradient : I.pre ++ S.cpg_gradient ∈ gradDecls I := by
  unfold gradDecls
  simp

theorem module_closed (hI : Coherent I) : Closed (moduleEnv I) (moduleItems I) := by
  have ws : ∀ u, u ∈ wsReal I → u ∈ moduleEnv I := fun u h => by
    unfold moduleEnv; simp only [List.mem_append, h, true_or]
  have sd : ∀ u, u ∈ solveDecls I → u ∈ moduleEnv I := fun u h => by
    unfold moduleEnv; simp only [List.mem_append, h, true_or, or_true]
  have gd : I.gradient = true → ∀ u, u ∈ gradDecls I → u ∈ moduleEnv I := fun hg u h => by
    unfold moduleEnv; rw [if_pos hg]; simp only [List.mem_append, h, or_true]
  have sols : I.gradient = true → ∀ u, u ∈ (if I.explicit = 0 then [S.sol_x, S.sol_y] else [S.pdaqp_active_region]) →
      u ∈ moduleEnv I := by
    intro hg u hu
    refine ws _ (real_lib I _ ?_)
    by_cases h0 : I.explicit = 0
    · rw [if_pos h0] at hu
      have hi := osqp_of_grad I hI hg h0
      simp only [libDecls, hi]
      exact List.mem_cons_of_mem _ hu
    · rw [if_neg h0] at hu
      rw [List.mem_singleton.1 hu]
      simp [libDecls, hI.expl.1 h0, hg]
  unfold moduleItems
  iterate 2 refine Closed.append _ _ _ ?_ ?_
  · refine closed_one _ _ _ fun u hu => ?_
    simp only [List.mem_append] at hu
    rcases hu with ((((hu | hu) | hu) | hu) | hu) | hu
    · obtain ⟨q, hq, rfl⟩ := List.mem_map.1 hu
      exact sd _ (decl_update I q hq)
    · rw [List.mem_singleton.1 hu]; exact sd _ (decl_solve I)
    · obtain ⟨v, _, rfl⟩ := List.mem_map.1 hu
      exact ws _ (real_prim I)
    · by_cases h1 : I.explicit = 1
      · rw [if_pos h1] at hu; cases hu
      · rw [if_neg h1] at hu
        obtain ⟨v, hv, rfl⟩ := List.mem_map.1 hu
        refine ws _ (real_dual I ?_)
        rintro (h | h)
        · exact h1 h
        · rw [h] at hv; cases hv
    · by_cases h0 : I.explicit = 0
      · rw [if_pos h0] at hu; rw [List.mem_singleton.1 hu]; exact ws _ (real_info I h0)
      · rw [if_neg h0] at hu; cases hu
    · by_cases hg : I.gradient = true
      · rw [if_pos hg] at hu; exact sols hg u hu
      · rw [if_neg hg] at hu; cases hu
  · refine closed_ite _ _ _ _ (fun hg => closed_one _ _ _ fun u hu => List.mem_append_left _ ?_) (fun _ => trivial)
    simp only [List.mem_append] at hu
    rcases hu with ((hu | hu) | hu) | hu
    · exact sols hg u hu
    · obtain ⟨v, hv, rfl⟩ := List.mem_map.1 hu
      exact gd hg _ (gdecl_update I v hv)
    · rw [List.mem_singleton.1 hu]; exact gd hg _ (gdecl_gradient I)
    · obtain ⟨q, _, rfl⟩ := List.mem_map.1 hu
      exact ws _ (real_dp I hg).2
  · refine closed_one _ _ _ fun u hu => ?_
    simp only [List.mem_append] at hu
    rcases hu with (hu | hu) | hu
    · refine List.mem_append_right _ ?_
      rw [List.mem_singleton.1 hu]; simp
    · refine List.mem_append_right _ ?_
      by_cases hg : I.gradient = true
      · rw [if_pos hg] at hu; rw [if_pos hg, List.mem_singleton.1 hu]; simp [hg]
      · rw [if_neg hg] at hu; cases hu
    · refine List.mem_append_left _ (sd _ ?_)
      by_cases h0 : I.explicit = 0
      · rw [if_pos h0] at hu
        rcases List.mem_append.1 hu with hu | hu
        · rw [List.mem_singleton.1 hu]; exact (decl_settings I h0).1
        · obtain ⟨s, hs, rfl⟩ := List.mem_map.1 hu
          exact (decl_settings I h0).2 s hs
      · rw [if_neg h0] at hu; cases hu

theorem example_closed (hp : I.gradient = false ∨ I.pre = []) : Closed (moduleEnv I) (exampleItems I) := by
  have ws : ∀ u, u ∈ wsReal I → u ∈ moduleEnv I := fun u h => by
    unfold moduleEnv; simp only [List.mem_append, h, true_or]
  have sd : ∀ u, u ∈ solveDecls I → u ∈ moduleEnv I := fun u h => by
    unfold moduleEnv; simp only [List.mem_append, h, true_or, or_true]
  unfold exampleItems
  refine closed_one _ _ _ fun u hu => ?_
  simp only [List.mem_append] at hu
  rcases hu with (hu | hu) | hu
  · obtain ⟨q, hq, rfl⟩ := List.mem_map.1 hu
    exact sd _ (decl_update I q hq)
  · simp only [List.mem_cons, List.not_mem_nil, or_false] at hu
    rcases hu with rfl | rfl
    · exact sd _ (decl_solve I)
    · exact ws _ (real_result I)
  · by_cases hg : I.gradient = true
    · have gd : ∀ u, u ∈ gradDecls I → u ∈ moduleEnv I := fun u h => by
        unfold moduleEnv; rw [if_pos hg]; simp only [List.mem_append, h, or_true]
      have hpre : I.pre = [] := by rcases hp with h | h; rw [h] at hg; cases hg; exact h
      rw [if_pos hg] at hu
      simp only [List.mem_append] at hu
      rcases hu with (hu | hu) | hu
      · obtain ⟨v, hv, hu⟩ := List.mem_flatMap.1 hu
        simp only [List.mem_cons, List.not_mem_nil, or_false] at hu
        rcases hu with rfl | rfl
        · exact gd _ (gdecl_update I v hv)
        · have := real_result I
          rw [hpre, List.nil_append] at this
          exact ws _ this
      · rw [List.mem_singleton.1 hu]; exact gd _ (gdecl_gradient I)
      · obtain ⟨q, _, rfl⟩ := List.mem_map.1 hu
        exact ws _ (real_dp I hg).2
    · rw [if_neg hg] at hu; cases hu

end Verif.Lemmas.Symbols
