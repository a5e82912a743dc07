import Verif.Lemmas.SymbolsB
/-!
Names of two generated libraries: helper lemmas for `Props/SymbolsB.lean`.
-/
namespace Verif.Lemmas.SymbolsC
open Verif.Model.Text Verif.Model.Dispatch Verif.Model.Symbols Verif.Spec.Symbols Verif.Lemmas.Symbols Verif.Lemmas.SymbolsB

variable {I : In}

/-- All names carry the prefix, and then the name of a variable with storage of its own or a reserved name. -/
def Shaped (I : In) (l : List Txt) : Prop := ∀ x ∈ l, ∃ u, x = I.pre ++ u ∧ (u ∈ owned I ∨ reserved I.iface u = true)

theorem Shaped.nil : Shaped I [] := fun _ h => nomatch h
theorem Shaped.append {a b : List Txt} (ha : Shaped I a) (hb : Shaped I b) : Shaped I (a ++ b) := by
  intro x hx
  rcases List.mem_append.1 hx with h | h
  · exact ha x h
  · exact hb x h
theorem Shaped.ite {c : Prop} [Decidable c] {a b : List Txt} (ha : Shaped I a) (hb : Shaped I b) :
    Shaped I (if c then a else b) := by
  by_cases h : c
  · rw [if_pos h]; exact ha
  · rw [if_neg h]; exact hb

def four : List Txt := ["cpg_", "CPG_", "canon_", "Canon_"].map String.toList

theorem res_head (i : Iface) (K r : Txt) (h : ∃ s ∈ four, s.isPrefixOf K = true) : reserved i (K ++ r) = true := by
  obtain ⟨s, hs, hp⟩ := h
  have hq : startsWith s (K ++ r) = true :=
    List.isPrefixOf_iff_prefix.2 ((List.isPrefixOf_iff_prefix.1 hp).trans (List.prefix_append K r))
  unfold reserved
  simp only [four, List.map_cons, List.map_nil, List.mem_cons, List.not_mem_nil, or_false] at hs
  rcases hs with rfl | rfl | rfl | rfl <;> rw [hq] <;> simp

theorem Shaped.one {K : Txt} (h : ∃ s ∈ four, s.isPrefixOf K = true) : Shaped I [I.pre ++ K] := by
  intro x hx
  rw [List.mem_singleton.1 hx]
  refine ⟨K, rfl, Or.inr ?_⟩
  have := res_head I.iface K [] h
  rwa [List.append_nil] at this

theorem Shaped.map {α : Type} (K : Txt) (h : ∃ s ∈ four, s.isPrefixOf K = true) (l : List α) (key : α → Txt) :
    Shaped I (l.map fun a => I.pre ++ K ++ key a) := by
  intro x hx
  obtain ⟨a, _, rfl⟩ := List.mem_map.1 hx
  exact ⟨K ++ key a, List.append_assoc _ _ _, Or.inr (res_head _ K _ h)⟩

theorem Shaped.head {l : List Txt} (K : Txt) (h : ∃ s ∈ four, s.isPrefixOf K = true)
    (hl : ∀ x ∈ l, ∃ r, x = I.pre ++ (K ++ r)) : Shaped I l := fun x hx => by
  obtain ⟨r, hr⟩ := hl x hx
  exact ⟨K ++ r, hr, Or.inr (res_head _ K _ h)⟩

theorem Shaped.list (i : Iface) (hi : I.iface = i) (Ks : List Txt) (h : ∀ K ∈ Ks, reserved i K = true) :
    Shaped I (Ks.map fun K => I.pre ++ K) := by
  intro x hx
  obtain ⟨K, hK, rfl⟩ := List.mem_map.1 hx
  exact ⟨K, rfl, Or.inr (by rw [hi]; exact h K hK)⟩

theorem mat_head (p t x : Txt) (h : x ∈ (matItems (p ++ S.canon_ ++ t)).map Item.name) : ∃ r, x = p ++ (S.canon_ ++ r) := by
  rw [mat_names] at h
  obtain ⟨z, _, rfl⟩ := List.mem_map.1 h
  exact ⟨t ++ z, by simp only [List.append_assoc]⟩

theorem param_head (p s : Txt) (c : CanonP) (x : Txt) (h : x ∈ (paramItems p s c).map Item.name) :
    ∃ r, x = p ++ (S.canon_ ++ r) := by
  unfold paramItems at h
  split at h
  · exact nomatch h
  · split at h
    · rw [List.append_assoc] at h; exact mat_head _ _ _ h
    · rw [List.map_cons, List.map_nil, List.mem_singleton] at h
      exact ⟨c.id ++ s, by rw [h]; simp only [List.append_assoc]⟩

theorem canonItems_shaped (cond : Bool) (canon ids : List CanonP) :
    Shaped I ((canonItems I.pre cond canon ids).map Item.name) := by
  refine Shaped.head S.canon_ (by decide) ?_
  intro x hx
  obtain ⟨it, hit, rfl⟩ := List.mem_map.1 hx
  unfold canonItems at hit
  rcases List.mem_append.1 hit with h | h
  · obtain ⟨c, _, hc⟩ := List.mem_flatMap.1 h
    exact mat_head I.pre (c.id ++ S._map) _ (List.mem_map.2 ⟨it, by rwa [← List.append_assoc], rfl⟩)
  · obtain ⟨c, _, hc⟩ := List.mem_flatMap.1 h
    rcases List.mem_append.1 hc with h | h
    · exact param_head _ _ c _ (List.mem_map.2 ⟨it, h, rfl⟩)
    · cases cond
      · simp at h
      · rw [if_pos rfl] at h
        exact param_head _ _ c _ (List.mem_map.2 ⟨it, h, rfl⟩)

theorem solverItems_shaped : Shaped I ((solverItems I).map Item.name) := by
  unfold solverItems
  cases hi : I.iface <;> simp only [List.map_append, List.map_cons, List.map_nil, apply_ite (List.map Item.name)]
  case osqp => exact Shaped.nil
  case pdaqp => exact Shaped.nil
  case scs =>
    refine Shaped.append (Shaped.append (Shaped.append ?_ (Shaped.list .scs hi [S.Scs_D] (by decide +kernel)))
      (Shaped.ite (Shaped.list .scs hi [S.scs_q] (by decide +kernel)) Shaped.nil))
      (Shaped.list .scs hi [S.Scs_K, S.Canon_Settings, S.scs_x, S.scs_y, S.scs_s, S.Scs_Sol, S.Scs_Info, S.Scs_Work]
        (by decide +kernel))
    have sub : ∀ m ∈ (if I.quad then [S.P, S.A] else [S.A]), m ∈ [S.P, S.A] := by
      cases I.quad <;> decide
    intro x hx
    obtain ⟨it, hit, rfl⟩ := List.mem_map.1 hx
    obtain ⟨m, hm, rfl⟩ := List.mem_map.1 hit
    refine ⟨S.Scs_ ++ m, List.append_assoc _ _ _, Or.inr ?_⟩
    rw [hi]
    exact (by decide +kernel : ∀ m ∈ [S.P, S.A], reserved .scs (S.Scs_ ++ m) = true) m (sub m hm)
  case ecos =>
    exact Shaped.append (Shaped.ite (Shaped.list .ecos hi [S.ecos_q] (by decide +kernel)) Shaped.nil)
      (Shaped.list .ecos hi [S.ecos_workspace, S.ecos_flag] (by decide +kernel))
  case clarabel =>
    exact Shaped.list .clarabel hi [S.P, S.A, S.cones, S.settings, S.solver, S.solution] (by decide +kernel)
  case qoco =>
    exact Shaped.append (Shaped.ite (Shaped.list .qoco hi [S.qoco_q] (by decide +kernel)) Shaped.nil)
      (Shaped.list .qoco hi [S.qoco_solver, S.qoco_flag] (by decide +kernel))
  case qocogen =>
    exact Shaped.append (Shaped.ite (Shaped.list .qocogen hi [S.qoco_custom_q] (by decide +kernel)) Shaped.nil)
      (Shaped.list .qocogen hi [S.qoco_custom_workspace, S.qoco_custom_flag] (by decide +kernel))

theorem wsItems_shaped (h0 : I.explicit = 0) : Shaped I ((wsItems I).map Item.name) := by
  unfold wsItems
  simp only [List.map_append, apply_ite (List.map Item.name), List.map_map, List.map_cons, List.map_nil]
  have c : ∀ K : Txt, K ∈ common → Shaped I [I.pre ++ K] := fun K hK =>
    Shaped.one ((by decide +kernel : ∀ K ∈ common, ∃ s ∈ four, s.isPrefixOf K = true) K hK)
  have e2 : ¬ I.explicit = 2 := by omega
  rw [if_pos h0, if_pos h0, if_neg e2]
  refine ((((((((((((((((c _ (by decide +kernel)).append Shaped.nil).append (canonItems_shaped _ _ _)).append
    Shaped.nil).append Shaped.nil).append (c _ (by decide +kernel))).append ?_).append (c _ (by decide +kernel))).append
    ?_).append ?_).append (c _ (by decide +kernel))).append ?_).append ?_).append (c _ (by decide +kernel))).append
    ?_).append solverItems_shaped).append ?_
  · exact Shaped.ite (c _ (by decide +kernel)) Shaped.nil
  · exact Shaped.ite (c _ (by decide +kernel)) Shaped.nil
  · intro x hx
    obtain ⟨v, hv, rfl⟩ := List.mem_map.1 hx
    exact ⟨v.name, rfl, Or.inl (List.mem_append_left _ (List.mem_map.2 ⟨v, hv, rfl⟩))⟩
  · refine Shaped.ite Shaped.nil (Shaped.append ?_ (c _ (by decide +kernel)))
    intro x hx
    obtain ⟨v, hv, rfl⟩ := List.mem_map.1 hx
    exact ⟨v.1, rfl, Or.inl (List.mem_append_right _ (List.mem_map.2 ⟨v, hv, rfl⟩))⟩
  · exact Shaped.ite (c _ (by decide +kernel)) Shaped.nil
  · exact Shaped.ite (c _ (by decide +kernel)) Shaped.nil
  · exact Shaped.ite ((c _ (by decide +kernel)).append (c _ (by decide +kernel))) Shaped.nil

theorem solveItems_shaped : Shaped I ((solveItems I).map Item.name) := by
  have c : ∀ K : Txt, K ∈ common → Shaped I [I.pre ++ K] := fun K hK =>
    Shaped.one ((by decide +kernel : ∀ K ∈ common, ∃ s ∈ four, s.isPrefixOf K = true) K hK)
  unfold solveItems
  simp only [List.map_append, apply_ite (List.map Item.name), List.map_map, List.map_cons, List.map_nil]
  refine ((((((((Shaped.map S.cpg_update_ (by decide +kernel) _ _).append
    (Shaped.map S.cpg_canonicalize_ (by decide +kernel) _ (fun c : CanonP => c.id))).append ?_).append ?_).append ?_).append
    ?_).append (c _ (by decide +kernel))).append ?_).append ?_
  · exact Shaped.ite (c _ (by decide +kernel)) Shaped.nil
  · exact Shaped.ite (c _ (by decide +kernel)) Shaped.nil
  · exact Shaped.ite (c _ (by decide +kernel)) Shaped.nil
  · exact Shaped.ite ((Shaped.map S.cpg_copy_ (by decide +kernel) _ (fun c : CanonP => c.id)).append
      (c _ (by decide +kernel))) Shaped.nil
  · exact Shaped.ite (c _ (by decide +kernel)) Shaped.nil
  · exact Shaped.ite ((c _ (by decide +kernel)).append (Shaped.map S.cpg_set_solver_ (by decide +kernel) _ id)) Shaped.nil

/-- Without OSQP and explicit mode. -/
theorem lib_shaped (hI : Coherent I) (h1 : I.iface ≠ .osqp) (h2 : I.iface ≠ .pdaqp) : Shaped I (externs (libFiles I)) := by
  have hg : I.gradient = false := by
    cases hb : I.gradient with
    | false => rfl
    | true => rcases hI.grad hb with h | h; exact absurd h h1; exact absurd h h2
  have h0 : I.explicit = 0 := by
    by_cases h0 : I.explicit = 0
    · exact h0
    · exact absurd (hI.expl.1 h0) h2
  unfold externs libFiles
  rw [hg]
  simp only [Bool.false_eq_true, if_false, List.append_nil, List.flatMap_cons, List.flatMap_nil, wsFile, solveFile]
  exact (wsItems_shaped h0).append solveItems_shaped

/-- A text that ends with an underscore and is not reserved does not begin a reserved name. -/
theorem not_reserved (i : Iface) (r u : Txt) (hr : r ≠ []) (he : r.getLast? = some '_') (h : reserved i r = false) :
    reserved i (r ++ u) = false := by
  have main : ∀ K : Txt, (∀ m < K.length, 0 < m → (K.take m).getLast? ≠ some '_') → startsWith K r = false →
      startsWith K (r ++ u) = false := by
    intro K hK hf
    cases hb : startsWith K (r ++ u) with
    | false => rfl
    | true =>
      have h1 := List.isPrefixOf_iff_prefix.1 hb
      rcases List.prefix_or_prefix_of_prefix h1 (List.prefix_append r u) with h2 | h2
      · have : startsWith K r = true := List.isPrefixOf_iff_prefix.2 h2
        rw [this] at hf; cases hf
      · by_cases hl : r.length < K.length
        · exfalso
          refine hK _ hl (List.length_pos_iff.2 hr) ?_
          rw [← List.prefix_iff_eq_take.1 h2]
          exact he
        · have hl' := h2.length_le
          have e := h2.eq_of_length (by omega)
          rw [e] at hf
          have : startsWith K K = true := List.isPrefixOf_iff_prefix.2 (List.prefix_refl _)
          rw [this] at hf; cases hf
  have exact' : ∀ K : Txt, (∀ m ≤ K.length, (K.take m).getLast? ≠ some '_') → (K == r ++ u) = false := by
    intro K hK
    cases hb : (K == r ++ u) with
    | false => rfl
    | true =>
      exfalso
      have e := eq_of_beq hb
      refine hK r.length (by rw [e, List.length_append]; omega) ?_
      rw [e, List.take_left]; exact he
  have k1 : ∀ K ∈ (["cpg_", "CPG_", "canon_", "Canon_", "scs_", "Scs_", "ecos_", "qoco_"].map String.toList),
      ∀ m < K.length, 0 < m → (K.take m).getLast? ≠ some '_' := by decide +kernel
  have k2 : ∀ K ∈ ["P", "A", "cones", "settings", "solver", "solution"], ∀ m ≤ K.toList.length,
      (K.toList.take m).getLast? ≠ some '_' := by decide +kernel
  unfold reserved at h ⊢
  simp only [Bool.or_eq_false_iff] at h ⊢
  obtain ⟨⟨⟨⟨a1, a2⟩, a3⟩, a4⟩, a5⟩ := h
  refine ⟨⟨⟨⟨main _ (k1 _ (by decide)) a1, main _ (k1 _ (by decide)) a2⟩, main _ (k1 _ (by decide)) a3⟩,
    main _ (k1 _ (by decide)) a4⟩, ?_⟩
  cases i <;> simp only at a5 ⊢
  case scs =>
    rw [Bool.or_eq_false_iff] at a5 ⊢
    exact ⟨main _ (k1 _ (by decide)) a5.1, main _ (k1 _ (by decide)) a5.2⟩
  case ecos => exact main _ (k1 _ (by decide)) a5
  case qoco => exact main _ (k1 _ (by decide)) a5
  case qocogen => exact main _ (k1 _ (by decide)) a5
  case clarabel =>
    rw [List.any_eq_false]
    intro K hK
    rw [exact' _ (k2 K hK)]
    exact Bool.false_ne_true

theorem norm_rest (p : Txt) (b r : Txt) (h : normPrefix p = b ++ r) (hr : r ≠ []) : r.getLast? = some '_' := by
  have : (normPrefix p).getLast? = some '_' := by
    cases p with
    | nil =>
      have h' : [] = b ++ r := h
      exact absurd (List.append_eq_nil_iff.1 h'.symm).2 hr
    | cons c t => unfold normPrefix; simp only; cases isAlpha c <;> exact List.getLast?_concat
  rw [h, List.getLast?_append_of_ne_nil _ hr] at this
  exact this

end Verif.Lemmas.SymbolsC
