import Verif.Lemmas.PyModule
import Verif.Props.Structs
/-!
C65: what the generated Python file uses is bound, what is bound exists, and every name in the generated code is a name.
-/
namespace Verif.Props
open Verif.Model.Text Verif.Model.Dispatch Verif.Model.Symbols Verif.Model.Structs Verif.Model.PyModule
open Verif.Spec.Dispatch Verif.Spec.PyModule Verif.Lemmas.PyModule

section
variable (I : In)

/-- C65: every attribute the Python file reads or writes is bound for the class of the object. -/
theorem C65_attributes (c : Cls) (a : Txt) (h : (c, a) ∈ pyUses I) : HasAttr (bound I c) a := by
  cases c <;> simp only [pyUses, infoFields, List.mem_append, List.mem_map, List.mem_flatMap, List.mem_cons, mem_ifl, List.not_mem_nil,
    or_false, false_or, and_false, false_and, Prod.mk.injEq, reduceCtorEq, exists_false, true_and, List.map_cons, List.map_nil] at h <;>
    simp only [bound, infoFields, hasAttr_ite, hasAttr_some, hasAttr_none, List.mem_map, List.mem_append, mem_ifl, List.mem_cons,
      List.not_mem_nil, List.map_append, List.map_cons, List.map_nil, List.map_map, apply_ite (List.map Prod.fst)] <;>
    grind

/-- C65: what is bound is a member of the struct, under its own name except for the three parts of a result. -/
theorem C65_bound (c : Cls) (l : List (Txt × Txt)) (h : bound I c = some l) (e : Txt × Txt) (he : e ∈ l) :
    HasMember (members I c) e.2 ∧
    (e.1 = e.2 ∨ c = .result ∧ e ∈ [(M.cpg_prim, F.prim), (M.cpg_dual, F.dual), (M.cpg_info, F.info)]) := by
  cases c <;> simp only [bound, infoFields] at h <;>
    simp only [members, infoFields, hasMember_ite, hasMember_some, hasMember_none, List.mem_map, List.mem_append, mem_ifl, List.mem_cons,
      List.not_mem_nil] <;> grind

/-- C65: members and structs that cpg_module.cpp mentions exist, objects that Python makes and receives are of bound classes. -/
theorem C65_members (c : Cls) (a : Txt) (h : (c, a) ∈ cppUses I) : HasMember (members I c) a := by
  cases c <;> simp only [cppUses, infoFields, List.mem_append, List.mem_map, List.mem_flatMap, List.mem_cons, mem_ifl, List.not_mem_nil,
    or_false, false_or, and_false, false_and, Prod.mk.injEq, reduceCtorEq, exists_false, true_and, List.map_cons, List.map_nil] at h <;>
    simp only [members, infoFields, hasMember_ite, hasMember_some, hasMember_none, List.mem_map, List.mem_append, mem_ifl, List.mem_cons,
      List.not_mem_nil] <;>
    grind

/-- C65: a struct that is mentioned or bound is written, and one that is used from Python or written is bound. -/
theorem C65_structs (c : Cls) (h : c ∈ cppNames I ∨ c ∈ pyNew I ∨ (bound I c).isSome = true ∨ (members I c).isSome = true) :
    (bound I c).isSome = true ∧ (members I c).isSome = true := by
  cases c <;> simp only [cppNames, pyNew, List.mem_append, List.mem_cons, mem_ifl, List.not_mem_nil, reduceCtorEq,
    or_false, false_or, and_false] at h <;>
    simp only [bound, members] at h ⊢ <;> grind

/-- What is asked of an input for the names at file scope: the prefix consists of letters, digits and underscores, dual variables
are named as in canonicalizer.py:160-224, names of settings and canonical parameters are those of the solvers. -/
structure Lexed (I : In) : Prop where
  pre : ∃ p, p.all isIdChar = true ∧ I.pre = normPrefix p
  duals : ∀ v ∈ I.duals, ∃ i, v.1 = 'd' :: Nat.toDigits 10 i
  canon : ∀ c ∈ I.canon, isWord c.id = true
  gcanon : ∀ c ∈ I.gcanon, isWord c.id = true
  settings : ∀ s ∈ I.settings, s.all isIdChar = true

theorem mem_words (t : Txt) : t ∈ words I ↔ (∃ s l, typedef I s = some l ∧ t ∈ l.map Prod.fst) ∨ (∃ c, HasMember (members I c) t) ∨
    ∃ c, (c, t) ∈ pyUses I := by
  simp only [words, List.mem_append, List.mem_flatMap, List.mem_map, or_assoc, Prod.exists]
  refine or_congr ⟨?_, ?_⟩ (or_congr ⟨?_, ?_⟩ ⟨?_, ?_⟩)
  · rintro ⟨s, -, f, ty, h, rfl⟩
    cases e : typedef I s with
    | none => rw [e] at h; simp at h
    | some l => rw [e] at h; exact ⟨s, l, e, _, _, h, rfl⟩
  · rintro ⟨s, l, e, f, ty, h, rfl⟩
    exact ⟨s, by cases s <;> simp, f, ty, by rw [e]; exact h, rfl⟩
  · rintro ⟨c, -, h⟩
    cases e : members I c with
    | none => rw [e] at h; simp at h
    | some l => rw [e] at h; exact ⟨c, l, e, h⟩
  · rintro ⟨c, l, e, h⟩
    exact ⟨c, by cases c <;> simp, by rw [e]; exact h⟩
  · rintro ⟨c, f, h, rfl⟩
    exact ⟨c, h⟩
  · rintro ⟨c, h⟩
    exact ⟨c, t, h, rfl⟩

theorem words_of (h : Lexed I) (hv : ∀ v ∈ I.vars, isWord v.name = true) (hp : ∀ q ∈ I.params, isWord q.1 = true) :
    ∀ t ∈ words I, isWord t = true := by
  have hd : ∀ v ∈ I.duals, isWord v.1 = true := by
    intro v hv
    obtain ⟨i, e⟩ := h.duals v hv
    rw [e]
    exact wordNumber (.inl rfl) i
  have hc := h.canon
  intro t ht
  rw [mem_words] at ht
  rcases ht with ⟨s, l, e, ht⟩ | ⟨c, ht⟩ | ⟨c, ht⟩
  · cases s <;> simp only [typedef, Option.some.injEq] at e <;>
      simp only [List.mem_map] at ht <;> obtain ⟨x, hx, rfl⟩ := ht
    · subst e
      obtain ⟨c, hc', rfl⟩ := List.mem_map.1 hx
      exact hc c (List.mem_filter.1 hc').1
    · subst e
      obtain ⟨c, hc', rfl⟩ := List.mem_map.1 hx
      exact hc c (List.mem_filter.1 hc').1
    · subst e
      obtain ⟨v, hv', rfl⟩ := List.mem_map.1 hx
      exact hv v hv'
    · split at e
      · cases e
      · cases e
        obtain ⟨v, hv', rfl⟩ := List.mem_map.1 hx
        exact hd v hv'
    · split at e
      · cases e
        simp only [List.mem_cons, List.not_mem_nil, or_false] at hx
        rcases hx with rfl | rfl | rfl | rfl | rfl
        exacts [word_F_obj_val, word_F_iter, word_F_status, word_F_pri_res, word_F_dua_res]
      · cases e
    · subst e
      simp only [List.mem_append, mem_ifl, List.mem_cons, List.not_mem_nil, or_false, and_false] at hx
      rcases hx with (rfl | ⟨_, rfl⟩) | ⟨_, rfl⟩
      exacts [word_F_prim, word_F_dual, word_F_info]
    · subst e
      obtain ⟨v, hv', rfl⟩ := List.mem_map.1 hx
      exact hp v hv'
  · cases c <;> simp only [members, infoFields, hasMember_ite, hasMember_some, hasMember_none, List.mem_map, List.mem_append, mem_ifl,
      List.mem_cons, List.not_mem_nil] at ht <;>
    grind [word_F_obj_val, word_F_iter, word_F_status, word_F_pri_res, word_F_dua_res, word_F_prim, word_F_dual, word_F_info,
      word_M_primal, word_M_time, word_M_region, word_M_gradient_primal, word_M_gradient_dual]
  · cases c <;> simp only [pyUses, infoFields, List.mem_append, List.mem_map, List.mem_flatMap, List.mem_cons, mem_ifl, List.not_mem_nil,
    or_false, false_or, and_false, false_and, Prod.mk.injEq, reduceCtorEq, exists_false, true_and, List.map_cons, List.map_nil] at ht <;>
    grind [word_F_obj_val, word_F_iter, word_F_status, word_F_pri_res, word_F_dua_res, word_F_dual, word_M_primal, word_M_time,
      word_M_region, word_M_gradient_primal, word_M_gradient_dual, word_M_cpg_prim, word_M_cpg_dual, word_M_cpg_info]

/-- All names of a file are words. -/
def WordFile (f : CFile) : Prop :=
  (∀ t ∈ f.headers, isWord t = true) ∧ (∀ t ∈ f.statics, isWord t = true) ∧
    ∀ it ∈ f.items, isWord it.name = true ∧ ∀ u ∈ it.uses, isWord u = true

/-- `Lexed` with the conditions on names, as used by the lemmas. -/
structure LexedAll (I : In) : Prop where
  pre : PreOK I.pre
  gpre : PreOK (gpre I)
  res : PreOK (resultPre I)
  gradPre : PreOK (gradPre I)
  resg : PreOK (resultPre I ++ Verif.Model.Symbols.gpre I)
  vars : ∀ v ∈ I.vars, v.name.all isIdChar = true
  params : ∀ n k, (n, k) ∈ I.params → n.all isIdChar = true
  duals : ∀ n k, (n, k) ∈ I.duals → n.all isIdChar = true
  canon : ∀ c ∈ I.canon, c.id.all isIdChar = true
  gcanon : ∀ c ∈ I.gcanon, c.id.all isIdChar = true
  settings : ∀ s ∈ I.settings, s.all isIdChar = true
  own : ∀ v ∈ I.vars, ownArray I v = true → isWord (I.pre ++ v.name) = true
  ownD : ∀ n k, (n, k) ∈ I.duals → isWord (I.pre ++ n) = true

local macro "fin" : tactic => `(tactic| ((repeat' apply And.intro) <;> intros <;> subst_vars <;> first
  | assumption
  | solve_by_elim
  | (simp [*]; done)
  | exact word3 (by assumption) (by simp) (by solve_by_elim)
  | (split <;> solve_by_elim)
  | (rename_i a; cases a; done)
  | exact word1' (by simp) (by simp [*])
  | (rename_i a; revert a; simp +contextual [or_imp, *]; done)
  | skip))

section
variable {I}
variable (h : LexedAll I)
include h

theorem word_solverDecls : ∀ t ∈ solverDecls I, isWord t = true := by
  unfold solverDecls
  cases I.iface <;> simp [h.pre, or_imp, forall_and]

theorem word_solverItems : ∀ it ∈ solverItems I, isWord it.name = true ∧ ∀ u ∈ it.uses, isWord u = true := by
  unfold solverItems
  cases I.iface <;> simp [h.pre, or_imp, forall_and]

omit h in
theorem word_canonDecls {p q : Txt} (hp : PreOK p) (hq : PreOK q) {l : List CanonP} (hl : ∀ c ∈ l, c.id.all isIdChar = true)
    (cond : Bool) : ∀ t ∈ canonDecls p q cond l, isWord t = true := by
  unfold canonDecls keys
  simp [or_imp, forall_and]
  fin

theorem word_wsDecls : ∀ t ∈ wsDecls I, isWord t = true := by
  have hl : ∀ t ∈ libDecls I, isWord t = true := by
    unfold libDecls
    cases I.iface <;> simp [or_imp, forall_and]
  have h1 := word_canonDecls h.pre h.pre h.canon (precond I.iface)
  have h2 := word_solverDecls h
  obtain ⟨hpre, -, -, -, -, hv, hp, hd, hc, -, -, ho, hod⟩ := h
  simp [wsDecls, or_imp, forall_and, *]
  fin

theorem word_solveDecls : ∀ t ∈ solveDecls I, isWord t = true := by
  obtain ⟨hpre, -, -, -, -, hv, hp, hd, hc, -, hs, -, -⟩ := h
  simp [solveDecls, or_imp, forall_and, *]
  fin

theorem word_gradDecls : ∀ t ∈ gradDecls I, isWord t = true := by
  obtain ⟨hpre, hg, -, -, -, hv, -, -, -, -, -, -, -⟩ := h
  simp [gradDecls, or_imp, forall_and, *]
  fin

theorem word_gwsDecls : ∀ t ∈ gwsDecls I, isWord t = true := by
  have h1 := word_canonDecls h.gpre h.pre h.gcanon false
  obtain ⟨hpre, hg, -, -, -, hv, -, -, -, -, -, -, -⟩ := h
  simp [gwsDecls, or_imp, forall_and, *]
  fin

omit h in
theorem word_computeDecls : ∀ t ∈ computeDecls, isWord t = true := by
  simp [computeDecls]

theorem word_gradWsDecls : ∀ t ∈ gradWsDecls I, isWord t = true := by
  simp [gradWsDecls, h.pre]

/-- All names of a list of definitions are words. -/
def WordItems (l : List Item) : Prop := ∀ it ∈ l, isWord it.name = true ∧ ∀ u ∈ it.uses, isWord u = true

omit h in
theorem wordItems_append {a b : List Item} (ha : WordItems a) (hb : WordItems b) : WordItems (a ++ b) := fun it hi =>
  (List.mem_append.1 hi).elim (ha it) (hb it)
omit h in
theorem wordItems_ite {p : Prop} [Decidable p] {a b : List Item} (ha : WordItems a) (hb : WordItems b) :
    WordItems (if p then a else b) := by split <;> assumption
omit h in
theorem wordItems_nil : WordItems [] := fun it hi => by cases hi
omit h in
theorem wordItems_map {α : Type} {l : List α} {f : α → Item} (ha : ∀ x ∈ l, isWord (f x).name = true ∧ ∀ u ∈ (f x).uses, isWord u = true) :
    WordItems (l.map f) := fun it hi => by
  obtain ⟨x, hx, rfl⟩ := List.mem_map.1 hi
  exact ha x hx
omit h in
theorem wordItems_flatMap {α : Type} {l : List α} {f : α → List Item} (ha : ∀ x ∈ l, WordItems (f x)) :
    WordItems (l.flatMap f) := fun it hi => by
  obtain ⟨x, hx, hi⟩ := List.mem_flatMap.1 hi
  exact ha x hx it hi
omit h in
theorem wordItems_mat {p b c : Txt} (hp : PreOK p) (hb : solid b = true) (hc : c.all isIdChar = true) :
    WordItems (matItems (p ++ (b ++ c))) := by
  simp [WordItems, matItems, hp, hb, hc]
omit h in
theorem wordItems_param {p s : Txt} (hp : PreOK p) (hs : s.all isIdChar = true) {c : CanonP} (hc : c.id.all isIdChar = true) :
    WordItems (paramItems p s c) := by
  unfold paramItems
  refine wordItems_ite wordItems_nil (wordItems_ite ?_ ?_)
  · rw [List.append_assoc, List.append_assoc]
    exact wordItems_mat hp solid_canon_ (by simp [hc, hs])
  · simp [WordItems, hp, hc, hs]
omit h in
theorem wordItems_canon {p : Txt} (hp : PreOK p) {l k : List CanonP} (hl : ∀ c ∈ l, c.id.all isIdChar = true)
    (hk : ∀ c ∈ k, c.id.all isIdChar = true) (cond : Bool) : WordItems (canonItems p cond l k) := by
  unfold canonItems
  refine wordItems_append (wordItems_flatMap fun c hc => ?_) (wordItems_flatMap fun c hc => wordItems_append ?_ (wordItems_ite ?_ wordItems_nil))
  · have := hl c (List.mem_filter.1 hc).1
    rw [List.append_assoc, List.append_assoc]
    exact wordItems_mat hp solid_canon_ (by simp [this])
  · exact wordItems_param hp rfl (hk c (List.mem_filter.1 hc).1)
  · exact wordItems_param hp chars_conditioning (hk c (List.mem_filter.1 hc).1)
omit h in
theorem word_structUses {p s : Txt} (hp : PreOK p) (hs : s.all isIdChar = true) {l : List CanonP} (hl : ∀ c ∈ l, c.id.all isIdChar = true) :
    ∀ t ∈ structUses p s l, isWord t = true := by
  unfold structUses
  simp
  fin

theorem pIds_chars : ∀ c ∈ pIds I, c.id.all isIdChar = true := fun c hc =>
  h.canon c (List.mem_filter.1 (List.mem_filter.1 hc).1).1

theorem word_ptrs : isWord (primPtr I) = true ∧ isWord (dualPtr I) = true := by
  have h1 : solid (primObj I.iface) = true := by unfold primObj; cases I.iface <;> simp
  have h2 : solid (dualObj I.iface) = true := by unfold dualObj; cases I.iface <;> simp
  constructor
  · unfold primPtr
    split
    · rw [← List.append_assoc]; exact word2 h.resg solid_sol_x
    · exact word2 h.res h1
  · unfold dualPtr
    split
    · rw [← List.append_assoc]; exact word2 h.resg solid_sol_y
    · exact word2 h.res h2

local macro "items" : tactic => `(tactic| repeat' first
  | assumption
  | with_reducible apply wordItems_append
  | with_reducible apply wordItems_ite
  | with_reducible exact wordItems_nil)

theorem wordItems_ws : WordItems (wsItems I) := by
  have h1 := wordItems_canon h.pre h.canon (pIds_chars h) (precond I.iface)
  have h2 : WordItems (solverItems I) := word_solverItems h
  have h3 := word_structUses (s := []) h.pre rfl (pIds_chars h)
  have h4 := word_structUses h.pre chars_conditioning (pIds_chars h)
  obtain ⟨h5, h6⟩ := word_ptrs h
  obtain ⟨hpre, -, -, -, -, hv, hp, hd, hc, -, -, ho, hod⟩ := h
  unfold wsItems
  dsimp only
  items
  all_goals simp [WordItems, or_imp, forall_and]
  all_goals fin

theorem word_solverUses : ∀ t ∈ solverUses I, isWord t = true := by
  obtain ⟨hpre, -, -, -, -, -, -, -, hc, -, -, -, -⟩ := h
  unfold solverUses
  cases I.iface <;> simp [or_imp, forall_and, hpre] <;> fin

theorem word_stgs : (∀ t ∈ resetUses I, isWord t = true) ∧ isWord (setUses I) = true ∧ isWord (I.pre ++ primObjStgs I.iface) = true := by
  unfold resetUses setUses primObjStgs
  cases I.iface <;> simp [h.pre]

theorem word_objs : isWord (resultPre I ++ primObj I.iface) = true ∧ isWord (resultPre I ++ dualObj I.iface) = true ∧
    ∀ o ∈ infoObjs I.iface, isWord (resultPre I ++ o) = true := by
  have hr := h.res
  unfold primObj dualObj infoObjs
  cases I.iface <;> simp [hr]

theorem wordItems_solve : WordItems (solveItems I) := by
  have h1 := word_solverUses h
  obtain ⟨h2, h3, h4⟩ := word_stgs h
  obtain ⟨h5, h6, h7⟩ := word_objs h
  obtain ⟨hpre, hg, -, -, -, hv, hp, hd, hc, -, hs, -, -⟩ := h
  unfold solveItems
  dsimp only
  items
  all_goals simp [WordItems, or_imp, forall_and, keys, canonicalizeUses, hpre, hg]
  all_goals fin

theorem wordItems_grad : WordItems (gradItems I) := by
  obtain ⟨h5, h6, h7⟩ := word_objs h
  have hgc : ∀ c ∈ gradCanon I, c.id.all isIdChar = true := by
    unfold gradCanon
    split
    · exact h.gcanon
    · exact h.canon
  obtain ⟨hpre, hg, -, hgp, -, hv, hp, hd, hc, hgcan, hs, -, -⟩ := h
  unfold gradItems
  dsimp only
  items
  all_goals simp [WordItems, or_imp, forall_and, canonicalizeUses, hpre, hgp]
  all_goals fin

theorem wordItems_gradExplicit : WordItems (gradItemsExplicit I) := by
  obtain ⟨hpre, hg, -, hgp, -, hv, hp, hd, hc, hgcan, hs, -, -⟩ := h
  unfold gradItemsExplicit
  dsimp only
  items
  all_goals simp [WordItems, or_imp, forall_and, hpre]
  all_goals fin

omit h in
theorem chars_gradWs : ∀ w ∈ gradWsNames, w.1.all isIdChar = true := by decide +kernel

theorem wordItems_gradWs : WordItems (gradWsItems I) := by
  have hw := chars_gradWs
  unfold gradWsItems
  refine wordItems_append (wordItems_flatMap fun w hm => wordItems_ite ?_ ?_) ?_
  · rw [List.append_assoc]
    exact wordItems_mat h.pre solid_cpg_osqp_grad_ (hw w hm)
  · simp [WordItems, h.pre, hw w hm]
  · intro it hi
    rw [List.mem_singleton] at hi
    subst hi
    refine ⟨word2 h.pre solid_CPG_OSQP_Grad, fun u hu => ?_⟩
    obtain ⟨w, hm, rfl⟩ := List.mem_map.1 hu
    rw [List.append_assoc]
    exact word3 h.pre solid_cpg_osqp_grad_ (hw w hm)

theorem wordItems_compute : WordItems (computeItems I) := by
  have h1 : isWord (gradSolX I) = true := by
    unfold gradSolX; split <;> simp [h.pre]
  have h2 : isWord (gradSolY I) = true := by
    unfold gradSolY; split <;> simp [h.pre]
  simp [WordItems, computeItems, h.pre, h1, h2]

theorem wordItems_gws : WordItems (gwsItems I) := by
  have hk : ∀ c ∈ keys I.gcanon, c.id.all isIdChar = true := fun c hc => h.gcanon c (List.mem_filter.1 hc).1
  have h1 := wordItems_canon h.gpre h.gcanon hk false
  have h3 := word_structUses (s := []) h.gpre rfl hk
  have hg := h.gpre
  unfold gwsItems
  items
  all_goals simp [WordItems, hg]
  all_goals fin

theorem wordItems_module : WordItems (moduleItems I) := by
  obtain ⟨hpre, hg, -, hgp, -, hv, hp, hd, hc, hgcan, hs, -, -⟩ := h
  unfold moduleItems
  dsimp only
  items
  all_goals simp [WordItems, or_imp, forall_and, hpre]
  all_goals fin

theorem wordFiles : ∀ f ∈ libFiles I ++ [moduleFile I], WordFile f := by
  have d1 := word_wsDecls h
  have d2 := word_solveDecls h
  have d3 := word_gradDecls h
  have d4 := word_gwsDecls h
  have d5 := word_computeDecls
  have d6 := word_gradWsDecls h
  have i1 := wordItems_ws h
  have i2 := wordItems_solve h
  have i3 := wordItems_grad h
  have i4 := wordItems_gradExplicit h
  have i5 := wordItems_gradWs h
  have i6 := wordItems_compute h
  have i7 := wordItems_gws h
  have i8 := wordItems_module h
  clear h
  have app : ∀ {a b : List Txt}, (∀ t ∈ a, isWord t = true) → (∀ t ∈ b, isWord t = true) → ∀ t ∈ a ++ b, isWord t = true :=
    fun ha hb t ht => (List.mem_append.1 ht).elim (ha t) (hb t)
  have ite : ∀ {p : Prop} [Decidable p] {a b : List Txt}, (∀ t ∈ a, isWord t = true) → (∀ t ∈ b, isWord t = true) →
      ∀ t ∈ (if p then a else b), isWord t = true := by
    intro p _ a b ha hb
    split <;> assumption
  have nil : ∀ t ∈ ([] : List Txt), isWord t = true := fun t ht => by cases ht
  have f1 : WordFile (wsFile I) := ⟨app d1 (ite (app d3 d4) nil), nil, i1⟩
  have f2 : WordFile (solveFile I) := ⟨app (app d1 d2) (ite (app d3 d4) nil), app (by simp) (ite nil (by simp)), i2⟩
  have f3 : WordFile (gradFile I) := by
    unfold gradFile
    split
    · exact ⟨app (app (app (app d1 d3) (ite d4 nil)) d6) d5, by simp, i3⟩
    · exact ⟨app d1 d3, by simp, i4⟩
  have f4 : WordFile (computeFile I) := ⟨app (app d1 d6) (ite d3 nil), nil, i6⟩
  have f5 : WordFile (gradWsFile I) := ⟨app d1 d6, nil, i5⟩
  have f6 : WordFile (gwsFile I) := ⟨app (app d1 d4) d3, nil, i7⟩
  have f7 : WordFile (moduleFile I) := ⟨app (app (app d1 d2) (ite (app d3 (ite (app d6 d5) nil)) nil)) (ite d4 nil), fun t ht => List.mem_singleton.1 ht ▸ word_i, i8⟩
  intro f hf
  simp only [libFiles, List.mem_append, List.mem_cons, List.not_mem_nil, or_false, mem_ifl, and_false] at hf
  rcases hf with ((rfl | rfl) | ⟨_, rfl | ⟨_, (rfl | rfl) | ⟨_, rfl⟩⟩⟩) | rfl
  exacts [f1, f2, f3, f4, f5, f6, f7]
end

/-- C65: the generated files consist of names that C, C++ and Python accept, both at file scope and as fields, members and
attributes, if and only if the names of variables and parameters are such names and remain so behind the prefix for every
variable that has an array of its own. -/
theorem C65_partial (h : Lexed I) : (∀ t ∈ words I ++ names I, isWord t = true) ↔
    (∀ v ∈ I.vars, isWord v.name = true) ∧ (∀ q ∈ I.params, isWord q.1 = true) ∧
    ∀ v ∈ I.vars, ownArray I v = true → isWord (I.pre ++ v.name) = true := by
  constructor
  · intro hw
    refine ⟨fun v hv => ?_, fun q hq => ?_, fun v hv ho => ?_⟩
    · exact hw _ (List.mem_append_left _ ((mem_words I _).2 (.inr (.inl ⟨.prim, _, rfl, List.mem_map.2 ⟨v, hv, rfl⟩⟩))))
    · exact hw _ (List.mem_append_left _ ((mem_words I _).2 (.inr (.inl ⟨.params, _, rfl, List.mem_map.2 ⟨q, hq, rfl⟩⟩))))
    · refine hw _ (List.mem_append_right _ (List.mem_flatMap.2 ⟨wsFile I, by simp [libFiles], List.mem_append_right _
        (List.mem_flatMap.2 ⟨⟨I.pre ++ v.name, []⟩, ?_, List.mem_cons_self⟩)⟩))
      have : (⟨I.pre ++ v.name, []⟩ : Item) ∈ (I.vars.filter fun v => ownArray I v).map fun v => (⟨I.pre ++ v.name, []⟩ : Item) :=
        List.mem_map.2 ⟨v, List.mem_filter.2 ⟨hv, ho⟩, rfl⟩
      simp only [wsFile, wsItems, List.mem_append]
      tauto
  · rintro ⟨hv, hp, ho⟩ t ht
    rcases List.mem_append.1 ht with ht | ht
    · exact words_of I h hv hp t ht
    · obtain ⟨p, hpc, hpe⟩ := h.pre
      have hpre : PreOK I.pre := hpe ▸ preOK_normPrefix hpc
      have hg : PreOK (gpre I) := preOK_append (.inr (by decide)) hpre
      have hr : PreOK (resultPre I) := by
        unfold resultPre
        split
        · exact .inl rfl
        · exact hpre
      have hgp : PreOK (gradPre I) := by
        unfold gradPre
        split
        · exact hg
        · exact hpre
      have hd : ∀ n k, (n, k) ∈ I.duals → ∀ a, PreOK a → isWord (a ++ n) = true := by
        intro n k hn a ha
        obtain ⟨i, e⟩ := h.duals _ hn
        simp only at e
        rw [e]
        exact wordNumber ha i
      have all : LexedAll I := ⟨hpre, hg, hr, hgp, preOK_append hr hg, fun v hm => chars_of_word (hv v hm),
        fun n k hm => chars_of_word (hp _ hm), fun n k hm => chars_of_word (hd n k hm [] (.inl rfl)),
        fun c hm => chars_of_word (h.canon c hm), fun c hm => chars_of_word (h.gcanon c hm), h.settings, ho,
        fun n k hm => hd n k hm _ hpre⟩
      obtain ⟨f, hf, ht⟩ := List.mem_flatMap.1 ht
      obtain ⟨h1, h2, h3⟩ := wordFiles all f hf
      rcases List.mem_append.1 ht with ht | ht
      · rcases List.mem_append.1 ht with ht | ht
        · exact h1 t ht
        · exact h2 t ht
      · obtain ⟨it, hi, ht⟩ := List.mem_flatMap.1 ht
        rcases List.mem_cons.1 ht with rfl | ht
        · exact (h3 it hi).1
        · exact (h3 it hi).2 t ht

end

/-- The full claim: whatever the names in the CVXPY problem, the generated files consist of names. -/
def C65Claim : Prop := ∀ I : In, Lexed I → ∀ t ∈ words I ++ names I, isWord t = true

/-! ### samples -/

theorem exStruct_lexed (p : String) (hp : p.toList.all isIdChar = true) (vs : List (String × Nat)) :
    Lexed { exStruct "" vs with pre := normPrefix p.toList } where
  pre := ⟨p.toList, hp, rfl⟩
  duals v hv := ⟨0, by
    simp only [exStruct, List.mem_singleton] at hv
    subst hv
    decide⟩
  canon c hc := by
    simp only [exStruct, List.mem_cons, List.not_mem_nil, or_false] at hc
    rcases hc with rfl | rfl | rfl | rfl | rfl <;> decide +kernel
  gcanon c hc := by cases hc
  settings c hc := by cases hc

/-- A parameter named `lambda`, as is usual for a weight, with the C name of CVXPY unchanged. -/
def exLambda : In :=
  { exStruct "" [("x", 2)] with
    params := [("lambda".toList, 1)] }

theorem exLambda_lexed : Lexed exLambda :=
  { exStruct_lexed "" rfl [("x", 2)] with }

theorem C65_fails : ¬ C65Claim := fun h => by
  have := ((C65_partial exLambda exLambda_lexed).1 (h exLambda exLambda_lexed)).2.1 ("lambda".toList, 1) (List.mem_singleton.2 rfl)
  revert this
  decide +kernel

/-- All names are words, but an array of its own makes one of them a keyword: prefix `static`, variable `cast`, ECOS. -/
theorem C65_fails_prefix :
    let I := { exStruct "" [("cast", 2)] with pre := normPrefix "static".toList, iface := .ecos }
    Lexed I ∧ (∀ v ∈ I.vars, isWord v.name = true) ∧ (∀ q ∈ I.params, isWord q.1 = true) ∧
      ¬ ∀ t ∈ words I ++ names I, isWord t = true := by
  have hl : Lexed { exStruct "" [("cast", 2)] with pre := normPrefix "static".toList, iface := .ecos } :=
    { exStruct_lexed "static" (by decide) [("cast", 2)] with }
  refine ⟨hl, by decide +kernel, by decide +kernel, fun h => ?_⟩
  have := ((C65_partial _ hl).1 h).2.2 ⟨"cast".toList, 2, false⟩ (List.mem_singleton.2 rfl) (by decide)
  revert this
  decide +kernel

/-- The hypotheses and both sides of `C65_partial` are met, and there is something to name. -/
example : let I := { exStruct "" [("x", 2), ("t", 1)] with pre := normPrefix "my".toList }
    (∀ t ∈ words I ++ names I, isWord t = true) ∧ 100 < (names I).length ∧ 10 < (words I).length :=
  ⟨(C65_partial _ (exStruct_lexed "my" (by decide) _)).2 ⟨by decide +kernel, by decide +kernel, by decide +kernel⟩,
    by decide +kernel, by decide +kernel⟩

/-- Uses of attributes exist in every mode. -/
example : (Cls.gsol, M.primal) ∈ pyUses { exStruct "" [("x", 2)] with gradient := true } ∧
    (Cls.info, M.region) ∈ pyUses { exStructExplicit with gradient := true } ∧
    (Cls.dual, "d0".toList) ∈ pyUses (exStruct "" [("x", 2)]) ∧ (Cls.dual, "d0".toList) ∉ pyUses exStructExplicit := by
  decide +kernel

end Verif.Props
