import Verif.Lemmas.Symbols
/-!
C54: names in generated code are declared before they are used and are defined.
-/
namespace Verif.Props
open Verif.Model.Text Verif.Model.Dispatch Verif.Model.Symbols Verif.Spec.Symbols Verif.Lemmas.Symbols

/-- The functions that the headers of the library declare. -/
def libProtos (I : In) : List Txt :=
  solveDecls I ++ (if I.gradient then gradDecls I ++ (if I.explicit = 0 then computeDecls else []) else [])

theorem real_file (I : In) (files : List CFile) (hw : wsFile I ∈ files) (u : Txt) (h : u ∈ wsReal I) :
    (∃ g ∈ files, u ∈ g.items.map Item.name) ∨ u ∈ libDecls I := by
  rcases wsReal_def I u h with h | h
  · exact Or.inl ⟨_, hw, h⟩
  · exact Or.inr h

theorem lib_ws (I : In) : wsFile I ∈ libFiles I := by simp [libFiles]
theorem lib_solve (I : In) : solveFile I ∈ libFiles I := by simp [libFiles]
theorem lib_grad (I : In) (hg : I.gradient = true) : gradFile I ∈ libFiles I := by simp [libFiles, hg]
theorem lib_compute (I : In) (hg : I.gradient = true) (h0 : I.explicit = 0) :
    computeFile I ∈ libFiles I ∧ gradWsFile I ∈ libFiles I := by simp [libFiles, hg, h0]

theorem protos_def (I : In) (hI : Coherent I) : Defined (libFiles I) (libProtos I) := by
  intro d hd
  unfold libProtos at hd
  rcases List.mem_append.1 hd with hd | hd
  · exact ⟨_, lib_solve I, solveDecls_def I d hd⟩
  · by_cases hg : I.gradient = true
    · rw [if_pos hg] at hd
      rcases List.mem_append.1 hd with hd | hd
      · refine ⟨_, lib_grad I hg, ?_⟩
        unfold gradFile
        by_cases h0 : I.explicit = 0
        · rw [if_pos h0]; exact gradDecls_def I hI.one h0 d hd
        · rw [if_neg h0]; exact gradDecls_defExplicit I hI.one d hd
      · by_cases h0 : I.explicit = 0
        · rw [if_pos h0] at hd
          exact ⟨_, (lib_compute I hg h0).1, computeDecls_def I d hd⟩
        · rw [if_neg h0] at hd; cases hd
    · rw [if_neg hg] at hd; cases hd

/-- Each file of the library, with the names it may use. -/
theorem lib_closed (I : In) (hI : Coherent I) (f : CFile) (hf : f ∈ libFiles I) :
    ∃ e, Closed e f.items ∧ (∀ x ∈ e, x ∈ f.headers ∨ x ∈ f.statics) ∧
      ∀ x ∈ e, x ∈ f.statics ∨ (∃ g ∈ libFiles I, x ∈ g.items.map Item.name) ∨ x ∈ libDecls I := by
  have h2 := hI.one
  have real : ∀ u ∈ wsReal I, (∃ g ∈ libFiles I, u ∈ g.items.map Item.name) ∨ u ∈ libDecls I :=
    real_file I _ (lib_ws I)
  have hf' := hf
  unfold libFiles at hf'
  rw [h2] at hf'
  simp only [Bool.false_eq_true, if_false, List.append_nil, List.mem_append, List.mem_cons, List.not_mem_nil, or_false] at hf'
  rcases hf' with (rfl | rfl) | hf'
  · refine ⟨wsReal I, ws_closed I hI, fun x hx => Or.inl ?_, fun x hx => Or.inr (real x hx)⟩
    exact List.mem_append_left _ (wsReal_decl I x hx)
  · refine ⟨solveEnv I, solve_closed I hI, fun x hx => ?_, fun x hx => ?_⟩
    · unfold solveEnv at hx
      simp only [List.append_assoc, List.mem_append] at hx
      rcases hx with hx | hx | hx | hx
      · exact Or.inl (List.mem_append_left _ (List.mem_append_left _ (wsReal_decl I x hx)))
      · exact Or.inl (List.mem_append_left _ (List.mem_append_right _ hx))
      · exact Or.inr (List.mem_append_left _ hx)
      · exact Or.inr (List.mem_append_right _ hx)
    · unfold solveEnv at hx
      simp only [List.append_assoc, List.mem_append] at hx
      rcases hx with hx | hx | hx | hx
      · exact Or.inr (real x hx)
      · exact Or.inr (Or.inl ⟨_, lib_solve I, solveDecls_def I x hx⟩)
      · exact Or.inl (List.mem_append_left _ hx)
      · exact Or.inl (List.mem_append_right _ hx)
  · by_cases hg : I.gradient = true
    · rw [if_pos hg] at hf'
      by_cases h0 : I.explicit = 0
      · rw [if_pos h0] at hf'
        simp only [List.mem_append, List.mem_cons, List.not_mem_nil, or_false] at hf'
        have lc := lib_compute I hg h0
        rcases hf' with rfl | rfl | rfl
        · unfold gradFile
          rw [if_pos h0]
          refine ⟨gradEnv I, grad_closed I hI hg, fun x hx => Or.inl ?_, fun x hx => Or.inr ?_⟩
          · unfold gradEnv at hx
            simp only [List.mem_append] at hx ⊢
            rcases hx with (hx | hx) | hx
            · simp only [wsReal_decl I x hx, true_or]
            · simp only [hx, true_or, or_true]
            · simp only [hx, or_true]
          · unfold gradEnv at hx
            simp only [List.mem_append] at hx
            rcases hx with (hx | hx) | hx
            · exact real x hx
            · exact Or.inl ⟨_, lc.2, gradWsDecls_def I x hx⟩
            · exact Or.inl ⟨_, lc.1, computeDecls_def I x hx⟩
        · have hi := osqp_of_grad I hI hg h0
          have hl : ∀ x ∈ [S.sol_x, S.sol_y], x ∈ libDecls I := by
            intro x hx
            simp only [libDecls, hi]
            exact List.mem_cons_of_mem _ hx
          have he : ∀ x ∈ computeEnv I, x ∈ gradWsDecls I ∨ x ∈ libDecls I := by
            intro x hx
            rcases List.mem_cons.1 hx with h | h
            · exact Or.inl (List.mem_singleton.2 h)
            · exact Or.inr (hl x h)
          refine ⟨computeEnv I, compute_closed I h2, fun x hx => Or.inl ?_, fun x hx => Or.inr ?_⟩
          · unfold computeFile
            simp only [List.mem_append]
            rcases he x hx with h | h
            · simp only [h, true_or, or_true]
            · simp only [wsReal_decl I x (real_lib I x h), true_or]
          · rcases he x hx with h | h
            · exact Or.inl ⟨_, lc.2, gradWsDecls_def I x h⟩
            · exact Or.inr h
        · exact ⟨[], gradWs_closed I, by simp, by simp⟩
      · rw [if_neg h0] at hf'
        simp only [List.append_nil, List.mem_singleton] at hf'
        subst hf'
        unfold gradFile
        rw [if_neg h0]
        refine ⟨gradEnvExplicit I, gradExplicit_closed I hI hg h0, fun x hx => ?_, fun x hx => ?_⟩
        · rcases List.mem_append.1 hx with hx | hx
          · exact Or.inl (List.mem_append_left _ (wsReal_decl I x hx))
          · exact Or.inr (List.mem_cons_of_mem _ (List.mem_cons_of_mem _ (List.mem_cons_of_mem _ hx)))
        · rcases List.mem_append.1 hx with hx | hx
          · exact Or.inr (real x hx)
          · exact Or.inl (List.mem_cons_of_mem _ (List.mem_cons_of_mem _ (List.mem_cons_of_mem _ hx)))
    · rw [if_neg hg] at hf'; cases hf'

/-- What the Python module and the example program may use is defined in the library. -/
theorem moduleEnv_def (I : In) (hI : Coherent I) (x : Txt) (hx : x ∈ moduleEnv I) :
    (∃ g ∈ libFiles I, x ∈ g.items.map Item.name) ∨ x ∈ libDecls I := by
  unfold moduleEnv at hx
  simp only [List.mem_append] at hx
  rcases hx with (hx | hx) | hx
  · exact real_file I _ (lib_ws I) x hx
  · exact Or.inl ⟨_, lib_solve I, solveDecls_def I x hx⟩
  · by_cases hg : I.gradient = true
    · rw [if_pos hg] at hx
      refine Or.inl (protos_def I hI x ?_)
      unfold libProtos
      rw [if_pos hg]
      exact List.mem_append_right _ (List.mem_append_left _ hx)
    · rw [if_neg hg] at hx; cases hx

/-- C54 for one stage, with the solver named as documented: in every file of the library and in the Python module,
names are declared before they are used; all names that are used are defined; all functions that the headers declare
are defined. Two stages are excluded (`C54_fails_two_stage`), as is PDAQP without explicit mode (`C54_fails_pdaqp`). -/
theorem C54_partial (I : In) (hI : Coherent I) (files : List CFile) (h : writeFiles I = .ok files) :
    (∀ f ∈ files ++ [moduleFile I], InScope f) ∧ Linked (files ++ [moduleFile I]) (extDefs I) ∧
      Defined files (libProtos I) := by
  have hfiles : files = libFiles I := by
    unfold writeFiles at h
    split at h
    · cases h
    · injection h with h; exact h.symm
  subst hfiles
  refine ⟨?_, ?_, protos_def I hI⟩
  · intro f hf
    rcases List.mem_append.1 hf with hf | hf
    · obtain ⟨e, hc, hh, _⟩ := lib_closed I hI f hf
      exact inScope_of_closed f e hh hc
    · rw [List.mem_singleton.1 hf]
      refine inScope_of_closed _ _ (fun x hx => Or.inl ?_) (module_closed I hI)
      unfold moduleEnv at hx
      unfold moduleFile
      simp only [List.mem_append] at hx ⊢
      rcases hx with (hx | hx) | hx
      · simp only [wsReal_decl I x hx, true_or]
      · simp only [hx, true_or, or_true]
      · refine Or.inl (Or.inr ?_)
        by_cases hg : I.gradient = true
        · rw [if_pos hg] at hx ⊢
          exact List.mem_append_left _ hx
        · rw [if_neg hg] at hx; cases hx
  · intro f hf it hit u hu
    have lift : (∃ g ∈ libFiles I, u ∈ g.items.map Item.name) →
        ∃ g ∈ libFiles I ++ [moduleFile I], u ∈ g.items.map Item.name :=
      fun ⟨g, hg, h⟩ => ⟨g, List.mem_append_left _ hg, h⟩
    rcases List.mem_append.1 hf with hf' | hf'
    · obtain ⟨e, hc, _, hl⟩ := lib_closed I hI f hf'
      rcases uses_of_closed _ _ hc it hit u hu with h | h
      · rcases hl u h with h | h | h
        · exact Or.inl h
        · exact Or.inr (Or.inl (lift h))
        · exact Or.inr (Or.inr h)
      · exact Or.inr (Or.inl ⟨f, hf, h⟩)
    · have hm := List.mem_singleton.1 hf'
      subst hm
      rcases uses_of_closed _ _ (module_closed I hI) it hit u hu with h | h
      · rcases moduleEnv_def I hI u h with h | h
        · exact Or.inr (Or.inl (lift h))
        · exact Or.inr (Or.inr h)
      · exact Or.inr (Or.inl ⟨_, hf, h⟩)

/-- The example program compiles and links with the library if it computes no derivatives or there is no prefix. -/
theorem C54_example_partial (I : In) (hI : Coherent I) (hp : I.gradient = false ∨ I.pre = []) :
    InScope (exampleFile I) ∧ ∀ it ∈ exampleItems I, ∀ u ∈ it.uses,
      (∃ g ∈ libFiles I, u ∈ g.items.map Item.name) ∨ u ∈ extDefs I := by
  have hc := example_closed I hp
  constructor
  · refine inScope_of_closed _ _ (fun x hx => Or.inl ?_) hc
    unfold moduleEnv at hx
    unfold exampleFile
    simp only [List.mem_append] at hx ⊢
    rcases hx with (hx | hx) | hx
    · exact Or.inl (Or.inl (wsReal_decl I x hx))
    · exact Or.inl (Or.inr hx)
    · exact Or.inr hx
  · intro it hit u hu
    have hone : it = ⟨S.main, it.uses⟩ ∧ ∀ u ∈ it.uses, u ∈ moduleEnv I := by
      unfold exampleItems at hc hit
      rw [List.mem_singleton.1 hit]
      exact ⟨rfl, hc.1⟩
    exact moduleEnv_def I hI u (hone.2 u hu)

/-- The statement that fails in general. -/
def C54_statement : Prop :=
  ∀ I : In, (∃ p, I.pre = normPrefix p) → ∀ files, writeFiles I = .ok files →
    (∀ f ∈ files ++ [moduleFile I, exampleFile I], InScope f) ∧
    Linked (files ++ [moduleFile I]) (extDefs I) ∧ Defined files (libProtos I)


/-! ### two stages -/

/-- `g = "gradient_"` before a prefix cannot be absorbed by the prefix. -/
theorem pre_shift (Y : Txt) : ∀ (k : Nat) (p X : Txt), p.length ≤ k → (p = [] ∨ p.getLast? = some '_') →
    p ++ X = S.gradient_ ++ (p ++ Y) → X = S.gradient_ ++ Y
  | 0, p, X, hk, _, h => by
    have : p = [] := List.length_eq_zero_iff.1 (by omega)
    subst this; exact h
  | k + 1, p, X, hk, hp, h => by
    rcases hp with rfl | hp
    · exact h
    · by_cases hl : p.length ≤ 8
      · have ht := congrArg (List.take p.length) h
        rw [List.take_left, List.take_append_of_le_length (by rw [show S.gradient_.length = 9 from rfl]; omega)] at ht
        rw [ht] at hp
        exfalso
        generalize p.length = m at hp hl
        have : ∀ m ≤ 8, (List.take m S.gradient_).getLast? ≠ some '_' := by decide
        exact this m hl hp
      · have ht := congrArg (List.take 9) h
        rw [List.take_append_of_le_length (by omega), List.take_left' (by rfl)] at ht
        have hsp : p = S.gradient_ ++ p.drop 9 := by rw [← ht]; exact (List.take_append_drop 9 p).symm
        rw [hsp, List.append_assoc] at h
        have h' := List.append_cancel_left h
        rw [List.append_assoc] at h'
        refine pre_shift Y k (p.drop 9) X (by rw [List.length_drop]; omega) ?_ h'
        by_cases he : p.drop 9 = []
        · exact Or.inl he
        · right
          rw [hsp, List.getLast?_append_of_ne_nil _ he] at hp
          exact hp

theorem norm_last (p0 : Txt) : normPrefix p0 = [] ∨ (normPrefix p0).getLast? = some '_' := by
  unfold normPrefix
  cases p0 with
  | nil => exact Or.inl rfl
  | cons c r =>
    right
    simp only
    cases isAlpha c
    · exact List.getLast?_concat
    · exact List.getLast?_concat

/-- Pieces of names that follow the prefix in declarations. -/
def startOk (K : Txt) : Bool := "cCsSePAq".toList.contains (K.headD 'x')
def rawOk (K : Txt) : Bool := "psc".toList.contains (K.headD 'x')
def gOk (K : Txt) : Bool := decide (2 ≤ K.length) && K.take 2 != ['C', 'P']

/-- A name that no declaration can produce. -/
structure Target (p t : Txt) : Prop where
  pre : ∀ K r, startOk K = true → p ++ (K ++ r) ≠ t
  raw : ∀ K, rawOk K = true → K ≠ t
  grad : ∀ K r, gOk K = true → S.gradient_ ++ p ++ (K ++ r) ≠ t

theorem startOk_head (K r : Txt) (h : startOk K = true) : ∃ c, (K ++ r).head? = some c ∧ "cCsSePAq".toList.contains c = true := by
  cases K with
  | nil => exact absurd h (by decide)
  | cons c t => exact ⟨c, rfl, h⟩

theorem target_grad (p0 : Txt) : Target (normPrefix p0) (S.gradient_ ++ normPrefix p0 ++ S.CPG_OSQP_Grad) := by
  refine ⟨fun K r hK h => ?_, fun K hK h => ?_, fun K r hK h => ?_⟩
  · rw [List.append_assoc] at h
    have := pre_shift S.CPG_OSQP_Grad _ _ _ le_rfl (norm_last p0) h
    obtain ⟨c, hc, hc'⟩ := startOk_head K r hK
    rw [this] at hc
    have : c = 'g' := by injection hc with hc; exact hc.symm
    rw [this] at hc'
    exact absurd hc' (by decide)
  · rw [h] at hK
    exact absurd (show rawOk S.gradient_ = true from hK) (by decide)
  · have := List.append_cancel_left h
    simp only [gOk, Bool.and_eq_true, decide_eq_true_eq, bne_iff_ne, ne_eq] at hK
    rw [← List.take_append_of_le_length (l₂ := r) hK.1, this] at hK
    exact hK.2 rfl

/-- Splits a short list at a position. -/
theorem head_mem_of_append (p X t : Txt) (h : p ++ X = t) : ∀ c, X.head? = some c → c ∈ t := by
  intro c hc
  rw [← h]
  exact List.mem_append_right _ (List.mem_of_head? hc)

theorem target_obj (p : Txt) : Target p S.obj_val := by
  refine ⟨fun K r hK h => ?_, fun K hK h => ?_, fun K r _ h => ?_⟩
  · obtain ⟨c, hc, hc'⟩ := startOk_head K r hK
    have hm := head_mem_of_append p _ _ h c hc
    have : ∀ c ∈ S.obj_val, "cCsSePAq".toList.contains c = false := by decide
    rw [this c hm] at hc'; cases hc'
  · rw [h] at hK; exact absurd hK (by decide)
  · exact absurd (congrArg List.head? h) (show some 'g' ≠ some 'o' by decide)

theorem target_result (p0 : Txt) (hp : p0 ≠ []) : Target (normPrefix p0) S.CPG_Result := by
  refine ⟨fun K r hK h => ?_, fun K hK h => ?_, fun K r _ h => ?_⟩
  · obtain ⟨c, hc, hc'⟩ := startOk_head K r hK
    have hne : normPrefix p0 ≠ [] := by
      unfold normPrefix
      cases p0 with
      | nil => exact absurd rfl hp
      | cons c t => simp only; cases isAlpha c <;> exact List.cons_ne_nil _ _
    have hl : (normPrefix p0).getLast? = some '_' := (norm_last p0).resolve_left hne
    have ht := congrArg (List.take (normPrefix p0).length) h
    have hd := congrArg (List.drop (normPrefix p0).length) h
    rw [List.take_left] at ht
    rw [List.drop_left] at hd
    have hle : (normPrefix p0).length ≤ 10 := by
      have := congrArg List.length h
      rw [List.length_append, show S.CPG_Result.length = 10 from rfl] at this
      omega
    rw [ht] at hl
    rw [hd] at hc
    generalize (normPrefix p0).length = m at hl hc hle
    have : ∀ m ≤ 10, (List.take m S.CPG_Result).getLast? = some '_' → (List.drop m S.CPG_Result).head? = some 'R' := by
      decide
    rw [this m hle hl] at hc
    injection hc with hc
    rw [← hc] at hc'
    exact absurd hc' (by decide)
  · rw [h] at hK; exact absurd hK (by decide)
  · exact absurd (congrArg List.head? h) (show some 'g' ≠ some 'C' by decide)

/-! ### names that are declared nowhere -/

def Absent (t : Txt) (l : List Txt) : Prop := ∀ u ∈ l, u ≠ t

theorem Absent.nil (t : Txt) : Absent t [] := fun _ h => nomatch h
theorem Absent.append {t : Txt} {a b : List Txt} (ha : Absent t a) (hb : Absent t b) : Absent t (a ++ b) :=
  fun u hu => (List.mem_append.1 hu).elim (ha u) (hb u)
theorem Absent.ite {t : Txt} {c : Prop} [Decidable c] {a b : List Txt} (ha : Absent t a) (hb : Absent t b) :
    Absent t (if c then a else b) := by split <;> assumption
theorem Absent.map {α : Type} {t : Txt} {l : List α} {g : α → Txt} (h : ∀ a, g a ≠ t) : Absent t (l.map g) := by
  intro u hu
  obtain ⟨a, _, rfl⟩ := List.mem_map.1 hu
  exact h a
theorem Absent.flatMap {α : Type} {t : Txt} {l : List α} {g : α → List Txt} (h : ∀ a, Absent t (g a)) :
    Absent t (l.flatMap g) := by
  intro u hu
  obtain ⟨a, _, hu⟩ := List.mem_flatMap.1 hu
  exact h a u hu
theorem Absent.cons {t u : Txt} {l : List Txt} (h : u ≠ t) (hl : Absent t l) : Absent t (u :: l) := by
  intro v hv
  rcases List.mem_cons.1 hv with rfl | hv
  · exact h
  · exact hl v hv

syntax "absent" : tactic
macro_rules
  | `(tactic| absent) => `(tactic| repeat' first
      | with_reducible refine Absent.append ?_ ?_ | with_reducible refine Absent.ite ?_ ?_
      | with_reducible refine Absent.cons ?_ ?_ | with_reducible exact Absent.nil _
      | with_reducible refine Absent.map fun _ => ?_ | with_reducible refine Absent.flatMap fun _ => ?_)

variable {p t : Txt} (T : Target p t)
include T

/-- `K` is the piece of the name that follows the prefix. -/
theorem Target.one (K : Txt) (hK : startOk K = true) : p ++ K ≠ t := by simpa using T.pre K [] hK
theorem Target.two (K r : Txt) (hK : startOk K = true) : p ++ K ++ r ≠ t := by
  rw [List.append_assoc]; exact T.pre K r hK
theorem Target.three (K r r' : Txt) (hK : startOk K = true) : p ++ K ++ r ++ r' ≠ t := by
  rw [List.append_assoc, List.append_assoc]; exact T.pre K _ hK
theorem Target.g1 (K : Txt) (hK : gOk K = true) : S.gradient_ ++ p ++ K ≠ t := by simpa using T.grad K [] hK
theorem Target.g2 (K r : Txt) (hK : gOk K = true) : S.gradient_ ++ p ++ K ++ r ≠ t := by
  rw [List.append_assoc (S.gradient_ ++ p)]; exact T.grad K r hK
theorem Target.g3 (K r r' : Txt) (hK : gOk K = true) : S.gradient_ ++ p ++ K ++ r ++ r' ≠ t := by
  rw [List.append_assoc (S.gradient_ ++ p ++ K), List.append_assoc (S.gradient_ ++ p)]; exact T.grad K _ hK

omit T in
theorem absent_decls (I : In) (T : Target I.pre t) : Absent t (wsDecls I) ∧ Absent t (solveDecls I) ∧
    Absent t (gradDecls I) ∧ Absent t (gwsDecls I) ∧ Absent t computeDecls := by
  have hl : Absent t (libDecls I) := by
    unfold libDecls
    cases I.iface <;> simp only <;> absent
    all_goals exact T.raw _ (by decide)
  have hs : Absent t (solverDecls I) := by
    unfold solverDecls
    cases I.iface <;> simp only <;> absent
    all_goals first | with_reducible exact T.two _ _ (by decide) | with_reducible exact T.one _ (by decide)
  refine ⟨?_, ?_, ?_, ?_, ?_⟩
  · unfold wsDecls canonDecls
    absent
    all_goals first
      | with_reducible exact hl | with_reducible exact hs | with_reducible exact T.three _ _ _ (by decide)
      | with_reducible exact T.two _ _ (by decide) | with_reducible exact T.one _ (by decide)
      | with_reducible exact T.raw _ (by decide)
  · unfold solveDecls
    absent
    all_goals first | with_reducible exact T.two _ _ (by decide) | with_reducible exact T.one _ (by decide)
  · unfold gradDecls gpre
    absent
    all_goals first
      | with_reducible exact T.g1 _ (by decide) | with_reducible exact T.two _ _ (by decide)
      | with_reducible exact T.one _ (by decide)
  · unfold gwsDecls canonDecls gpre
    simp only [Bool.false_eq_true, if_false, List.append_nil]
    absent
    all_goals first
      | with_reducible exact T.g3 _ _ _ (by decide) | with_reducible exact T.g2 _ _ (by decide)
      | with_reducible exact T.g1 _ (by decide)
  · unfold computeDecls
    absent
    all_goals exact T.raw _ (by decide)

omit T in
theorem not_inScope (f : CFile) (it : Item) (hf : it ∈ f.items) (hu : t ∈ it.uses) (h1 : Absent t f.headers)
    (h2 : Absent t f.statics) (h3 : Absent t (f.items.map Item.name)) : ¬ InScope f := by
  intro h
  obtain ⟨before, after, he⟩ := List.append_of_mem hf
  rcases h before it after he t hu with h | h | h
  · exact h1 t h rfl
  · exact h2 t h rfl
  · refine h3 t ?_ rfl
    rw [he, List.map_append]
    exact List.mem_append_left _ h

omit T in
theorem short_static (p0 : Txt) : Absent (S.gradient_ ++ normPrefix p0 ++ S.CPG_OSQP_Grad) [S.i, S.j, S.k] := by
  absent
  · exact fun h => absurd (congrArg List.head? h) (show some 'i' ≠ some 'g' by decide)
  · exact fun h => absurd (congrArg List.head? h) (show some 'j' ≠ some 'g' by decide)
  · exact fun h => absurd (congrArg List.head? h) (show some 'k' ≠ some 'g' by decide)

omit T in
/-- No code for derivatives in two stages compiles: the structure that cpg_gradient.c works with is declared (and
defined) under another name. -/
theorem C54_fails_two_stage (I : In) (p0 : Txt) (hp : I.pre = normPrefix p0) (h2 : I.two = true)
    (hg : I.gradient = true) (h0 : I.explicit = 0) (files : List CFile) (h : writeFiles I = .ok files) :
    ∃ f ∈ files, ¬ InScope f := by
  have hfiles : files = libFiles I := by
    unfold writeFiles at h
    split at h
    · cases h
    · injection h with h; exact h.symm
  subst hfiles
  refine ⟨_, lib_grad I hg, ?_⟩
  have T := target_grad p0
  rw [← hp] at T
  obtain ⟨a1, a2, a3, a4, a5⟩ := absent_decls I T
  have hst := short_static p0
  rw [← hp] at hst
  unfold gradFile
  rw [if_pos h0]
  refine not_inScope (t := S.gradient_ ++ I.pre ++ S.CPG_OSQP_Grad) _ _
    (by unfold gradItems; exact List.mem_append_right _ (List.mem_singleton.2 rfl)) ?_ ?_ hst ?_
  · simp [gradPre, h2, gpre]
  · unfold gradWsDecls
    absent
    · exact a1
    · exact a3
    · exact a4
    · exact T.one _ (by decide)
    · exact a5
  · unfold gradItems gradPre gpre
    simp only [h2, if_true, List.map_append, List.map_map, List.map_cons, List.map_nil,
      apply_ite (List.map Item.name)]
    absent
    · exact T.g1 _ (by decide)
    · exact T.g1 _ (by decide)
    · exact T.g1 _ (by decide)
    · exact T.g1 _ (by decide)
    · exact T.g2 _ _ (by decide)
    · exact T.two _ _ (by decide)
    · exact T.one _ (by decide)

omit T in
/-- Code for PDAQP without explicit mode never compiles: cpg_retrieve_info mentions `obj_val`, which is only there in
explicit mode. -/
theorem C54_fails_pdaqp (I : In) (hi : I.iface = .pdaqp) (h0 : I.explicit = 0) (h2 : I.two = false)
    (files : List CFile) (h : writeFiles I = .ok files) : ∃ f ∈ files, ¬ InScope f := by
  have hfiles : files = libFiles I := by
    unfold writeFiles at h
    split at h
    · cases h
    · injection h with h; exact h.symm
  subst hfiles
  refine ⟨_, lib_solve I, ?_⟩
  have T := target_obj I.pre
  obtain ⟨a1, a2, a3, a4, a5⟩ := absent_decls I T
  unfold solveFile
  simp only [h0, h2, if_true, Bool.false_eq_true, if_false, List.append_nil]
  refine not_inScope (t := S.obj_val) _ ⟨I.pre ++ S.cpg_retrieve_info,
      [I.pre ++ S.CPG_Info, I.pre ++ S.Canon_Params] ++ [S.obj_val]⟩ ?_ (by simp) (Absent.append a1 a2) ?_ ?_
  · unfold solveItems
    simp only [List.mem_append, h0, if_true, hi, infoObjs, resultPre, wsStatic, List.map_cons, List.map_nil,
      List.nil_append, List.mem_singleton, true_or, or_true]
  · absent <;> decide
  · unfold solveItems
    simp only [List.map_append, List.map_map, apply_ite (List.map Item.name), List.map_cons, List.map_nil]
    absent
    all_goals first | exact T.two _ _ (by decide) | exact T.one _ (by decide)

omit T in
/-- With a prefix, the example program for derivatives never compiles (if there are variables). -/
theorem C54_fails_example (I : In) (p0 : Txt) (hp : I.pre = normPrefix p0) (hne : p0 ≠ []) (hg : I.gradient = true)
    (hv : I.vars ≠ []) : ¬ InScope (exampleFile I) := by
  have T := target_result p0 hne
  rw [← hp] at T
  obtain ⟨a1, a2, a3, a4, a5⟩ := absent_decls I T
  unfold exampleFile
  refine not_inScope (t := S.CPG_Result) _ _ (by unfold exampleItems; exact List.mem_singleton.2 rfl) ?_ ?_ ?_ ?_
  · rw [if_pos hg]
    obtain ⟨v, vs, hv⟩ := List.exists_cons_of_ne_nil hv
    rw [hv]
    simp
  · absent
    · exact a1
    · exact a2
    · exact a3
  · absent <;> decide
  · unfold exampleItems
    exact Absent.cons (show S.main ≠ S.CPG_Result by decide) (Absent.nil _)

omit T in
/-- Two stages with a solver whose canonical form has no `P`, such as ECOS: the files cannot be written. -/
theorem C54_error_without_P (I : In) (hg : I.gradient = true) (h0 : I.explicit = 0)
    (hP : ∀ c ∈ I.canon, c.has = true → c.id ≠ S.P) : writeFiles I = .error .keyError := by
  have : (keys I.canon).any (fun c => c.id == S.P) = false := by
    rw [List.any_eq_false]
    intro c hc
    have := List.mem_filter.1 hc
    simpa using hP c this.1 this.2
  unfold writeFiles
  rw [hg, h0, this]
  rfl

/-! ### examples -/

omit T in
/-- OSQP form with a parameter in every canonical parameter but `d`, and a scalar and a symmetric variable. -/
def symOsqp : In where
  pre := normPrefix "ab".toList
  gradient := true
  explicit := 0
  two := false
  iface := .osqp
  quad := true
  soc := false
  reduced := false
  params := [("W".toList, 4), ("mu".toList, 1)]
  vars := [⟨"x".toList, 3, false⟩, ⟨"S".toList, 4, true⟩, ⟨"t".toList, 1, false⟩]
  duals := [("d0".toList, 2), ("d1".toList, 1)]
  canon := [⟨S.P, true, 3, true⟩, ⟨S.q, true, 3, true⟩, ⟨S.d, true, 1, true⟩, ⟨S.A, true, 4, true⟩,
    ⟨S.l, true, 2, true⟩, ⟨S.u, true, 2, true⟩]
  settings := ["max_iter".toList, "eps_abs".toList]
  gcanon := []
  gret := false

def symScs : In :=
  { symOsqp with iface := .scs, gradient := false, soc := true, canon := [⟨S.P, true, 3, false⟩, ⟨S.c, true, 3, true⟩,
      ⟨S.d, true, 1, false⟩, ⟨S.A, true, 4, true⟩, ⟨S.b, true, 2, true⟩] }
def symClarabel : In := { symScs with iface := .clarabel, canon := [⟨S.P, true, 3, false⟩, ⟨S.q, true, 3, true⟩,
      ⟨S.d, true, 1, false⟩, ⟨S.A, true, 4, true⟩, ⟨S.b, true, 2, true⟩] }
def symExplicit : In := { symOsqp with iface := .pdaqp, explicit := 2, canon := [⟨S.P, true, 3, false⟩, ⟨S.q, true, 3, true⟩,
      ⟨S.d, true, 1, false⟩, ⟨S.A, true, 4, false⟩, ⟨S.l, true, 2, true⟩, ⟨S.u, true, 2, true⟩] }
/-- Differentiation of a second-order cone program in two stages. -/
def symTwo : In := { symScs with gradient := true, two := true, gcanon := symOsqp.canon, gret := true }
def symPdaqp : In := { symOsqp with iface := .pdaqp, gradient := false }

example : Coherent symOsqp := ⟨rfl, by decide, by decide, by decide, by decide, by decide⟩
example : Coherent symScs := ⟨rfl, by decide, by decide, by decide, by decide, by decide⟩
example : Coherent symClarabel := ⟨rfl, by decide, by decide, by decide, by decide, by decide⟩
example : Coherent symExplicit := ⟨rfl, by decide, by decide, by decide, by decide, by decide⟩
example : writeFiles symOsqp = .ok (libFiles symOsqp) ∧ (libFiles symOsqp).length = 5 := ⟨rfl, rfl⟩
example : writeFiles symScs = .ok (libFiles symScs) := rfl
example : writeFiles symExplicit = .ok (libFiles symExplicit) := rfl
example : writeFiles symTwo = .ok (libFiles symTwo) := rfl
example : ∃ f ∈ libFiles symTwo, ¬ InScope f :=
  C54_fails_two_stage symTwo "ab".toList rfl rfl rfl rfl _ rfl
example : ∃ f ∈ libFiles symPdaqp, ¬ InScope f := C54_fails_pdaqp symPdaqp rfl rfl rfl _ rfl
example : ¬ InScope (exampleFile symOsqp) := C54_fails_example symOsqp "ab".toList rfl (by decide) rfl (by decide)
example : writeFiles { symTwo with iface := .ecos, canon := [⟨S.c, true, 3, true⟩, ⟨S.A, true, 4, true⟩] } = .error .keyError :=
  C54_error_without_P _ rfl rfl (by decide)

theorem C54_fails : ¬ C54_statement := by
  intro h
  obtain ⟨f, hf, hn⟩ := C54_fails_two_stage symTwo "ab".toList rfl rfl rfl rfl _ rfl
  exact hn ((h symTwo ⟨"ab".toList, rfl⟩ _ rfl).1 f (List.mem_append_left _ hf))

/-- cpg_workspace.h declares data that is never defined (it is not used either). -/
theorem C54_undefined_declaration : symClarabel.pre ++ "cpg_x".toList ∈ wsDecls symClarabel ∧
    symClarabel.pre ++ "cpg_x".toList ∉ libDefs symClarabel := by decide

end Verif.Props
