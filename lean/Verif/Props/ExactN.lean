import Verif.Props.Methods
/-!
# C79: exactly when the method registered by generated code succeeds on a problem
-/
namespace Verif.Props
open Verif.Model.Methods Verif.Spec.Methods
variable {R : Type}

/-- The parameter `n` of the problem has a value of the kind declared in the code: a number for size 1, else a list of `k` numbers. -/
def Sendable (q : Prob R) (n : String) (k : Nat) : Prop :=
  ∃ (p : Param R) (l : List R), q.params.lookup n = some p ∧ p.data = some l ∧ ((p.size = 1 ∧ k = 1) ∨ (p.size ≠ 1 ∧ k ≠ 1 ∧ l.length = k))

theorem readAll_some_iff (q : Prob R) : ∀ l : List (String × Nat), (∃ vals, readAll q l = .ok vals) ↔ ∀ n k, (n, k) ∈ l → Sendable q n k := by
  intro l
  induction l with
  | nil => simp [readAll]
  | cons a l ih =>
    obtain ⟨n, k⟩ := a
    have hs : (∃ vals, readAll q ((n, k) :: l) = .ok vals) ↔
        (∃ p v, q.params.lookup n = some p ∧ send p k = .ok v) ∧ ∃ vals, readAll q l = .ok vals := by
      rw [readAll]
      cases hp : q.params.lookup n with
      | none => simp
      | some p =>
        cases hv : send p k with
        | error e => simp [hv]
        | ok v =>
          cases hr : readAll q l with
          | error e => simp [hv]
          | ok vs => simp [hv]
    rw [hs, ih]
    constructor
    · rintro ⟨⟨p, v, h1, h2⟩, h⟩ m j hm
      rcases List.mem_cons.1 hm with e | hm
      · cases e
        exact ⟨p, v, h1, (C79_sends p k v).1 h2⟩
      · exact h m j hm
    · intro h
      obtain ⟨p, v, h1, h2⟩ := h n k (List.mem_cons_self ..)
      exact ⟨⟨p, v, h1, (C79_sends p k v).2 h2⟩, fun m j hm => h m j (List.mem_cons_of_mem _ hm)⟩

/-- **C79, exactly.** The method succeeds on a problem, whichever problem the code was generated for, exactly if each parameter of the code is
one of the problem with a value of the declared kind, each variable of the code is one of the problem, and the problem has at least as many
constraints as the code has dual values. -/
theorem C79_iff (c : Code R) (q : Prob R) (hx : ∀ v, (c.solution v).1.length = c.vars.length) (hy : ∀ v, (c.solution v).2.length = c.nDuals) :
    (cpgSolve c q).2 = none ↔
      (∀ n k, (n, k) ∈ c.params → Sendable q n k) ∧ (∀ n ∈ c.vars, n ∈ q.vars.map Prod.fst) ∧ c.nDuals ≤ q.duals.length := by
  rw [← readAll_some_iff]
  unfold cpgSolve
  cases hr : readAll q c.params with
  | error e => simp
  | ok vals =>
    have hnames : (c.vars.zip (c.solution vals).1).map Prod.fst = c.vars := by
      rw [List.map_fst_zip]
      rw [hx]
      exact Nat.le_refl _
    have hclear : (clear q).vars.map Prod.fst = q.vars.map Prod.fst := by unfold clear; simp
    have hd : (clear q).duals.length = q.duals.length := by unfold clear; simp
    obtain ⟨_, h2, _, h4, _, _⟩ := mSaveVars_spec (c.vars.zip (c.solution vals).1) (clear q)
    have hv : (saveVars (clear q) (c.vars.zip (c.solution vals).1)).2 = none ↔ ∀ n ∈ c.vars, n ∈ q.vars.map Prod.fst := by
      rw [h4, hclear]
      constructor
      · intro h n hn
        rw [← hnames] at hn
        obtain ⟨e, he, rfl⟩ := List.mem_map.1 hn
        exact h e he
      · intro h e he
        refine h e.1 ?_
        rw [← hnames]
        exact List.mem_map_of_mem he
    dsimp only
    rw [← hv]
    generalize saveVars (clear q) (c.vars.zip (c.solution vals).1) = z at h2 ⊢
    obtain ⟨z1, z2⟩ := z
    cases z2 with
    | some e => simp
    | none =>
      have h := (mSaveDuals_spec ((c.solution vals).2.take c.nDuals) z1 0 (Nat.zero_le _)).2.2.2.1
      dsimp only at h2 ⊢
      rw [h, h2, hd, List.length_take, hy, Nat.min_self, Nat.zero_add]
      simp

/-- **C79, a call that fails.** If the parameters cannot be sent, the problem is left as it was; otherwise its parameters are, and the names of
its variables and the number of its constraints. -/
theorem C79_after (c : Code R) (q : Prob R) :
    (¬ (∀ n k, (n, k) ∈ c.params → Sendable q n k) → (cpgSolve c q).1 = q) ∧ (cpgSolve c q).1.params = q.params ∧
      (cpgSolve c q).1.vars.map Prod.fst = q.vars.map Prod.fst ∧ (cpgSolve c q).1.duals.length = q.duals.length := by
  rw [← readAll_some_iff]
  unfold cpgSolve
  cases hr : readAll q c.params with
  | error e => simp
  | ok vals =>
    obtain ⟨h1, h2, h3, _⟩ := mSaveVars_spec (c.vars.zip (c.solution vals).1) (clear q)
    have hp : (clear q).params = q.params := rfl
    have hclear : (clear q).vars.map Prod.fst = q.vars.map Prod.fst := by unfold clear; simp
    have hd : (clear q).duals.length = q.duals.length := by unfold clear; simp
    refine ⟨fun h => absurd ⟨vals, rfl⟩ h, ?_⟩
    dsimp only
    generalize saveVars (clear q) (c.vars.zip (c.solution vals).1) = z at h1 h2 h3 ⊢
    obtain ⟨z1, z2⟩ := z
    cases z2 with
    | some e => exact ⟨h1.trans hp, h3.trans hclear, (congrArg List.length h2).trans hd⟩
    | none =>
      obtain ⟨g1, g2, g3, _⟩ := mSaveDuals_spec ((c.solution vals).2.take c.nDuals) z1 0 (Nat.zero_le _)
      dsimp only at h1 h2 h3 ⊢
      exact ⟨g1.trans (h1.trans hp), by rw [g2, h3, hclear], by rw [g3, h2, hd]⟩

/-- Code of another problem with the same names: the call succeeds; with fewer constraints, it does not. -/
example : (cpgSolve (mOwn 1) (mProb 3)).2 = none :=
  (C79_iff (mOwn 1) (mProb 3) (fun _ => rfl) (fun _ => rfl)).2 ⟨by
    intro n k h
    simp only [mOwn, List.mem_singleton, Prod.mk.injEq] at h
    obtain ⟨rfl, rfl⟩ := h
    exact ⟨_, _, rfl, rfl, Or.inl ⟨rfl, rfl⟩⟩, by
    intro n h
    simpa [mOwn, mProb] using h, by decide⟩

example : (cpgSolve (mOwn 1) { mProb 3 with duals := [] }).2 ≠ none := fun h =>
  absurd ((C79_iff (mOwn 1) { mProb 3 with duals := [] } (fun _ => rfl) (fun _ => rfl)).1 h).2.2 (by decide)

end Verif.Props
