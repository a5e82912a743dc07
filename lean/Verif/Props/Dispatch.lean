import Verif.Spec.Dispatch
/-!
C46 (solver selection), C47 (rejections leave the folder alone), C45 (prefixes; symbols are in
`Props/Symbols.lean`).
-/
namespace Verif.Props
open Verif.Model.Text Verif.Model.Dispatch Verif.Spec.Dispatch

theorem toNat_ascii : ∀ n < 128, (Char.ofNat n).toNat = n := by decide

theorem upperC_eq_iff (k : Nat) (hk : k < 26) (c : Char) :
    upperC c = Char.ofNat (65 + k) ↔ lowerC c = Char.ofNat (97 + k) := by
  have t1 : (Char.ofNat (65 + k)).toNat = 65 + k := toNat_ascii _ (by omega)
  have t2 : (Char.ofNat (97 + k)).toNat = 97 + k := toNat_ascii _ (by omega)
  have key : ∀ a b : Char, a = b ↔ a.toNat = b.toNat := fun a b => ⟨fun h => h ▸ rfl, fun h => Char.toNat_inj.1 h⟩
  rw [key, key, t1, t2]
  unfold upperC lowerC
  by_cases h1 : 97 ≤ c.toNat ∧ c.toNat ≤ 122
  · rw [if_pos h1, if_neg (show ¬ (65 ≤ c.toNat ∧ c.toNat ≤ 90) by omega), toNat_ascii _ (by omega)]
    omega
  · rw [if_neg h1]
    by_cases h2 : 65 ≤ c.toNat ∧ c.toNat ≤ 90
    · rw [if_pos h2, toNat_ascii _ (by omega)]
      omega
    · rw [if_neg h2]
      omega

/-- Letters of a name, numbered from zero. -/
def lettersU (l : List Nat) : Txt := l.map fun k => Char.ofNat (65 + k)
def lettersL (l : List Nat) : Txt := l.map fun k => Char.ofNat (97 + k)

theorem upper_eq_iff : ∀ (l : List Nat) (s : Txt), (∀ k ∈ l, k < 26) → (upper s = lettersU l ↔ lower s = lettersL l)
  | [], s, _ => by simp [upper, lower, lettersU, lettersL]
  | k :: l, [], _ => by simp [upper, lower, lettersU, lettersL]
  | k :: l, c :: s, h => by
    have ih := upper_eq_iff l s (fun k hk => h k (List.mem_cons_of_mem _ hk))
    have hc := upperC_eq_iff k (h k (List.mem_cons_self ..)) c
    simp only [upper, lower, lettersU, lettersL, List.map_cons, List.cons.injEq] at ih ⊢
    rw [hc, ih]

theorem iface_lookup (w : Bool) (s : Txt) : interfaceClass w (some s) =
    if lower s = "osqp".toList then .ok .osqp
    else if lower s = "scs".toList then .ok .scs
    else if lower s = "ecos".toList then .ok .ecos
    else if lower s = "clarabel".toList then (if w then .error .valueError else .ok .clarabel)
    else if lower s = "qoco".toList then .ok .qoco
    else if lower s = "qocogen".toList then .ok .qocogen
    else if lower s = "pdaqp".toList then .ok .pdaqp
    else .error .valueError := by
  have e1 := upper_eq_iff [14, 18, 16, 15] s (by decide)
  have e2 := upper_eq_iff [18, 2, 18] s (by decide)
  have e3 := upper_eq_iff [4, 2, 14, 18] s (by decide)
  have e4 := upper_eq_iff [2, 11, 0, 17, 0, 1, 4, 11] s (by decide)
  have e5 := upper_eq_iff [16, 14, 2, 14] s (by decide)
  have e6 := upper_eq_iff [16, 14, 2, 14, 6, 4, 13] s (by decide)
  have e7 := upper_eq_iff [15, 3, 0, 16, 15] s (by decide)
  rw [show lettersU [14, 18, 16, 15] = "OSQP".toList from by decide, show lettersL [14, 18, 16, 15] = "osqp".toList from by decide] at e1
  rw [show lettersU [18, 2, 18] = "SCS".toList from by decide, show lettersL [18, 2, 18] = "scs".toList from by decide] at e2
  rw [show lettersU [4, 2, 14, 18] = "ECOS".toList from by decide, show lettersL [4, 2, 14, 18] = "ecos".toList from by decide] at e3
  rw [show lettersU [2, 11, 0, 17, 0, 1, 4, 11] = "CLARABEL".toList from by decide,
    show lettersL [2, 11, 0, 17, 0, 1, 4, 11] = "clarabel".toList from by decide] at e4
  rw [show lettersU [16, 14, 2, 14] = "QOCO".toList from by decide, show lettersL [16, 14, 2, 14] = "qoco".toList from by decide] at e5
  rw [show lettersU [16, 14, 2, 14, 6, 4, 13] = "QOCOGEN".toList from by decide,
    show lettersL [16, 14, 2, 14, 6, 4, 13] = "qocogen".toList from by decide] at e6
  rw [show lettersU [15, 3, 0, 16, 15] = "PDAQP".toList from by decide, show lettersL [15, 3, 0, 16, 15] = "pdaqp".toList from by decide] at e7
  simp only [← e1, ← e2, ← e3, ← e4, ← e5, ← e6, ← e7]
  unfold interfaceClass table
  obtain ⟨u, hu⟩ : ∃ u, upper s = u := ⟨_, rfl⟩
  simp only [hu, List.lookup]
  by_cases h4 : u = "CLARABEL".toList
  · rw [h4]
    cases w <;> decide
  · rw [if_neg (fun h => h4 h.2)]
    have b : ∀ x : Txt, u ≠ x → (u == x) = false := fun x h => by simpa using h
    by_cases h1 : u = "OSQP".toList
    · rw [h1]; cases w <;> decide
    by_cases h2 : u = "SCS".toList
    · rw [h2]; cases w <;> decide
    by_cases h3 : u = "ECOS".toList
    · rw [h3]; cases w <;> decide
    by_cases h5 : u = "QOCO".toList
    · rw [h5]; cases w <;> decide
    by_cases h6 : u = "QOCOGEN".toList
    · rw [h6]; cases w <;> decide
    by_cases h7 : u = "PDAQP".toList
    · rw [h7]; cases w <;> decide
    rw [b _ h1, b _ h2, b _ h3, b _ h4, b _ h5, b _ h6, b _ h7, if_neg h1, if_neg h2, if_neg h3, if_neg h4,
      if_neg h5, if_neg h6, if_neg h7]

/-- C46: every string either selects the documented interface and mode or raises the documented
`ValueError`, except that with differentiation OSQP must be spelled in capitals. What is missing:
`solver=None` and other spellings of OSQP with differentiation (`C46_fails`, `C46_fails_default`). -/
theorem C46_partial (s : Txt) (dual gradient windows : Bool)
    (h : gradient = true → lower s = "osqp".toList → s = "OSQP".toList) :
    select ⟨some s, dual, gradient, windows⟩ =
      match documented s dual gradient windows with
      | some m => .ok m
      | none => .error .valueError := by
  unfold select resolve documented
  by_cases he : lower s = "explicit".toList
  · simp only [he, if_true]
    cases windows <;> cases dual <;> cases gradient <;> rfl
  · simp only [he, if_false]
    rw [iface_lookup]
    by_cases h1 : lower s = "osqp".toList
    · simp only [h1, if_true]
      cases gradient with
      | false => simp [twoStage]
      | true => simp [twoStage, h rfl h1]
    · have hs : s ≠ "OSQP".toList := fun e => h1 (by rw [e]; decide)
      have ht : ∀ k, twoStage ⟨some s, dual, gradient, windows⟩ (some s) k = (gradient && decide (k = 0)) := by
        intro k
        unfold twoStage
        rw [show decide (some s ≠ some "OSQP".toList) = true from decide_eq_true (fun e => hs (Option.some.inj e)),
          Bool.and_true]
      simp only [h1, if_false, ht, decide_true, Bool.and_true]
      by_cases h2 : lower s = "scs".toList
      · simp [h2]
      by_cases h3 : lower s = "ecos".toList
      · simp [h3]
      by_cases h4 : lower s = "clarabel".toList
      · simp only [h4, if_true]
        cases windows <;> simp
      by_cases h5 : lower s = "qoco".toList
      · simp [h5]
      by_cases h6 : lower s = "qocogen".toList
      · simp [h6]
      by_cases h7 : lower s = "pdaqp".toList
      · simp [h7]
      simp only [h2, h3, h4, h5, h6, h7, if_false]

example : documented "Explicit".toList true false false = some (.pdaqp, 2, false) ∧
    documented "Clarabel".toList false true false = some (.clarabel, 0, true) ∧
    documented "gurobi".toList false false false = none := by decide

/-- C46 (no other outcome): a string never leads to another exception than `ValueError`. -/
theorem C46_total (s : Txt) (dual gradient windows : Bool) (e : Err)
    (h : select ⟨some s, dual, gradient, windows⟩ = .error e) : e = .valueError := by
  have hi : ∀ t : Txt, ∀ e, interfaceClass windows (some t) = .error e → e = .valueError := by
    intro t e
    rw [iface_lookup]
    intro h
    split at h
    · cases h
    split at h
    · cases h
    split at h
    · cases h
    split at h
    · cases windows <;> simp at h <;> exact h.symm
    split at h
    · cases h
    split at h
    · cases h
    split at h
    · cases h
    · cases h; rfl
  unfold select at h
  have hr : ∃ t, (resolve ⟨some s, dual, gradient, windows⟩).1 = some t := by
    unfold resolve
    by_cases he : lower s = "explicit".toList
    · exact ⟨"PDAQP".toList, by simp only [he, if_true]⟩
    · exact ⟨s, by simp only [he, if_false]⟩
  obtain ⟨t, ht⟩ := hr
  rw [ht] at h
  cases hc : interfaceClass windows (some t) with
  | ok i => rw [hc] at h; cases h
  | error e' => rw [hc] at h; cases h; exact hi t _ hc

/-- C46 fails: the mode of differentiation depends on the case of the name. -/
theorem C46_fails : ∃ s s' : Txt, lower s = lower s' ∧
    select ⟨some s, false, true, false⟩ ≠ select ⟨some s', false, true, false⟩ :=
  ⟨"OSQP".toList, "osqp".toList, by decide, by intro h; revert h; decide⟩

/-- C46 fails: without a solver argument, whatever the other arguments, no solver is selected and the
exception is not a `ValueError`. -/
theorem C46_fails_default (dual gradient windows : Bool) :
    select ⟨none, dual, gradient, windows⟩ = .error .attributeError := rfl

/-! ### C45 -/

/-- C45 (prefixes): different prefixes give different symbol prefixes. -/
theorem C45_prefix_injective (p q : Txt) (h : normPrefix p = normPrefix q) : p = q := by
  have hu : isAlpha '_' = false := by decide
  have e : ∀ (c : Char) (t : Txt), normPrefix (c :: t) = (if isAlpha c then c :: t else '_' :: c :: t) ++ ['_'] := by
    intro c t
    unfold normPrefix
    by_cases hc : isAlpha c = true
    · simp only [hc, if_true]
    · simp only [Bool.not_eq_true] at hc
      simp only [hc, Bool.false_eq_true, if_false]
  cases p with
  | nil => cases q with
    | nil => rfl
    | cons c t =>
      rw [e] at h
      simp [normPrefix] at h
  | cons c t =>
    cases q with
    | nil =>
      rw [e] at h
      simp [normPrefix] at h
    | cons d u =>
      rw [e, e] at h
      have h := List.append_cancel_right h
      by_cases hc : isAlpha c = true
      · by_cases hd : isAlpha d = true
        · rw [if_pos hc, if_pos hd] at h; exact h
        · rw [if_pos hc, if_neg hd] at h
          cases h
          rw [hu] at hc; cases hc
      · by_cases hd : isAlpha d = true
        · rw [if_neg hc, if_pos hd] at h
          cases h
          rw [hu] at hd; cases hd
        · rw [if_neg hc, if_neg hd] at h
          exact (List.cons.inj h).2

/-- C45 (prefixes): with identifier characters in the prefix and an identifier as name, the symbol is an
identifier. -/
theorem C45_prefix_valid (p b : Txt) (hp : p.all isIdChar = true) (hb : isIdentifier b = true) :
    isIdentifier (normPrefix p ++ b) = true := by
  have hb' : b.all isIdChar = true := by
    cases b with
    | nil => rfl
    | cons c t =>
      simp only [isIdentifier, Bool.and_eq_true] at hb
      simp only [List.all_cons, Bool.and_eq_true]
      refine ⟨?_, hb.2⟩
      have := hb.1
      unfold isIdChar
      revert this
      cases isAlpha c <;> simp
      intro h
      exact Or.inr h
  cases p with
  | nil => exact hb
  | cons c t =>
    have hus : isIdChar '_' = true := by decide
    simp only [List.all_cons, Bool.and_eq_true] at hp
    unfold normPrefix
    by_cases hc : isAlpha c = true
    · simp only [hc, if_true, List.cons_append, isIdentifier, Bool.true_or, Bool.true_and, List.all_append, hp.2, hb',
        List.all_cons, hus, List.all_nil, Bool.and_true]
    · simp only [Bool.not_eq_true] at hc
      simp [hc, isIdentifier, hp.1, hp.2, hb', hus]

example : normPrefix "1mpc".toList = "_1mpc_".toList ∧ normPrefix "mpc".toList = "mpc_".toList ∧ normPrefix [] = [] ∧
    isIdentifier "cpg_solve".toList = true := by decide

/-! ### C47 -/

/-- C47: if a call that is not in explicit mode is rejected, for whatever reason, the folder is as before;
in explicit mode this holds if the reason is found during canonicalization. What is missing: the reasons
found by explicit mode itself (`C47_fails`). -/
theorem C47_partial (a : Args) (f : Facts) (h : Rejected a f) :
    (generate a f).2 = .before ∨
      (canonicalization a f = .ok .pdaqp ∧
        ((f.pChanges = true ∨ f.aChanges = true) ∨ f.simpleBounds = false ∨ f.solved = false ∨ f.printed = false)) := by
  obtain ⟨e, he⟩ := h
  unfold generate at he ⊢
  cases hc : canonicalization a f with
  | error e' => exact Or.inl rfl
  | ok i =>
    right
    simp only [hc] at he
    have hi : i = .pdaqp := by
      by_contra hn
      rw [show codeGeneration i f = .ok () from if_neg hn] at he
      cases he
    subst hi
    refine ⟨rfl, ?_⟩
    by_contra hn
    have hn1 : ¬ (f.pChanges = true ∨ f.aChanges = true) := fun h => hn (Or.inl h)
    have hn2 : ¬ f.simpleBounds = false := fun h => hn (Or.inr (Or.inl h))
    have hn3 : ¬ f.solved = false := fun h => hn (Or.inr (Or.inr (Or.inl h)))
    have hn4 : ¬ f.printed = false := fun h => hn (Or.inr (Or.inr (Or.inr h)))
    have hp : (f.pChanges || f.aChanges) = false := by
      cases h1 : f.pChanges <;> cases h2 : f.aChanges <;> simp_all
    have : codeGeneration .pdaqp f = .ok () := by
      unfold codeGeneration
      rw [if_pos rfl, hp, if_neg (by decide), if_neg hn2, if_neg hn3, if_neg hn4]
    rw [this] at he
    cases he

/-- C47: a name that is not a solver, a problem without parameters, cones that the interface rejects, and
(for two-stage differentiation) an objective outside the extended rules are all rejected, and the folder
is as before. -/
theorem C47_reasons (a : Args) (f : Facts) :
    ((∃ s, a.solver = some s ∧ documented s a.dual a.gradient a.windows = none) → a.gradient = false →
      Rejected a f ∧ (generate a f).2 = .before) ∧
    (f.hasParams = false → Rejected a f ∧ (generate a f).2 = .before) ∧
    (twoStage a (resolve a).1 (resolve a).2 = true → f.pChanges = true ∨ f.pDiagonal = false ∨ f.dChanges = true →
      Rejected a f ∧ (generate a f).2 = .before) ∧
    (∀ i, interfaceClass a.windows (resolve a).1 = .ok i → conesOk i (f.cones i) = false →
      Rejected a f ∧ (generate a f).2 = .before) := by
  have gen : (∃ e, canonicalization a f = .error e) → Rejected a f ∧ (generate a f).2 = .before := by
    rintro ⟨e, he⟩
    unfold Rejected generate
    rw [he]
    exact ⟨⟨e, rfl⟩, rfl⟩
  have ext : ∀ s, (f.hasParams = false → ∃ e, extract a.windows s f = .error e) ∧
      (∀ i, interfaceClass a.windows s = .ok i → conesOk i (f.cones i) = false → ∃ e, extract a.windows s f = .error e) := by
    intro s
    unfold extract
    constructor
    · intro hp
      cases interfaceClass a.windows s with
      | error e => exact ⟨e, rfl⟩
      | ok i =>
        simp only [hp, if_true]
        by_cases h : f.canonOk i = false
        · exact ⟨_, if_pos h⟩
        · exact ⟨_, if_neg h⟩
    · intro i hi hc
      rw [hi]
      simp only [hc, if_true]
      by_cases h : f.canonOk i = false
      · exact ⟨_, if_pos h⟩
      · rw [if_neg h]
        by_cases h : f.hasParams = false
        · exact ⟨_, if_pos h⟩
        · exact ⟨_, if_neg h⟩
  refine ⟨?_, ?_, ?_, ?_⟩
  · rintro ⟨s, hs, hd⟩ hg
    apply gen
    have h := C46_partial s a.dual a.gradient a.windows (fun h => by rw [hg] at h; cases h)
    rw [hd] at h
    have ha : a = ⟨some s, a.dual, a.gradient, a.windows⟩ := by cases a; simp_all
    rw [← ha] at h
    unfold canonicalization
    have ht : twoStage a (resolve a).1 (resolve a).2 = false := by simp [twoStage, hg]
    simp only [ht, Bool.false_eq_true, if_false]
    unfold extract
    unfold select at h
    cases hc : interfaceClass a.windows (resolve a).1 with
    | error e => exact ⟨e, rfl⟩
    | ok i => rw [hc] at h; cases h
  · intro hp
    apply gen
    unfold canonicalization
    by_cases ht : twoStage a (resolve a).1 (resolve a).2 = true
    · simp only [ht, if_true]
      obtain ⟨e, he⟩ := (ext (some "OSQP".toList)).1 hp
      exact ⟨e, by rw [he]⟩
    · simp only [ht, if_false]
      exact (ext _).1 hp
  · intro ht hr
    apply gen
    unfold canonicalization
    simp only [ht, if_true]
    cases extract a.windows (some "OSQP".toList) f with
    | error e => exact ⟨e, rfl⟩
    | ok _ =>
      unfold second
      by_cases h1 : f.pChanges = true
      · exact ⟨_, if_pos h1⟩
      · rw [if_neg h1]
        by_cases h2 : f.pDiagonal = false
        · exact ⟨_, if_pos h2⟩
        · rw [if_neg h2]
          have h3 : f.dChanges = true := by
            rcases hr with h | h | h
            · exact absurd h h1
            · exact absurd h h2
            · exact h
          cases interfaceClass a.windows (resolve a).1 with
          | error e => exact ⟨e, rfl⟩
          | ok i =>
            simp only [h3, if_true]
            by_cases h4 : f.secondOk i = false
            · exact ⟨_, if_pos h4⟩
            · rw [if_neg h4]
              by_cases h5 : conesOk i (f.cones i) = false
              · exact ⟨_, if_pos h5⟩
              · exact ⟨_, if_neg h5⟩
  · intro i hi hc
    apply gen
    unfold canonicalization
    by_cases ht : twoStage a (resolve a).1 (resolve a).2 = true
    · simp only [ht, if_true]
      cases extract a.windows (some "OSQP".toList) f with
      | error e => exact ⟨e, rfl⟩
      | ok _ =>
        unfold second
        simp only [hi, hc, if_true]
        by_cases h1 : f.pChanges = true
        · exact ⟨_, if_pos h1⟩
        · rw [if_neg h1]
          by_cases h2 : f.pDiagonal = false
          · exact ⟨_, if_pos h2⟩
          · rw [if_neg h2]
            by_cases h4 : f.secondOk i = false
            · exact ⟨_, if_pos h4⟩
            · exact ⟨_, if_neg h4⟩
    · simp only [ht, if_false]
      exact (ext _).2 i hi hc

/-- Cones the interfaces do not support: SCS as embedded here has linear and second-order cones only, ECOS and QOCO have no
exponential cones. -/
inductive Unsupported : Iface → Cones → Prop where
  | scs_exp (c : Cones) : 0 < c.exp → Unsupported .scs c
  | scs_psd (c : Cones) : 0 < c.psd → Unsupported .scs c
  | scs_p3d (c : Cones) : 0 < c.p3d → Unsupported .scs c
  | ecos (c : Cones) : 0 < c.exp → Unsupported .ecos c
  | qoco (c : Cones) : 0 < c.exp → Unsupported .qoco c
  | qocogen (c : Cones) : 0 < c.exp → Unsupported .qocogen c

/-- C47 for cones: problems with unsupported cones are rejected and the folder is as before; the check itself passes exactly
if there are none. -/
theorem C47_cones (a : Args) (f : Facts) (i : Iface) :
    (interfaceClass a.windows (resolve a).1 = .ok i → Unsupported i (f.cones i) →
      Rejected a f ∧ (generate a f).2 = .before) ∧
    (∀ c, conesOk i c = true ↔ ¬ Unsupported i c) := by
  have key : ∀ c, conesOk i c = true ↔ ¬ Unsupported i c := by
    intro c
    constructor
    · intro h hu
      cases hu <;> simp [conesOk] at h <;> omega
    · intro h
      by_contra hc
      apply h
      cases i <;> simp only [conesOk, Bool.not_eq_true, Bool.not_eq_false', Bool.or_eq_true, decide_eq_true_eq,
        not_true_eq_false, Bool.true_eq_false] at hc
      all_goals first
        | exact .ecos _ hc
        | exact .qoco _ hc
        | exact .qocogen _ hc
        | (rcases hc with (hc | hc) | hc
           · exact .scs_exp _ hc
           · exact .scs_psd _ hc
           · exact .scs_p3d _ hc)
  refine ⟨fun hi hu => (C47_reasons a f).2.2.2 i hi ?_, key⟩
  cases h : conesOk i (f.cones i) with
  | false => rfl
  | true => exact absurd hu ((key _).1 h)

example : Unsupported .ecos ⟨1, 0, 0⟩ ∧ ¬ Unsupported .ecos ⟨0, 0, 0⟩ :=
  ⟨.ecos _ (by decide), fun h => by cases h; contradiction⟩

/-- Facts about a problem that everything accepts. -/
def goodFacts : Facts :=
  ⟨fun _ => true, true, fun _ => ⟨0, 0, 0⟩, false, false, true, fun _ => true, false, true, true, true⟩

example : Rejected ⟨some "SCS".toList, false, false, false⟩ { goodFacts with cones := fun _ => ⟨1, 0, 0⟩ } ∧
    ¬ Rejected ⟨some "SCS".toList, false, true, false⟩ goodFacts := by
  refine ⟨⟨.valueError, by rfl⟩, ?_⟩
  rintro ⟨e, he⟩
  revert he
  rw [show (generate ⟨some "SCS".toList, false, true, false⟩ goodFacts).1 = .ok () from by rfl]
  intro h
  cases h

/-- C47 fails in explicit mode: a problem whose matrix depends on a parameter is rejected after the folder
has been emptied. -/
theorem C47_fails : ∃ (a : Args) (f : Facts), Rejected a f ∧ (generate a f).2 = .emptied :=
  ⟨⟨some "explicit".toList, false, false, false⟩, { goodFacts with aChanges := true }, ⟨.valueError, by rfl⟩, by rfl⟩

end Verif.Props
