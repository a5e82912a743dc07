import Verif.Spec.Methods
/-! C79: the method that `problem.solve(method='CPG')` calls. -/
namespace Verif.Props
open Verif.Model Verif.Model.Methods Verif.Spec.Methods
variable {R : Type}

theorem readAll_ok (q : Prob R) : ∀ (l : List (String × Nat)) (vals : List (List R)), readAll q l = .ok vals ↔
    vals.length = l.length ∧ ∀ (i : Nat) n k, l[i]? = some (n, k) → ∃ p v, q.params.lookup n = some p ∧ send p k = .ok v ∧ vals[i]? = some v := by
  intro l
  induction l with
  | nil =>
    intro vals
    simp only [readAll, Except.ok.injEq, List.length_nil, List.length_eq_zero_iff, List.getElem?_nil, reduceCtorEq, false_implies, implies_true, and_true]
    exact eq_comm
  | cons a l ih =>
    intro vals
    obtain ⟨n, k⟩ := a
    have key : readAll q ((n, k) :: l) = .ok vals ↔ ∃ p v vs, q.params.lookup n = some p ∧ send p k = .ok v ∧ readAll q l = .ok vs ∧ vals = v :: vs := by
      rw [readAll]
      cases h1 : q.params.lookup n with
      | none => simp
      | some p =>
        cases h2 : send p k with
        | error e => simp [h2]
        | ok v =>
          cases h3 : readAll q l with
          | error e => simp [h2]
          | ok vs => simp [h2, eq_comm]
    rw [key]
    constructor
    · rintro ⟨p, v, vs, h1, h2, h3, rfl⟩
      obtain ⟨h4, h5⟩ := (ih vs).1 h3
      refine ⟨by simp [h4], fun i m j hi => ?_⟩
      cases i with
      | zero => simp only [List.getElem?_cons_zero, Option.some.injEq, Prod.mk.injEq] at hi; obtain ⟨rfl, rfl⟩ := hi; exact ⟨p, v, h1, h2, by simp⟩
      | succ i => simpa using h5 i m j (by simpa using hi)
    · rintro ⟨h1, h2⟩
      obtain ⟨p, v, h3, h4, h5⟩ := h2 0 n k (by simp)
      cases vals with
      | nil => simp at h1
      | cons w vs =>
        simp only [List.getElem?_cons_zero, Option.some.injEq] at h5
        subst h5
        refine ⟨p, w, vs, h3, h4, (ih vs).2 ⟨by simpa using h1, fun i m j hi => ?_⟩, rfl⟩
        have := h2 (i + 1) m j (by simpa using hi)
        simpa using this

theorem lookup_none {β : Type} (n : String) : ∀ l : List (String × β), l.lookup n = none ↔ n ∉ l.map Prod.fst := by
  intro l
  induction l with
  | nil => simp
  | cons a l ih =>
    rw [List.lookup_cons, List.map_cons, List.mem_cons, not_or]
    by_cases h : n = a.1
    · simp [h]
    · have : (n == a.1) = false := by simpa using h
      rw [this]
      simp [h, ih]

theorem setVar_names (vars : List (String × Option (List R))) (n : String) (x : List R) : (setVar vars n x).map Prod.fst = vars.map Prod.fst := by
  unfold setVar
  rw [List.map_map]
  apply List.map_congr_left
  intro v _
  by_cases h : v.1 = n <;> simp [h]

theorem setVar_lookup (vars : List (String × Option (List R))) (n m : String) (x : List R) :
    (setVar vars n x).lookup m = if m = n ∧ n ∈ vars.map Prod.fst then some (some x) else vars.lookup m := by
  induction vars with
  | nil => simp [setVar]
  | cons v vars ih =>
    unfold setVar at ih ⊢
    rw [List.map_cons, List.lookup_cons, List.lookup_cons, ih]
    by_cases h1 : v.1 = n
    · by_cases h2 : m = n
      · simp [h1, h2]
      · have : (m == n) = false := by simpa using h2
        simp [h1, h2, this]
    · by_cases h2 : m = v.1
      · have h3 : m ≠ n := fun h => h1 (h2 ▸ h)
        simp [h1, h2]
      · have : (m == v.1) = false := by simpa using h2
        have h4 : n ≠ v.1 := fun h => h1 h.symm
        simp only [h1, if_false, this, List.map_cons, List.mem_cons, h4, false_or]

/-- Saving the variables: everything but these stays, and it succeeds exactly if all are variables of the problem. -/
theorem mSaveVars_spec : ∀ (l : List (String × List R)) (q : Prob R),
    (saveVars q l).1.params = q.params ∧ (saveVars q l).1.duals = q.duals ∧ (saveVars q l).1.vars.map Prod.fst = q.vars.map Prod.fst ∧
    ((saveVars q l).2 = none ↔ ∀ e ∈ l, e.1 ∈ q.vars.map Prod.fst) ∧ ((saveVars q l).2 = none ∨ (saveVars q l).2 = some .keyError) ∧
    (∀ n, n ∉ l.map Prod.fst → (saveVars q l).1.vars.lookup n = q.vars.lookup n) := by
  intro l
  induction l with
  | nil => intro q; simp [saveVars]
  | cons a l ih =>
    intro q
    obtain ⟨n, x⟩ := a
    cases h : q.vars.lookup n with
    | none =>
      have hn := (lookup_none n q.vars).1 h
      have e : saveVars q ((n, x) :: l) = (q, some .keyError) := by simp only [saveVars, h]
      rw [e]
      refine ⟨rfl, rfl, rfl, ⟨fun h => (by cases h), fun hh => absurd (hh _ List.mem_cons_self) hn⟩, Or.inr rfl, fun _ _ => rfl⟩
    | some o =>
      have hn : n ∈ q.vars.map Prod.fst := by
        by_cases hc : n ∈ q.vars.map Prod.fst
        · exact hc
        · rw [(lookup_none n q.vars).2 hc] at h
          cases h
      simp only [saveVars, h]
      obtain ⟨h1, h2, h3, h4, h5, h6⟩ := ih { q with vars := setVar q.vars n x }
      refine ⟨h1, h2, h3.trans (setVar_names _ _ _), ?_, h5, ?_⟩
      · rw [h4]
        simp only [setVar_names, List.forall_mem_cons, hn, true_and]
      · intro m hm
        rw [List.map_cons, List.mem_cons, not_or] at hm
        rw [h6 m hm.2]
        simp only [setVar_lookup]
        rw [if_neg fun hc => hm.1 hc.1]

theorem mSaveVars_val : ∀ (l : List (String × List R)) (q : Prob R), (l.map Prod.fst).Nodup → (saveVars q l).2 = none →
    ∀ e ∈ l, (saveVars q l).1.vars.lookup e.1 = some (some e.2) := by
  intro l
  induction l with
  | nil => intro q _ _ e he; cases he
  | cons a l ih =>
    intro q hd hok e he
    obtain ⟨n, x⟩ := a
    rw [List.map_cons, List.nodup_cons] at hd
    have hn : n ∈ q.vars.map Prod.fst := (mSaveVars_spec _ q).2.2.2.1.1 hok _ List.mem_cons_self
    cases h : q.vars.lookup n with
    | none => exact absurd hn ((lookup_none n q.vars).1 h)
    | some o =>
      simp only [saveVars, h] at hok ⊢
      rcases List.mem_cons.1 he with rfl | he
      · rw [(mSaveVars_spec l _).2.2.2.2.2 n hd.1]
        simp only [setVar_lookup]
        rw [if_pos ⟨trivial, hn⟩]
      · exact ih _ hd.2 hok e he

theorem mSaveDuals_spec : ∀ (l : List (List R)) (q : Prob R) (i : Nat), i ≤ q.duals.length →
    (saveDuals q i l).1.params = q.params ∧ (saveDuals q i l).1.vars = q.vars ∧ (saveDuals q i l).1.duals.length = q.duals.length ∧
    ((saveDuals q i l).2 = none ↔ i + l.length ≤ q.duals.length) ∧
    (∀ k, k < q.duals.length → (saveDuals q i l).1.duals[k]? = if i ≤ k ∧ k < i + l.length then some l[k - i]? else q.duals[k]?) := by
  intro l
  induction l with
  | nil =>
    intro q i hi
    refine ⟨rfl, rfl, rfl, ⟨fun _ => hi, fun _ => rfl⟩, fun k hk => ?_⟩
    rw [if_neg (by simp only [List.length_nil]; omega)]
    rfl
  | cons y l ih =>
    intro q i hi
    by_cases hlt : i < q.duals.length
    · have hlen : (q.duals.set i (some y)).length = q.duals.length := List.length_set
      obtain ⟨h1, h2, h3, h4, h5⟩ := ih { q with duals := q.duals.set i (some y) } (i + 1) (by dsimp only; omega)
      have e : saveDuals q i (y :: l) = saveDuals { q with duals := q.duals.set i (some y) } (i + 1) l := by
        rw [saveDuals, if_pos hlt]
      rw [e]
      refine ⟨h1, h2, h3.trans hlen, ?_, ?_⟩
      · rw [h4, hlen, List.length_cons]; omega
      · intro k hk
        rw [h5 k (by dsimp only; omega)]
        by_cases hki : k = i
        · subst hki
          rw [if_neg (by omega), if_pos (by simp)]
          simp [hlt]
        · by_cases hc : i + 1 ≤ k ∧ k < i + 1 + l.length
          · rw [if_pos hc, if_pos (by simp only [List.length_cons]; omega)]
            have : k - i = (k - (i + 1)) + 1 := by omega
            rw [this, List.getElem?_cons_succ]
          · rw [if_neg hc, if_neg (by simp only [List.length_cons]; omega)]
            simp only [List.getElem?_set]
            rw [if_neg (fun h => hki h.symm)]
    · have e : saveDuals q i (y :: l) = (q, some .indexError) := by rw [saveDuals, if_neg hlt]
      rw [e]
      refine ⟨rfl, rfl, rfl, ⟨fun h => (by cases h), fun h => (by simp at h; omega)⟩, fun k hk => ?_⟩
      rw [if_neg (by omega)]

theorem send_fits (p : Param R) (k : Nat) (h : (p.size = 1 ∧ k = 1) ∨ (p.size ≠ 1 ∧ k ≠ 1 ∧ ∀ l, p.data = some l → l.length = k)) (l : List R)
    (hl : p.data = some l) : send p k = .ok l := by
  unfold send
  rw [hl]
  rcases h with ⟨h1, h2⟩ | ⟨h1, h2, h3⟩
  · simp [h1, h2]
  · simp only [h1, if_false]
    rw [if_pos ⟨h2, h3 l hl⟩]

theorem lookup_cleared {β : Type} (n : String) (o : Option β) : ∀ l : List (String × Option β),
    (l.map fun v => (v.1, (none : Option β))).lookup n = some o → o = none := by
  intro l
  induction l with
  | nil => intro h; cases h
  | cons v l ih =>
    intro h
    rw [List.map_cons, List.lookup_cons] at h
    split at h
    · cases h; rfl
    · exact ih h

/-- **C79, one call.** `cpg_solve` on a problem with the names and sizes of the code succeeds if the parameters have values; the problem then
holds the code's solution for these values and nothing else. -/
theorem C79_call (q : Prob R) (c : Code R) (hf : Fits q c) (vals : List (List R)) (hv : Values q c vals) :
    (cpgSolve c q).2 = none ∧ Holds q (cpgSolve c q).1 c.vars (c.solution vals).1 (c.solution vals).2 := by
  have hread : readAll q c.params = .ok vals := by
    rw [readAll_ok]
    refine ⟨hv.1, fun i n k hi => ?_⟩
    obtain ⟨p, l, h1, h2, h3⟩ := hv.2 i n k hi
    obtain ⟨p', h4, h5⟩ := hf.params n k (List.mem_of_getElem? hi)
    rw [h1] at h4
    cases h4
    exact ⟨p, l, h1, send_fits p k h5 l h2, h3⟩
  have hnames : (c.vars.zip (c.solution vals).1).map Prod.fst = c.vars := by
    rw [List.map_fst_zip]
    rw [hf.primSize]
    exact Nat.le_refl _
  have hclear : (clear q).vars.map Prod.fst = q.vars.map Prod.fst := by
    unfold clear; simp
  obtain ⟨h1, h2, h3, h4, _, h6⟩ := mSaveVars_spec (c.vars.zip (c.solution vals).1) (clear q)
  have hok : (saveVars (clear q) (c.vars.zip (c.solution vals).1)).2 = none := by
    rw [h4]
    intro e he
    rw [hclear]
    exact hf.vars _ (by rw [← hnames]; exact List.mem_map_of_mem he)
  have hval := mSaveVars_val _ (clear q) (by rw [hnames]; exact hf.nodup) hok
  have e : cpgSolve c q = saveDuals (saveVars (clear q) (c.vars.zip (c.solution vals).1)).1 0 ((c.solution vals).2.take c.nDuals) := by
    unfold cpgSolve
    rw [hread]
    dsimp only
    generalize saveVars (clear q) (c.vars.zip (c.solution vals).1) = z at hok
    obtain ⟨z1, z2⟩ := z
    cases hok
    rfl
  have htake : (c.solution vals).2.take c.nDuals = (c.solution vals).2 := by rw [← hf.dualSize vals, List.take_length]
  have hdl : (saveVars (clear q) (c.vars.zip (c.solution vals).1)).1.duals.length = q.duals.length := by rw [h2]; unfold clear; simp
  rw [e, htake]
  obtain ⟨d1, d2, d3, d4, d5⟩ := mSaveDuals_spec (c.solution vals).2 (saveVars (clear q) (c.vars.zip (c.solution vals).1)).1 0 (Nat.zero_le _)
  refine ⟨d4.2 (by rw [hf.dualSize, hdl]; simpa using hf.duals), ⟨d1.trans (h1.trans rfl), ?_, ?_, ?_, d3.trans hdl, ?_⟩⟩
  · rw [d2, h3, hclear]
  · intro i n hi
    have hlt : i < (c.solution vals).1.length := by
      rw [hf.primSize]
      exact (List.getElem?_eq_some_iff.1 hi).1
    refine ⟨(c.solution vals).1[i], List.getElem?_eq_getElem hlt, ?_⟩
    rw [d2]
    refine hval (n, (c.solution vals).1[i]) ?_
    rw [List.mem_iff_getElem?]
    exact ⟨i, by rw [List.getElem?_zip_eq_some]; exact ⟨hi, List.getElem?_eq_getElem hlt⟩⟩
  · intro n o hn ho
    rw [d2, h6 n (by rw [hnames]; exact hn)] at ho
    unfold clear at ho
    dsimp only at ho
    exact lookup_cleared n o q.vars ho
  · intro i hi
    rw [d5 i (by rw [hdl]; exact hi)]
    split
    · simp
    · next hc =>
      have hge : (c.solution vals).2.length ≤ i := by omega
      rw [List.getElem?_eq_none hge, h2]
      unfold clear
      simp [hi]

theorem run_append (s : Process R) (l r : List (Op R)) : Methods.run s (l ++ r) = Methods.run (Methods.run s l) r := by
  unfold Methods.run
  exact List.foldl_append

theorem run_methods (name : String) : ∀ (r : List (Op R)) (s : Process R), (∀ j d, Op.register j name d ∉ r) →
    (Methods.run s r).methods name = s.methods name := by
  intro r
  induction r with
  | nil => intro s _; rfl
  | cons o r ih =>
    intro s h
    have e : Methods.run s (o :: r) = Methods.run (Methods.step s o).1 r := rfl
    rw [e, ih _ fun j d hm => h j d (List.mem_cons_of_mem _ hm)]
    cases o with
    | register j m d =>
      have hne : name ≠ m := fun hc => h j d (by rw [hc]; exact List.mem_cons_self)
      simp only [Methods.step]
      rw [if_neg hne]
    | assign i n l => rfl
    | solve i m =>
      simp only [Methods.step]
      split <;> rfl

/-- **C79, what a name stands for.** After any history, the method of a name is the function stored last under it, whatever the problem. -/
theorem C79_last (s : Process R) (ops : List (Op R)) (name : String) (i : Nat) (c : Code R) (h : LastRegistered ops name i c) :
    (Methods.run s ops).methods name = some c := by
  obtain ⟨l, r, rfl, hr⟩ := h
  have e : l ++ Op.register i name c :: r = (l ++ [Op.register i name c]) ++ r := by simp
  rw [e, run_append, run_methods name r _ hr, run_append]
  simp [Methods.run, Methods.step]

/-- **C79, the problem whose code was stored last.** After any history in which the last function stored under the name is that of the code of
the problem, `problem.solve(method=name)` succeeds; the problem holds the solution of its own code for its current values, and no other
problem changes. -/
theorem C79_partial (own : Nat → Code R) (s : Process R) (ops : List (Op R)) (name : String) (i : Nat) (ho : Owned own ops)
    (h : ∃ c, LastRegistered ops name i c) (q : Prob R) (hq : (Methods.run s ops).probs[i]? = some q) (hf : Fits q (own i)) (vals : List (List R))
    (hv : Values q (own i) vals) :
    (Methods.step (Methods.run s ops) (.solve i name)).2 = none ∧
    ∃ q', (Methods.step (Methods.run s ops) (.solve i name)).1.probs[i]? = some q' ∧
      Holds q q' (own i).vars ((own i).solution vals).1 ((own i).solution vals).2 ∧
      ∀ k, k ≠ i → (Methods.step (Methods.run s ops) (.solve i name)).1.probs[k]? = (Methods.run s ops).probs[k]? := by
  obtain ⟨c, hc⟩ := h
  have hm := C79_last s ops name i c hc
  obtain ⟨l, r, he, _⟩ := hc
  have hown : c = own i := ho i name c (by rw [he]; simp)
  subst hown
  obtain ⟨h1, h2⟩ := C79_call q (own i) hf vals hv
  simp only [Methods.step, hm, hq]
  refine ⟨h1, _, ?_, h2, ?_⟩
  · rw [List.getElem?_set]
    rw [if_pos rfl, if_pos (List.getElem?_eq_some_iff.1 hq).1]
  · intro k hk
    rw [List.getElem?_set, if_neg fun hh => hk hh.symm]

/-- **C79, own names.** A name under which functions are stored for one problem only stands for the code of that problem. -/
theorem C79_own_name (ops : List (Op R)) (name : String) (i : Nat) (hone : ∃ c, Op.register i name c ∈ ops)
    (honly : ∀ j c, Op.register j name c ∈ ops → j = i) : ∃ c, LastRegistered ops name i c := by
  suffices hs : ∀ ops : List (Op R), (∃ j c, Op.register j name c ∈ ops) → ∃ j c, LastRegistered ops name j c by
    obtain ⟨c, hc⟩ := hone
    obtain ⟨j, d, hj⟩ := hs ops ⟨i, c, hc⟩
    obtain ⟨l, r, he, hr⟩ := hj
    have hji : j = i := honly j d (by rw [he]; simp)
    subst hji
    exact ⟨d, l, r, he, hr⟩
  intro ops
  induction ops with
  | nil => rintro ⟨j, c, h⟩; cases h
  | cons o l ih =>
    rintro ⟨j, c, h⟩
    by_cases hl : ∃ j c, Op.register j name c ∈ l
    · obtain ⟨k, d, a, b, he, hb⟩ := ih hl
      exact ⟨k, d, o :: a, b, by rw [he]; rfl, hb⟩
    · rcases List.mem_cons.1 h with h | h
      · exact ⟨j, c, [], l, by rw [h]; rfl, fun k d hk => hl ⟨k, d, hk⟩⟩
      · exact absurd ⟨j, c, h⟩ hl

/-- **C79 fails in general.** If the last function stored under the name is that of another problem's code, whose names and sizes fit, then
`problem.solve(method=name)` succeeds without a message, and the problem holds the solution of the other problem. -/
theorem C79_fails (own : Nat → Code R) (s : Process R) (ops : List (Op R)) (name : String) (i j : Nat) (ho : Owned own ops)
    (h : ∃ c, LastRegistered ops name j c) (q : Prob R) (hq : (Methods.run s ops).probs[i]? = some q) (hf : Fits q (own j)) (vals : List (List R))
    (hv : Values q (own j) vals) :
    (Methods.step (Methods.run s ops) (.solve i name)).2 = none ∧
    ∃ q', (Methods.step (Methods.run s ops) (.solve i name)).1.probs[i]? = some q' ∧
      Holds q q' (own j).vars ((own j).solution vals).1 ((own j).solution vals).2 := by
  obtain ⟨c, hc⟩ := h
  have hm := C79_last s ops name j c hc
  obtain ⟨l, r, he, _⟩ := hc
  have hown : c = own j := ho j name c (by rw [he]; simp)
  subst hown
  obtain ⟨h1, h2⟩ := C79_call q (own j) hf vals hv
  simp only [Methods.step, hm, hq]
  refine ⟨h1, _, ?_, h2⟩
  rw [List.getElem?_set]
  rw [if_pos rfl, if_pos (List.getElem?_eq_some_iff.1 hq).1]

/-- **C79, what is sent.** The value of a parameter is sent exactly if there is one and it has the size of the code: a number for a number, a list
for an array of that length. -/
theorem C79_sends (p : Param R) (k : Nat) (l : List R) :
    send p k = .ok l ↔ p.data = some l ∧ ((p.size = 1 ∧ k = 1) ∨ (p.size ≠ 1 ∧ k ≠ 1 ∧ l.length = k)) := by
  constructor
  · intro h
    unfold send at h
    cases hd : p.data with
    | none => rw [hd] at h; cases h
    | some l' =>
      rw [hd] at h
      simp only at h
      split at h
      · rename_i h1
        split at h
        · rename_i h2; cases h; exact ⟨rfl, Or.inl ⟨h1, h2⟩⟩
        · cases h
      · rename_i h1
        split at h
        · rename_i h2; cases h; exact ⟨rfl, Or.inr ⟨h1, h2.1, h2.2⟩⟩
        · cases h
  · rintro ⟨h1, h2⟩
    refine send_fits p k ?_ l h1
    rcases h2 with h2 | ⟨h2, h3, h4⟩
    · exact Or.inl h2
    · exact Or.inr ⟨h2, h3, fun l' h => by rw [h1] at h; cases h; exact h4⟩

/-- Any other value is an error before anything of the problem changes. -/
theorem C79_wrong_size (q : Prob R) (c : Code R) (n : String) (k : Nat) (hm : (n, k) ∈ c.params) (p : Param R) (hp : q.params.lookup n = some p)
    (h : p.data = none ∨ (p.size = 1 ∧ k ≠ 1) ∨ (p.size ≠ 1 ∧ (k = 1 ∨ ∀ l, p.data = some l → l.length ≠ k))) : ∃ e, cpgSolve c q = (q, some e) := by
  unfold cpgSolve
  cases hr : readAll q c.params with
  | error e => exact ⟨e, rfl⟩
  | ok vals =>
    exfalso
    obtain ⟨i, hi⟩ := List.mem_iff_getElem?.1 hm
    obtain ⟨p', v, h1, h2, _⟩ := ((readAll_ok q _ vals).1 hr).2 i n k hi
    rw [hp] at h1
    cases h1
    obtain ⟨h3, h4⟩ := (C79_sends p k v).1 h2
    rcases h with h | ⟨h, h'⟩ | ⟨h, h'⟩
    · rw [h3] at h; cases h
    · rcases h4 with ⟨_, h4⟩ | ⟨h4, _⟩
      · exact h' h4
      · exact h4 h
    · rcases h4 with ⟨h4, _⟩ | ⟨_, h4, h5⟩
      · exact h h4
      · rcases h' with h' | h'
        · exact h4 h'
        · exact h' v h3 h5

/-- **C79, other names: parameters.** A parameter of the code that the problem does not have, or whose value is missing or has another size,
is an error before anything of the problem changes. -/
theorem C79_missing_param (q : Prob R) (c : Code R) (n : String) (k : Nat) (hm : (n, k) ∈ c.params)
    (h : ∀ p, q.params.lookup n = some p → ∀ v, send p k ≠ .ok v) : ∃ e, cpgSolve c q = (q, some e) := by
  unfold cpgSolve
  cases hr : readAll q c.params with
  | error e => exact ⟨e, rfl⟩
  | ok vals =>
    obtain ⟨i, hi⟩ := List.mem_iff_getElem?.1 hm
    obtain ⟨p, v, h1, h2, _⟩ := ((readAll_ok q _ vals).1 hr).2 i n k hi
    exact absurd h2 (h p h1 v)

/-- **C79, other names: variables.** If the parameters fit and a variable of the code is not one of the problem, the call ends with a
`KeyError` after the solution that the problem held is cleared: no constraint has a dual value. -/
theorem C79_missing_var (q : Prob R) (c : Code R) (vals : List (List R)) (hr : readAll q c.params = .ok vals)
    (hl : (c.solution vals).1.length = c.vars.length) (n : String) (hn : n ∈ c.vars) (hm : n ∉ q.vars.map Prod.fst) :
    (cpgSolve c q).2 = some .keyError ∧ (cpgSolve c q).1.params = q.params ∧ ∀ d ∈ (cpgSolve c q).1.duals, d = none := by
  obtain ⟨h1, h2, _, h4, h5, _⟩ := mSaveVars_spec (c.vars.zip (c.solution vals).1) (clear q)
  have hnames : (c.vars.zip (c.solution vals).1).map Prod.fst = c.vars := by
    rw [List.map_fst_zip]
    rw [hl]
    exact Nat.le_refl _
  have herr : (saveVars (clear q) (c.vars.zip (c.solution vals).1)).2 = some .keyError := by
    rcases h5 with h5 | h5
    · exfalso
      rw [← hnames, List.mem_map] at hn
      obtain ⟨e, he, rfl⟩ := hn
      have := h4.1 h5 e he
      have hclear : (clear q).vars.map Prod.fst = q.vars.map Prod.fst := by unfold clear; simp
      rw [hclear] at this
      exact hm this
    · exact h5
  have e : cpgSolve c q = saveVars (clear q) (c.vars.zip (c.solution vals).1) := by
    unfold cpgSolve
    rw [hr]
    dsimp only
    generalize saveVars (clear q) (c.vars.zip (c.solution vals).1) = z at herr
    obtain ⟨z1, z2⟩ := z
    cases herr
    rfl
  rw [e]
  refine ⟨herr, h1, ?_⟩
  rw [h2]
  intro d hd
  unfold clear at hd
  simp only [List.mem_map] at hd
  obtain ⟨_, _, rfl⟩ := hd
  rfl

/-! Two problems with a parameter `b` and a variable `x`: `x` equals `b` in one, `-b` in the other. -/

def mProb (b : Int) : Prob Int := ⟨[("b", ⟨1, .plain, some [b]⟩)], [("x", none)], [none]⟩
def mOwn (i : Nat) : Code Int := ⟨[("b", 1)], ["x"], 1, fun v => ([((v.headD []).map ((if i = 0 then 1 else -1) * ·))], [[0]])⟩

theorem mFits (b : Int) (i : Nat) : Fits (mProb b) (mOwn i) := by
  refine ⟨?_, ?_, ?_, ?_, fun _ => rfl, fun _ => rfl⟩
  · intro n k h
    simp only [mOwn, List.mem_singleton, Prod.mk.injEq] at h
    obtain ⟨rfl, rfl⟩ := h
    exact ⟨_, rfl, Or.inl ⟨rfl, rfl⟩⟩
  · intro n h
    simpa [mOwn, mProb] using h
  · simp [mOwn]
  · simp [mOwn, mProb]

theorem mValues (b : Int) (i : Nat) : Values (mProb b) (mOwn i) [[b]] := by
  refine ⟨rfl, ?_⟩
  intro k n j h
  cases k with
  | zero =>
    simp only [mOwn, List.getElem?_cons_zero, Option.some.injEq, Prod.mk.injEq] at h
    obtain ⟨rfl, rfl⟩ := h
    exact ⟨_, [b], rfl, rfl, rfl⟩
  | succ k => simp [mOwn] at h

def mState : Process Int := ⟨[mProb 3, mProb 5], fun _ => none⟩
def mOps : List (Op Int) := [.register 0 "CPG" (mOwn 0), .register 1 "CPG" (mOwn 1)]

theorem mOwned : Owned mOwn mOps := by
  intro i name c h
  simp only [mOps, List.mem_cons, Op.register.injEq, List.not_mem_nil, or_false] at h
  rcases h with ⟨rfl, _, rfl⟩ | ⟨rfl, _, rfl⟩ <;> rfl

/-- The hypotheses of `C79_partial` and of `C79_fails` hold after code was generated for two problems. -/
example : Owned mOwn mOps ∧ (∃ c, LastRegistered mOps "CPG" 1 c) ∧ (Methods.run mState mOps).probs[1]? = some (mProb 5) ∧
    (Methods.run mState mOps).probs[0]? = some (mProb 3) ∧ Fits (mProb 5) (mOwn 1) ∧ Fits (mProb 3) (mOwn 1) :=
  ⟨mOwned, ⟨_, [_], [], rfl, fun _ _ h => by cases h⟩, rfl, rfl, mFits 5 1, mFits 3 1⟩

/-- **C79 fails: two problems.** Code is generated for two problems with the same names. Solving the first with its method stores the solution
of the second: `-3` where its own code finds `3`; no error. With names of their own, both find theirs. -/
theorem C79_fails_two :
    let wrong := Methods.step (Methods.run mState mOps) (.solve 0 "CPG")
    let right := Methods.step (Methods.run mState [.register 0 "CPG_0" (mOwn 0), .register 1 "CPG_1" (mOwn 1)]) (.solve 0 "CPG_0")
    wrong.2 = none ∧ wrong.1.probs.map Prob.vars = [[("x", some [-3])], [("x", none)]] ∧
    right.2 = none ∧ right.1.probs.map Prob.vars = [[("x", some [3])], [("x", none)]] := by decide

/-- A parameter or a variable that the problem does not have. -/
example : (∃ e, cpgSolve (mOwn 0) (⟨[("c", ⟨1, .plain, some [1]⟩)], [("x", some [7])], [none]⟩ : Prob Int) =
      (⟨[("c", ⟨1, .plain, some [1]⟩)], [("x", some [7])], [none]⟩, some e)) ∧
    (cpgSolve (mOwn 0) (⟨[("b", ⟨1, .plain, some [1]⟩)], [("y", some [7])], [some [2]]⟩ : Prob Int)).2 = some .keyError :=
  ⟨C79_missing_param _ _ "b" 1 (by simp [mOwn]) (by intro p h; cases h),
   (C79_missing_var _ _ [[1]] rfl rfl "x" (by simp [mOwn]) (by simp)).1⟩

/-- A vector where the code has a number. -/
example : (∃ e, cpgSolve (mOwn 0) (⟨[("b", ⟨2, .plain, some [1, 2]⟩)], [("x", some [7])], [none]⟩ : Prob Int) =
    (⟨[("b", ⟨2, .plain, some [1, 2]⟩)], [("x", some [7])], [none]⟩, some e)) :=
  C79_wrong_size _ _ "b" 1 (by simp [mOwn]) _ rfl (Or.inr (Or.inr ⟨by decide, Or.inl rfl⟩))

end Verif.Props
