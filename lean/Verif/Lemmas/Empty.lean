import Verif.Lemmas.Trace
import Verif.Spec.Empty
/-!
Which update functions are ever called, and what they refer to.
-/
namespace Verif.Lemmas.Empty
open Verif.Model Verif.Spec Verif.Lemmas
open Verif.Model.Empty
open Verif.Spec.Empty (Has Delivered Present NoNull)

variable {Θ V Act : Type}

/-- What every possible call preserves, the block preserves. -/
theorem run_pres (g : Gen Θ V Act) (sv : Solver) (pus : Pus) (never : List CId) (Q : Mem Θ V → Prop)
    (h : ∀ f m, (pus.lookup f).isSome = true → never.contains f = false → Q m → Q (doCall g sv f m)) :
    ∀ fuel, (∀ ofs m, Q m → Q (run (fireOf evMem) (doCall g sv) pus never fuel ofs m)) ∧
      (∀ f m, Q m → Q (runFn g sv pus never fuel f m)) := by
  have hfn : ∀ fuel, (∀ ofs m, Q m → Q (run (fireOf evMem) (doCall g sv) pus never fuel ofs m)) →
      (∀ f m, Q m → Q (runFn g sv pus never fuel f m)) := by
    intro fuel hrun f m hq
    unfold runFn
    cases hl : pus.lookup f with
    | none => exact hq
    | some lg =>
      simp only []
      split
      · exact hrun _ _ hq
      · rename_i hn
        split
        · exact h f m (by rw [hl]; rfl) (by simpa using hn) hq
        · exact hrun _ _ hq
  intro fuel
  induction fuel with
  | zero =>
    have : ∀ ofs m, Q m → Q (run (fireOf evMem) (doCall g sv) pus never 0 ofs m) := by
      intro ofs m hq; cases ofs <;> exact hq
    exact ⟨this, hfn 0 this⟩
  | succ fuel ih =>
    have hl : ∀ (fs : List CId) (m : Mem Θ V), Q m → Q (fs.foldl (fun m f => runFn g sv pus never fuel f m) m) := by
      intro fs
      induction fs with
      | nil => intro m hq; exact hq
      | cons f fs ihl => intro m hq; exact ihl _ (ih.2 f m hq)
    have : ∀ ofs m, Q m → Q (run (fireOf evMem) (doCall g sv) pus never (fuel + 1) ofs m) := by
      intro ofs m hq
      cases ofs with
      | none => exact hq
      | some fs => rw [run_succ]; exact hl _ m hq
    exact ⟨this, hfn _ this⟩

/-- Properties of the calls made and the state of initialisation are preserved by histories. -/
theorem history_pres (g : Gen Θ V Act) (sv : Solver) (never order : List CId) (Q : Bool → List CId → Prop)
    (h : ∀ f m, ((norm g.quad sv.pus).lookup f).isSome = true → never.contains f = false → Q m.inited m.calls →
      Q (doCall g sv f m).inited (doCall g sv f (m : Mem Θ V)).calls)
    (toks : List Tok)
    (ht : ∀ s : Mem Θ V, execText evMem (doCall g sv) toks s
        = some (run (fireOf evMem) (doCall g sv) (norm g.quad sv.pus) never genFuel (some order) s)) :
    ∀ (cs : List (Call Act)) (m m' : Mem Θ V) (os : List (Obs V)), Q m.inited m.calls →
      g.runCalls sv toks m cs = some (m', os) → Q m'.inited m'.calls := by
  intro cs
  induction cs with
  | nil =>
    intro m m' os hq h; simp only [Gen.runCalls, Option.some.injEq, Prod.mk.injEq] at h
    rw [← h.1]; exact hq
  | cons c cs ih =>
    intro m m' os hq hr
    cases c with
    | update a => exact ih (g.update a m) m' os hq hr
    | solve =>
      simp only [Gen.runCalls, Gen.solve] at hr
      rw [ht] at hr
      simp only [] at hr
      split at hr
      · cases hr
      · rename_i m1 os1 h1
        simp only [Option.some.injEq, Prod.mk.injEq] at hr
        rw [← hr.1]
        refine ih _ _ _ ?_ h1
        exact (run_pres g sv _ never (fun m => Q m.inited m.calls) h genFuel).1 (some order) _ hq

/-- After a history with a solve the solver is initialised. -/
theorem history_inited (g : Gen Θ V Act) (sv : Solver) (roots never order : List CId)
    (hf : StaticFacts sv g.quad g.changes roots never) (hperm : order.Perm roots) (toks : List Tok)
    (ht : ∀ s : Mem Θ V, execText evMem (doCall g sv) toks s
        = some (run (fireOf evMem) (doCall g sv) (norm g.quad sv.pus) never genFuel (some order) s)) :
    ∀ (cs : List (Call Act)) (m m' : Mem Θ V) (os : List (Obs V)), (sv.static = true → m.inited = true) →
      (m.inited = true ∨ Call.solve ∈ cs) → g.runCalls sv toks m cs = some (m', os) → m'.inited = true := by
  intro cs
  induction cs with
  | nil =>
    intro m m' os hs hq h; simp only [Gen.runCalls, Option.some.injEq, Prod.mk.injEq] at h
    rw [← h.1]
    rcases hq with hq | hq
    · exact hq
    · cases hq
  | cons c cs ih =>
    intro m m' os hs hq hr
    cases c with
    | update a =>
      refine ih (g.update a m) m' os hs ?_ hr
      rcases hq with hq | hq
      · exact .inl hq
      · right
        rcases List.mem_cons.mp hq with h | h
        · cases h
        · exact h
    | solve =>
      simp only [Gen.runCalls, Gen.solve] at hr
      rw [ht] at hr
      simp only [] at hr
      split at hr
      · cases hr
      · rename_i m1 os1 h1
        simp only [Option.some.injEq, Prod.mk.injEq] at hr
        rw [← hr.1]
        have hb := block_ok g sv roots never order _ hperm hf.cov hf.eff hf.ini hf.one (g.canonicalize m) hs
        have hi : (g.resetFlags (run (fireOf evMem) (doCall g sv) (norm g.quad sv.pus) never genFuel (some order)
            (g.canonicalize m))).inited = true := hb.inited
        exact ih _ _ _ (fun _ => hi) (.inl hi) h1

theorem copy_follow {d : Data} {i id : CId} (h : Use.follow id ∈ copy d i) : id = i ∧ ∃ n, d.len id = some n ∧ 1 < n := by
  unfold copy at h
  split at h
  · cases h
  · rename_i n hn
    split at h
    · simp at h
    · split at h
      · rename_i hn1
        simp only [List.mem_singleton, Use.follow.injEq] at h
        subst h
        exact ⟨rfl, n, hn, hn1⟩
      · cases h

theorem copyAll_follow {d : Data} {id : CId} (h : Use.follow id ∈ copyAll d) : ∃ n, d.len id = some n ∧ 1 < n := by
  unfold copyAll at h
  obtain ⟨i, _, hi⟩ := List.mem_flatMap.mp h
  exact (copy_follow hi).2

/-- The ids that have to change for a function to be written. -/
def needs : Kind → CId → List CId
  | .osqp, .PA => [.P, .A]
  | .osqp, .P | .clarabel, .P | .qocogen, .P | .qoco, .P => [.P]
  | .osqp, .A | .clarabel, .A | .qocogen, .A | .qoco, .A => [.A]
  | .qocogen, .G | .qoco, .G => [.G]
  | _, _ => []

theorem noNull_append {d : Data} {a b : List Use} : NoNull d (a ++ b) ↔ NoNull d a ∧ NoNull d b := by
  unfold NoNull
  constructor
  · intro h
    exact ⟨fun id hi => h id (List.mem_append_left _ hi), fun id hi => h id (List.mem_append_right _ hi)⟩
  · rintro ⟨h1, h2⟩ id hi
    rcases List.mem_append.mp hi with h | h
    · exact h1 id h
    · exact h2 id h

theorem noNull_nil {d : Data} : NoNull d [] := by intro id h; cases h

theorem noNull_follow {d : Data} {id : CId} {l : List Use} : NoNull d (.follow id :: l) ↔ d.len id ≠ some 0 ∧ NoNull d l := by
  unfold NoNull
  constructor
  · intro h
    exact ⟨h id (List.mem_cons_self ..), fun i hi => h i (List.mem_cons_of_mem _ hi)⟩
  · rintro ⟨h1, h2⟩ i hi
    rcases List.mem_cons.mp hi with h | h
    · rw [Use.follow.injEq] at h; rw [h]; exact h1
    · exact h2 i h

theorem noNull_pass {d : Data} {id : CId} {l : List Use} : NoNull d (.pass id :: l) ↔ NoNull d l := by
  unfold NoNull
  constructor
  · intro h i hi; exact h i (List.mem_cons_of_mem _ hi)
  · intro h i hi
    rcases List.mem_cons.mp hi with h' | h'
    · cases h'
    · exact h i h'

theorem noNull_name {d : Data} {id : CId} {l : List Use} : NoNull d (.name id :: l) ↔ NoNull d l := by
  unfold NoNull
  constructor
  · intro h i hi; exact h i (List.mem_cons_of_mem _ hi)
  · intro h i hi
    rcases List.mem_cons.mp hi with h' | h'
    · cases h'
    · exact h i h'

theorem noNull_copy (d : Data) (i : CId) : NoNull d (copy d i) := by
  intro id h h0
  obtain ⟨_, n, hn, h1⟩ := copy_follow h
  rw [hn] at h0
  simp only [Option.some.injEq] at h0
  omega

theorem noNull_copyAll (d : Data) : NoNull d (copyAll d) := by
  intro id h h0
  obtain ⟨n, hn, h1⟩ := copyAll_follow h
  rw [hn] at h0
  simp only [Option.some.injEq] at h0
  omega

theorem noNull_flatMap {d : Data} {α : Type} {l : List α} {u : α → List Use} :
    NoNull d (l.flatMap u) ↔ ∀ a ∈ l, NoNull d (u a) := by
  unfold NoNull
  constructor
  · intro h a ha id hi; exact h id (List.mem_flatMap.mpr ⟨a, ha, hi⟩)
  · intro h id hi
    obtain ⟨a, ha, hi'⟩ := List.mem_flatMap.mp hi
    exact h a ha id hi'

theorem noNull_ite {d : Data} {c : Prop} [Decidable c] {a b : List Use} :
    NoNull d (if c then a else b) ↔ (c → NoNull d a) ∧ (¬c → NoNull d b) := by
  split <;> simp_all

theorem has_iff {d : Data} {id : CId} (h : (d.len id).isSome = true) : Has d id ↔ d.len id ≠ some 0 := by
  obtain ⟨n, hn⟩ := Option.isSome_iff_exists.mp h
  unfold Has
  rw [hn]
  simp only [Option.some.injEq, exists_eq_left', ne_eq]
  omega

theorem has_ne {d : Data} {id : CId} (h : Has d id) : d.len id ≠ some 0 := by
  obtain ⟨n, hn, h1⟩ := h
  rw [hn]
  simp only [Option.some.injEq, ne_eq]
  omega

/-- What `init` needs. -/
theorem init_iff (k : Kind) (quad lp : Bool) {d : Data} (hp : k.possible quad lp = true) (hd : Delivered k quad lp d) :
    NoNull d (initUses k lp d) ↔ Present k lp d := by
  cases k with
  | osqp => simp [initUses, Present, noNull_nil]
  | scs => simp [initUses, Present, noNull_nil]
  | qocogen => simp [initUses, Present, noNull_nil]
  | ecos =>
    have hq : quad = false := by simpa [Kind.possible] using hp
    subst hq
    have hG := has_iff (hd.all .G (by decide) (by decide))
    have hA := has_iff (hd.all .A (by decide) (by decide))
    simp only [initUses, Present, noNull_append, noNull_copyAll, noNull_follow, noNull_pass, noNull_nil, noNull_ite, hG, hA, true_and,
      and_true, implies_true, Nat.pos_iff_ne_zero, ne_eq]
  | clarabel =>
    have hA := has_iff (hd.all .A (by cases quad <;> decide) (by decide))
    cases lp with
    | true => simp [initUses, Present, noNull_append, noNull_copyAll, noNull_follow, noNull_nil, hA]
    | false =>
      have hq : quad = true := by simpa [Kind.possible] using hp
      subst hq
      have hP := has_iff ((hd.P (by decide)).mpr rfl)
      simp only [initUses, Present, noNull_append, noNull_copyAll, noNull_follow, noNull_nil, hA, hP, true_and, and_true, Bool.false_eq_true,
        if_false, true_implies]
      exact And.comm
  | qoco =>
    have hA := has_iff (hd.all .A (by cases quad <;> decide) (by decide))
    have hG := has_iff (hd.all .G (by cases quad <;> decide) (by decide))
    have hP : lp = false → (Has d .P ↔ d.len .P ≠ some 0) := by
      intro hl
      have hq : quad = true := by simpa [Kind.possible, hl] using hp
      subst hq
      exact has_iff ((hd.P (by decide)).mpr hl)
    cases lp with
    | true =>
      simp only [initUses, Present, noNull_append, noNull_copyAll, noNull_follow, noNull_pass, noNull_nil, noNull_ite, hA, hG, if_true, true_and,
        and_true, implies_true, Bool.true_eq_false, false_implies]
    | false =>
      simp only [initUses, Present, noNull_append, noNull_copyAll, noNull_follow, noNull_pass, noNull_nil, noNull_ite, hA, hG, hP rfl,
        Bool.false_eq_true, if_false, true_and, and_true, implies_true, true_implies, and_assoc]

/-- A call follows no null pointer if what is present at initialisation is and the ids it is called for have entries. -/
theorem call_ok (k : Kind) (quad lp : Bool) {d : Data} (hp : k.possible quad lp = true) (hd : Delivered k quad lp d)
    (hpr : Present k lp d) (f : CId) (hn : ∀ id ∈ needs k f, Has d id) : NoNull d (callUses k lp d f) := by
  have hi := (init_iff k quad lp hp hd).mpr hpr
  have ch : ∀ id, id ∈ needs k f → d.len id ≠ some 0 := fun id h => has_ne (hn id h)
  cases k with
  | osqp =>
    cases f <;> simp only [callUses, noNull_follow, noNull_pass, noNull_nil, and_true] <;>
      first | exact hi | trivial | exact ch _ (by decide) | exact ⟨ch _ (by decide), ch _ (by decide)⟩
  | scs =>
    cases f <;> simp only [callUses, noNull_pass, noNull_nil] <;> exact hi
  | ecos =>
    have hq : quad = false := by simpa [Kind.possible] using hp
    subst hq
    have hc := hd.q .c (.inr rfl) (by decide)
    have hh := hd.h (by decide)
    cases f <;> simp only [callUses, noNull_nil]
    case init => exact hi
    case AbcGh => exact hi
    case c =>
      rw [noNull_append]
      refine ⟨noNull_copy _ _, ?_⟩
      rw [noNull_ite]
      refine ⟨fun h => ?_, fun _ => noNull_nil⟩
      rw [noNull_follow, hc]
      exact ⟨by simp only [ne_eq, Option.some.injEq]; omega, noNull_nil⟩
    case h =>
      rw [noNull_append]
      refine ⟨noNull_copy _ _, ?_⟩
      rw [noNull_ite]
      refine ⟨fun h => ?_, fun _ => noNull_nil⟩
      rw [noNull_follow, hh]
      exact ⟨by simp only [ne_eq, Option.some.injEq]; omega, noNull_nil⟩
  | clarabel =>
    cases f <;> simp only [callUses, noNull_append, noNull_copy, noNull_follow, noNull_pass, noNull_nil, and_true, true_and] <;>
      first | exact hi | trivial | exact ch _ (by decide)
  | qocogen =>
    cases f <;> simp only [callUses, noNull_follow, noNull_pass, noNull_nil, and_true] <;>
      first | exact hi | trivial | exact ch _ (by decide)
  | qoco =>
    cases f <;> simp only [callUses, noNull_follow, noNull_pass, noNull_nil, and_true] <;>
      first | exact hi | trivial | exact ch _ (by decide)

/-- Every pointer that is mentioned is a field. -/
def Fields (d : Data) (l : List Use) : Prop := ∀ id, Use.follow id ∈ l ∨ Use.pass id ∈ l → (d.len id).isSome = true

theorem fields_nil (d : Data) : Fields d [] := by
  rintro id (h | h) <;> cases h

theorem fields_append (d : Data) (l m : List Use) : Fields d (l ++ m) ↔ Fields d l ∧ Fields d m := by
  unfold Fields
  simp only [List.mem_append]
  constructor
  · intro h
    exact ⟨fun id hi => h id (by rcases hi with hi | hi; exact .inl (.inl hi); exact .inr (.inl hi)),
      fun id hi => h id (by rcases hi with hi | hi; exact .inl (.inr hi); exact .inr (.inr hi))⟩
  · rintro ⟨h1, h2⟩ id ((h | h) | (h | h))
    · exact h1 id (.inl h)
    · exact h2 id (.inl h)
    · exact h1 id (.inr h)
    · exact h2 id (.inr h)

theorem fields_follow (d : Data) (i : CId) (l : List Use) : Fields d (.follow i :: l) ↔ (d.len i).isSome = true ∧ Fields d l := by
  unfold Fields
  constructor
  · intro h
    exact ⟨h i (.inl (List.mem_cons_self ..)), fun id hi => h id (by
      rcases hi with hi | hi
      · exact .inl (List.mem_cons_of_mem _ hi)
      · exact .inr (List.mem_cons_of_mem _ hi))⟩
  · rintro ⟨h1, h2⟩ id (h | h)
    · rcases List.mem_cons.mp h with h | h
      · rw [Use.follow.injEq] at h; rw [h]; exact h1
      · exact h2 id (.inl h)
    · rcases List.mem_cons.mp h with h | h
      · cases h
      · exact h2 id (.inr h)

theorem fields_pass (d : Data) (i : CId) (l : List Use) : Fields d (.pass i :: l) ↔ (d.len i).isSome = true ∧ Fields d l := by
  unfold Fields
  constructor
  · intro h
    exact ⟨h i (.inr (List.mem_cons_self ..)), fun id hi => h id (by
      rcases hi with hi | hi
      · exact .inl (List.mem_cons_of_mem _ hi)
      · exact .inr (List.mem_cons_of_mem _ hi))⟩
  · rintro ⟨h1, h2⟩ id (h | h)
    · rcases List.mem_cons.mp h with h | h
      · cases h
      · exact h2 id (.inl h)
    · rcases List.mem_cons.mp h with h | h
      · rw [Use.pass.injEq] at h; rw [h]; exact h1
      · exact h2 id (.inr h)

theorem fields_copy (d : Data) (i : CId) : Fields d (copy d i) := by
  unfold copy
  split
  · exact fields_nil d
  · rename_i n hn
    have : (d.len i).isSome = true := by rw [hn]; rfl
    split
    · rw [fields_pass]; exact ⟨this, fields_nil d⟩
    · split
      · rw [fields_follow]; exact ⟨this, fields_nil d⟩
      · exact fields_nil d

theorem fields_copyAll (d : Data) : Fields d (copyAll d) := by
  intro id h
  rcases h with h | h
  · obtain ⟨i, _, hi⟩ := List.mem_flatMap.mp h
    exact fields_copy d i id (.inl hi)
  · obtain ⟨i, _, hi⟩ := List.mem_flatMap.mp h
    exact fields_copy d i id (.inr hi)

theorem fields_if (d : Data) (c : Prop) [Decidable c] (l m : List Use) (hl : c → Fields d l) (hm : ¬ c → Fields d m) :
    Fields d (if c then l else m) := by
  split
  · exact hl ‹_›
  · exact hm ‹_›

/-- The pointers in the calls of the functions of a solver are fields. -/
theorem compiles_calls (k : Kind) (quad lp : Bool) {d : Data} (hp : k.possible quad lp = true) (hd : Delivered k quad lp d)
    (ho : k = .osqp → lp = false) (f : CId) (hf : f ∈ (k.solver quad lp).pus.map Prod.fst) : Fields d (callUses k lp d f) := by
  cases k with
  | osqp =>
    have hq : quad = true := by simpa [Kind.possible] using hp
    subst hq
    have h1 := hd.all .q (by decide) (by decide)
    have h2 := hd.all .A (by decide) (by decide)
    have h3 := hd.all .l (by decide) (by decide)
    have h4 := hd.all .u (by decide) (by decide)
    have h5 := (hd.P (by decide)).mpr (ho rfl)
    cases f <;> simp [callUses, initUses, fields_follow, fields_pass, fields_nil, h1, h2, h3, h4, h5]
  | scs =>
    have h1 := hd.all .b (by cases quad <;> decide) (by decide)
    have h2 := hd.all .c (by cases quad <;> decide) (by decide)
    cases f <;> simp [callUses, initUses, fields_pass, fields_nil, h1, h2]
  | ecos =>
    have h1 := hd.all .c (by cases quad <;> decide) (by decide)
    have h2 := hd.all .A (by cases quad <;> decide) (by decide)
    have h3 := hd.all .b (by cases quad <;> decide) (by decide)
    have h4 := hd.all .G (by cases quad <;> decide) (by decide)
    have h5 := hd.all .h (by cases quad <;> decide) (by decide)
    cases f <;> simp [callUses, initUses, fields_append, fields_follow, fields_pass, fields_nil, fields_copyAll, fields_copy, fields_if, h1, h2,
      h3, h4, h5]
  | clarabel =>
    have h2 := hd.all .A (by cases quad <;> decide) (by decide)
    have h4 : lp = false → (d.len .P).isSome = true := by
      intro h
      have hq : quad = true := by simpa [Kind.possible, h] using hp
      subst hq
      exact (hd.P (by decide)).mpr h
    cases lp with
    | true =>
      cases f <;> simp [Kind.solver, Model.clarabel] at hf <;>
        simp [callUses, initUses, fields_append, fields_follow, fields_nil, fields_copyAll, fields_copy, h2]
    | false =>
      have h5 := h4 rfl
      cases f <;> simp [callUses, initUses, fields_append, fields_follow, fields_nil, fields_copyAll, fields_copy, h2, h5]
  | qocogen =>
    have h1 := hd.all .c (by cases quad <;> decide) (by decide)
    have h2 := hd.all .A (by cases quad <;> decide) (by decide)
    have h3 := hd.all .b (by cases quad <;> decide) (by decide)
    have h4 := hd.all .G (by cases quad <;> decide) (by decide)
    have h5 := hd.all .h (by cases quad <;> decide) (by decide)
    have h6 : lp = false → (d.len .P).isSome = true := by
      intro h
      have hq : quad = true := by simpa [Kind.possible, h] using hp
      subst hq
      exact (hd.P (by decide)).mpr h
    cases lp with
    | true =>
      cases f <;> simp [Kind.solver, Model.qocogen] at hf <;>
        simp [callUses, initUses, fields_follow, fields_pass, fields_nil, h1, h2, h3, h4, h5]
    | false =>
      have h7 := h6 rfl
      cases f <;> simp [callUses, initUses, fields_follow, fields_pass, fields_nil, h1, h2, h3, h4, h5, h7]
  | qoco =>
    have h1 := hd.all .c (by cases quad <;> decide) (by decide)
    have h2 := hd.all .A (by cases quad <;> decide) (by decide)
    have h3 := hd.all .b (by cases quad <;> decide) (by decide)
    have h4 := hd.all .G (by cases quad <;> decide) (by decide)
    have h5 := hd.all .h (by cases quad <;> decide) (by decide)
    have h6 : lp = false → (d.len .P).isSome = true := by
      intro h
      have hq : quad = true := by simpa [Kind.possible, h] using hp
      subst hq
      exact (hd.P (by decide)).mpr h
    cases lp with
    | true =>
      cases f <;> simp [Kind.solver, Model.qoco] at hf <;>
        simp [callUses, initUses, fields_append, fields_follow, fields_pass, fields_nil, fields_copyAll, fields_if, h1, h2, h3, h4, h5]
    | false =>
      have h7 := h6 rfl
      cases f <;> simp [callUses, initUses, fields_append, fields_follow, fields_pass, fields_nil, fields_copyAll, fields_if, h1, h2, h3, h4,
        h5, h7]

theorem name_copy (d : Data) (i id : CId) : Use.name id ∉ copy d i := by
  unfold copy
  split
  · simp
  · split
    · simp
    · split <;> simp

theorem name_copyAll (d : Data) (id : CId) : Use.name id ∉ copyAll d := by
  intro h
  obtain ⟨i, _, hi⟩ := List.mem_flatMap.mp h
  exact name_copy d i id hi

theorem name_calls (k : Kind) (lp : Bool) (d : Data) (f id : CId) : Use.name id ∉ callUses k lp d f := by
  have h1 := name_copyAll d id
  have h2 := fun i => name_copy d i id
  have h3 : ∀ c : Prop, [Decidable c] → ∀ l : List Use, Use.name id ∉ l → Use.name id ∉ (if c then l else []) := by
    intro c _ l hl
    split
    · exact hl
    · simp
  have h4 : ∀ c : Prop, [Decidable c] → ∀ l : List Use, Use.name id ∉ l → Use.name id ∉ (if c then [] else l) := by
    intro c _ l hl
    split
    · simp
    · exact hl
  have hi : Use.name id ∉ initUses k lp d := by
    cases k <;> simp [initUses, h1, h3, h4]
  cases f with
  | init => exact hi
  | _ => cases k <;> simp [callUses, h1, h2, h3, h4]

/-- Functions that are written need only ids that change. -/
def needsOK (k : Kind) (quad lp : Bool) (ch : Changes) : Bool :=
  match analyzePus (k.solver quad lp).pus genFuel ch with
  | .error _ => false
  | .ok (_, never) => (norm quad (k.solver quad lp).pus).all fun kv =>
      never.contains kv.1 || (needs k kv.1).all fun id => ch.getD id

theorem needs_all (k : Kind) (quad lp : Bool) (hk : k.possible quad lp = true) (b : CId → Bool) :
    needsOK k quad lp (changesOf (k.canonIds quad) b) = true := by
  refine forall_changes k quad (fun ch => needsOK k quad lp ch = true) ?_ b
  revert k quad lp
  intro k
  cases k <;> decide +kernel

/-- Only `init` sets up the solvers that copy data. -/
theorem effect_init (k : Kind) (quad lp : Bool) (hk : k = .ecos ∨ k = .clarabel ∨ k = .qoco) (f : CId) (hf : f ≠ .init) :
    ∃ ps, (k.solver quad lp).effect f = .push ps := by
  rcases hk with rfl | rfl | rfl <;> cases f <;> first | exact absurd rfl hf | exact ⟨_, rfl⟩

end Verif.Lemmas.Empty
