import Verif.Lemmas.Empty
import Verif.Props.UpdateSolve
import Verif.Props.Canon
import Mathlib.Tactic.Tauto
/-!
C92: problems some of whose canonical data have no entries.
-/
namespace Verif.Props
open Verif.Model Verif.Spec Verif.Lemmas
open Verif.Model.Empty
open Verif.Spec.Empty (Has Delivered Present NoNull Compiles)
open Verif.Lemmas.Empty

variable {Θ V Act : Type}

theorem lookup_mem {α β : Type} [BEq α] [LawfulBEq α] {l : List (α × β)} {a : α} {b : β} (h : l.lookup a = some b) : (a, b) ∈ l := by
  induction l with
  | nil => cases h
  | cons x l ih =>
    obtain ⟨x1, x2⟩ := x
    rw [List.lookup_cons] at h
    split at h
    · rename_i he
      rw [Option.some.injEq] at h
      rw [eq_of_beq he, h]; exact List.mem_cons_self ..
    · exact List.mem_cons_of_mem _ (ih h)

/-- **C92** After any history, no generated statement has followed a null pointer if the matrices that the solver is set up with have entries;
and if the history contains a solve, only then. -/
theorem C92_iff {k : Kind} {quad lp : Bool} {b : CId → Bool} {g : Gen Θ V Act} (hg : Generated k quad lp b g) {d : Data}
    (hd : Delivered k quad lp d) (hc : ∀ id ∈ k.canonIds quad, b id = true → Has d id)
    (order : List CId → List CId) (horder : ∀ l, (order l).Perm l) (junk : CId → V) (history : List (Call Act)) :
    ∃ toks pus' m os,
      genBlock (k.solver quad lp).pus g.quad g.changes order = .ok (toks, pus') ∧
      g.runCalls (k.solver quad lp) toks (g.initMem (k.solver quad lp) junk) history = some (m, os) ∧
      (Present k lp d → NoNull d (references k quad lp d b m)) ∧
      (Call.solve ∈ history → NoNull d (references k quad lp d b m) → Present k lp d) := by
  obtain ⟨toks, pus', roots, never, h1, hf, ht⟩ := genBlock_ok g _ order horder hg.static
  obtain ⟨m, os, h2, _, _⟩ := runCalls_ok g hg.sound _ roots never (order roots) hf (horder roots) toks
    ht history _ (inv_init g hg.sound _ junk)
  refine ⟨toks, pus', m, os, h1, h2, ?_, ?_⟩
  · intro hp
    have hq : ∀ f ∈ m.calls, ((norm g.quad (k.solver quad lp).pus).lookup f).isSome = true ∧ never.contains f = false := by
      refine history_pres g _ never (order roots) (fun _ cs => ∀ f ∈ cs,
        ((norm g.quad (k.solver quad lp).pus).lookup f).isSome = true ∧ never.contains f = false) ?_ toks ht history _ m os ?_ h2
      · intro f m hs hn hq f' hf'
        rw [doCall_calls] at hf'
        rcases List.mem_cons.mp hf' with h | h
        · rw [h]; exact ⟨hs, hn⟩
        · exact hq f' h
      · intro f hf'; cases hf'
    unfold references
    rw [noNull_append, noNull_append, noNull_flatMap]
    refine ⟨⟨?_, ?_⟩, ?_⟩
    · intro id hi
      unfold canonUses at hi
      obtain ⟨i, hi1, hi2⟩ := List.mem_map.mp hi
      rw [Use.follow.injEq] at hi2
      subst hi2
      obtain ⟨hi3, hi4⟩ := List.mem_filter.mp hi1
      rw [Bool.and_eq_true] at hi4
      exact has_ne (hc i hi3 hi4.1)
    · intro f hfm
      refine call_ok k quad lp hg.possible hd hp f ?_
      obtain ⟨hs, hn⟩ := hq f hfm
      have ha := needs_all k quad lp hg.possible b
      unfold needsOK at ha
      have han := hf.analyze
      rw [hg.changes] at han
      rw [han] at ha
      rw [hg.mode] at hs
      obtain ⟨lg, hl⟩ := Option.isSome_iff_exists.mp hs
      have hmem : (f, lg) ∈ norm quad (k.solver quad lp).pus := lookup_mem hl
      have := List.all_eq_true.mp ha (f, lg) hmem
      simp only [hn, Bool.false_or] at this
      intro id hid
      have hid' := List.all_eq_true.mp this id hid
      unfold Changes.getD changesOf at hid'
      split at hid'
      · rename_i hin
        exact hc id (by simpa using hin) (by simpa using hid')
      · simp at hid'
    · cases k <;> simp [solveUses, noNull_nil, noNull_pass]
  · intro hs hnn
    rw [← init_iff k quad lp hg.possible hd]
    by_cases hk : k = .ecos ∨ k = .clarabel ∨ k = .qoco
    · have hst : (k.solver quad lp).static = false := by rcases hk with rfl | rfl | rfl <;> rfl
      have hin := history_inited g _ roots never (order roots) hf (horder roots) toks ht history _ m os
        (by rw [hst]; intro h; cases h) (.inr hs) h2
      have hini : m.inited = true → CId.init ∈ m.calls := by
        refine history_pres g _ never (order roots) (fun i cs => i = true → CId.init ∈ cs) ?_ toks ht history _ m os ?_ h2
        · intro f m _ _ hq hi
          rw [doCall_calls]
          by_cases hfi : f = .init
          · rw [hfi]; exact List.mem_cons_self ..
          · obtain ⟨ps, he⟩ := effect_init k quad lp hk f hfi
            refine List.mem_cons_of_mem _ (hq ?_)
            unfold doCall at hi
            rw [he] at hi
            exact hi
        · show (k.solver quad lp).static = true → _
          rw [hst]; intro h; cases h
      unfold references at hnn
      rw [noNull_append, noNull_append, noNull_flatMap] at hnn
      exact hnn.1.2 _ (hini hin)
    · have : initUses k lp d = [] := by
        cases k <;> first | rfl | (exfalso; apply hk; simp)
      rw [this]; exact noNull_nil

/-- Canonical parameters that change have entries, for the data of every problem. -/
theorem C92_changing {R : Type} [CommRing R] [DecidableEq R] (ids : List CId) (n eq ineq : Nat) (maps : CId → Option (RawMap R))
    (id : CId) (hid : id ∈ ids) (h : mapChanges (maps id) id.isUpper = true) : Has (dataOf ids n eq ineq maps) id := by
  unfold mapChanges at h
  cases hm : maps id with
  | none => rw [hm] at h; cases h
  | some m =>
    rw [hm] at h
    simp only [decide_eq_true_eq] at h
    have hpos : 0 < (m.final id.isUpper).rows := by
      by_contra h0
      have h0 : (m.final id.isUpper).rows = 0 := by omega
      have : (m.final id.isUpper).ents = [] := by
        unfold RawMap.final at h0 ⊢
        split
        · rename_i hu
          rw [if_pos hu] at h0
          simp only [Sp.selectRows] at h0 ⊢
          rw [List.length_eq_zero_iff] at h0
          rw [h0]
          simp
        · rename_i hu
          rw [if_neg hu] at h0
          simp only [RawMap.signed, Sp.ofDense] at h0 ⊢
          rw [h0]
          simp
      unfold Sp.nnzCols at h
      rw [this] at h
      simp at h
    refine ⟨(m.final id.isUpper).rows + (if id = .l then ineq else 0), ?_, by omega⟩
    simp only [dataOf, List.contains_iff_mem, hid, hm, if_true, Option.map_some]

/-- Looking up canonical parameters fails only for OSQP without quadratic part. -/
theorem C92_generates {k : Kind} {quad lp : Bool} {d : Data} (hp : k.possible quad lp = true) (hd : Delivered k quad lp d) :
    generateCode k d = none ↔ (k = .osqp → lp = false) := by
  cases k with
  | osqp =>
    have hq : quad = true := by simpa [Kind.possible] using hp
    subst hq
    have h1 := hd.all .q (by decide) (by decide)
    have h2 := hd.all .A (by decide) (by decide)
    have h3 := hd.all .l (by decide) (by decide)
    have h4 := hd.all .u (by decide) (by decide)
    have h5 := hd.P (by decide)
    cases hl : (d.len .P).isSome
    · simp [generateCode, lookups, hl] at h5 ⊢
      simp [h5]
    · simp [generateCode, lookups, hl, h1, h2, h3, h4] at h5 ⊢
      simp [h5]
  | qocogen =>
    have h1 := hd.all .c (by cases quad <;> decide) (by decide)
    have h2 := hd.all .A (by cases quad <;> decide) (by decide)
    have h3 := hd.all .b (by cases quad <;> decide) (by decide)
    have h4 := hd.all .G (by cases quad <;> decide) (by decide)
    have h5 := hd.all .h (by cases quad <;> decide) (by decide)
    simp [generateCode, lookups, h1, h2, h3, h4, h5]
  | scs => simp [generateCode, lookups]
  | ecos => simp [generateCode, lookups]
  | clarabel => simp [generateCode, lookups]
  | qoco => simp [generateCode, lookups]

/-- Everything that the text refers to exists, for all solvers but SCS. -/
theorem C92_compiles {k : Kind} {quad lp : Bool} {d : Data} {b : CId → Bool} (hp : k.possible quad lp = true)
    (hd : Delivered k quad lp d) (hc : ∀ id ∈ k.canonIds quad, b id = true → Has d id) (hk : k ≠ .scs)
    (ho : k = .osqp → lp = false) (written : List CId) (hw : ∀ f ∈ written, f ∈ (k.solver quad lp).pus.map Prod.fst) :
    Compiles d (text k quad lp d b written) := by
  have key := compiles_calls k quad lp hp hd ho
  refine ⟨?_, ?_⟩
  · intro id h
    simp only [text, List.mem_append] at h
    have hst : staticUses k quad = [] := by cases k <;> first | rfl | exact absurd rfl hk
    rw [hst] at h
    have hcan : Use.follow id ∈ canonUses (k.canonIds quad) b ∨ Use.pass id ∈ canonUses (k.canonIds quad) b →
        (d.len id).isSome = true := by
      intro h
      unfold canonUses at h
      rcases h with h | h
      · obtain ⟨i, hi1, hi2⟩ := List.mem_map.mp h
        rw [Use.follow.injEq] at hi2
        subst hi2
        obtain ⟨hi3, hi4⟩ := List.mem_filter.mp hi1
        rw [Bool.and_eq_true] at hi4
        obtain ⟨n, hn, _⟩ := hc i hi3 hi4.1
        rw [hn]; rfl
      · obtain ⟨i, hi1, hi2⟩ := List.mem_map.mp h
        cases hi2
    have hcall : ∀ u, (u = Use.follow id ∨ u = Use.pass id) → u ∈ written.flatMap (callUses k lp d) → (d.len id).isSome = true := by
      intro u hu h
      obtain ⟨f, hf, hfu⟩ := List.mem_flatMap.mp h
      exact key f (hw f hf) id (by rcases hu with rfl | rfl; exact .inl hfu; exact .inr hfu)
    have hsol : Use.follow id ∈ solveUses k ∨ Use.pass id ∈ solveUses k → (d.len id).isSome = true := by
      intro h
      cases k <;> simp [solveUses] at h
      rcases h with rfl | rfl
      · exact hd.all _ (by cases quad <;> decide) (by decide)
      · exact hd.all _ (by cases quad <;> decide) (by decide)
    rcases h with h | h
    · rcases h with ((h | h) | h) | h
      · cases h
      · exact hcan (.inl h)
      · exact hcall _ (.inl rfl) h
      · exact hsol (.inl h)
    · rcases h with ((h | h) | h) | h
      · cases h
      · exact hcan (.inr h)
      · exact hcall _ (.inr rfl) h
      · exact hsol (.inr h)
  · intro id h
    exfalso
    simp only [text, List.mem_append] at h
    rcases h with ((h | h) | h) | h
    · cases k <;> simp [staticUses] at h
      exact hk rfl
    · unfold canonUses at h
      obtain ⟨i, _, hi2⟩ := List.mem_map.mp h
      cases hi2
    · obtain ⟨f, _, hfu⟩ := List.mem_flatMap.mp h
      exact name_calls k lp d f id hfu
    · cases k <;> simp [solveUses] at h

/-- SCS: the static data name the arrays, so that the program compiles iff all of them have entries. -/
theorem C92_compiles_scs {quad lp : Bool} {d : Data} {b : CId → Bool} (hd : Delivered .scs quad lp d)
    (hc : ∀ id ∈ Kind.scs.canonIds quad, b id = true → Has d id) (written : List CId) :
    Compiles d (text .scs quad lp d b written) ↔ Has d .A ∧ 0 < d.eq ∧ (quad = true → Has d .P) := by
  have hb : Has d .b ↔ 0 < d.eq := by
    have := hd.b (by cases quad <;> decide)
    unfold Has
    rw [this]; simp
  have hcc : Has d .c := ⟨d.n, hd.q .c (.inr rfl) (by cases quad <;> decide), hd.n⟩
  rw [← hb]
  constructor
  · rintro ⟨_, h⟩
    refine ⟨h .A ?_, h .b ?_, fun hq => h .P ?_⟩ <;> simp [text, staticUses]
    exact .inl hq
  · rintro ⟨hA, hB, hP⟩
    have hnm : ∀ id, Use.name id ∈ text .scs quad lp d b written → Has d id := by
      intro id h
      simp only [text, List.mem_append] at h
      rcases h with ((h | h) | h) | h
      · simp only [staticUses, List.mem_append, List.mem_cons, List.not_mem_nil, or_false, Use.name.injEq] at h
        rcases h with h | rfl | rfl | rfl
        · split at h
          · rename_i hq
            simp only [List.mem_singleton, Use.name.injEq] at h
            rw [h]; exact hP hq
          · cases h
        · exact hA
        · exact hB
        · exact hcc
      · unfold canonUses at h
        obtain ⟨i, _, hi2⟩ := List.mem_map.mp h
        cases hi2
      · obtain ⟨f, _, hfu⟩ := List.mem_flatMap.mp h
        exact (name_calls .scs lp d f id hfu).elim
      · simp [solveUses] at h
    refine ⟨?_, hnm⟩
    intro id h
    have hcase : ∀ f, Use.follow id ∈ callUses .scs lp d f ∨ Use.pass id ∈ callUses .scs lp d f → id = .b ∨ id = .c := by
      intro f hf
      cases f <;> simp [callUses, initUses] at hf <;> tauto
    have hbc : id = .b ∨ id = .c → (d.len id).isSome = true := by
      rintro (rfl | rfl)
      · obtain ⟨n, hn, _⟩ := hB; rw [hn]; rfl
      · obtain ⟨n, hn, _⟩ := hcc; rw [hn]; rfl
    simp only [text, List.mem_append] at h
    rcases h with h | h
    · rcases h with ((h | h) | h) | h
      · cases quad <;> simp [staticUses] at h
      · unfold canonUses at h
        obtain ⟨i, hi1, hi2⟩ := List.mem_map.mp h
        rw [Use.follow.injEq] at hi2
        subst hi2
        obtain ⟨hi3, hi4⟩ := List.mem_filter.mp hi1
        rw [Bool.and_eq_true] at hi4
        obtain ⟨n, hn, _⟩ := hc i hi3 hi4.1
        rw [hn]; rfl
      · obtain ⟨f, _, hfu⟩ := List.mem_flatMap.mp h
        exact hbc (hcase f (.inl hfu))
      · simp [solveUses] at h
    · rcases h with ((h | h) | h) | h
      · cases quad <;> simp [staticUses] at h
      · unfold canonUses at h
        obtain ⟨i, _, hi2⟩ := List.mem_map.mp h
        cases hi2
      · obtain ⟨f, _, hfu⟩ := List.mem_flatMap.mp h
        exact hbc (hcase f (.inr hfu))
      · simp [solveUses] at h

/-- The objective function of explicit mode follows a null pointer iff the objective is linear. -/
theorem C92_objective {quad : Bool} {d : Data} (hd : Delivered .osqp quad false d) (hq : quad = true) :
    NoNull d (objUses d) ↔ Has d .P := by
  subst hq
  have h1 := hd.q .q (.inl rfl) (by decide)
  have h2 := has_iff ((hd.P (by decide)).mpr rfl)
  have h3 : d.len .q ≠ some 0 := by
    rw [h1]; have := hd.n; simp only [ne_eq, Option.some.injEq]; omega
  rw [h2]
  unfold objUses
  rw [if_pos hd.n, noNull_follow, noNull_follow]
  exact ⟨fun h => h.1, fun h => ⟨h, h3, noNull_nil⟩⟩

/-- Refreshing the matrices of the gradient follows no null pointer. -/
theorem C92_gradient {d : Data} {b : CId → Bool} (hc : ∀ id, b id = true → Has d id) : NoNull d (refreshUses b) := by
  intro id h
  unfold refreshUses at h
  obtain ⟨i, hi1, hi2⟩ := List.mem_map.mp h
  rw [Use.follow.injEq] at hi2
  subst hi2
  exact has_ne (hc i (List.mem_filter.mp hi1).2)

/-- A problem without constraints cannot be generated, if CVXPY delivers no index for its constraint matrix. -/
theorem C92_unconstrained (index : Option (List Nat × List Nat)) : constraintInfo index = .error .typeError ↔ index = none := by
  unfold constraintInfo
  split
  · simp
  · split <;> simp

/-- Otherwise the data of the constraint matrix are those before the last column of the index, which holds the constants. -/
theorem C92_constrained (mat vec indptr : List Nat) :
    constraintInfo (some (mat ++ vec, indptr ++ [mat.length, (mat ++ vec).length])) = .ok ((mat ++ vec).length, mat.length) := by
  unfold constraintInfo
  simp only [List.reverse_append, List.reverse_cons, List.reverse_nil, List.nil_append, List.cons_append, List.singleton_append,
    List.length_append]
  congr 2
  omega

/-- Two rows, one variable: `A = (3, 0)`, constants in both rows. -/
example : constraintInfo (some ([0, 0, 1], [0, 1, 3])) = .ok (3, 1) := C92_constrained [0] [0, 1] [0]

/-- What `NoNull` says about the structs that the program defines. -/
theorem C92_faults (d : Data) (l : List Use) : NoNull d l ↔ ∀ u ∈ l, u.faults d = false := by
  have hn : ∀ id, d.field id = some .null ↔ d.len id = some 0 := by
    intro id
    unfold Data.field
    cases d.len id with
    | none => simp
    | some n =>
      simp only [Option.map_some, Option.some.injEq]
      split
      · simp [*]
      · simp [*]
  constructor
  · intro h u hu
    cases u with
    | follow id =>
      simp only [Use.faults, beq_eq_false_iff_ne, ne_eq, hn]
      exact h id hu
    | pass id => rfl
    | name id => rfl
  · intro h id hu
    have := h _ hu
    simpa only [Use.faults, beq_eq_false_iff_ne, ne_eq, hn] using this

/-- What `Compiles` says about the definitions that the program contains. -/
theorem C92_defined (d : Data) (l : List Use) (hl : Use.name .d ∉ l) : Compiles d l ↔ ∀ u ∈ l, u.compiles d = true := by
  have hf : ∀ id, (d.field id).isSome = (d.len id).isSome := by
    intro id; unfold Data.field; cases d.len id <;> rfl
  have hh : ∀ id, id ≠ .d → (d.defined id = true ↔ Has d id) := by
    intro id hd
    unfold Data.defined Has
    cases d.len id with
    | none => simp
    | some n =>
      have : (id != CId.d) = true := by simpa using hd
      simp [this, Nat.pos_iff_ne_zero]
  constructor
  · rintro ⟨h1, h2⟩ u hu
    cases u with
    | follow id => exact (hf id).trans (h1 id (.inl hu))
    | pass id => exact (hf id).trans (h1 id (.inr hu))
    | name id => exact (hh id (fun h => hl (h ▸ hu))).mpr (h2 id hu)
  · intro h
    refine ⟨fun id hu => ?_, fun id hu => (hh id (fun h => hl (h ▸ hu))).mp (h _ hu)⟩
    rcases hu with hu | hu
    · exact (hf id).symm.trans (h _ hu)
    · exact (hf id).symm.trans (h _ hu)

/-- **C92** for the program generated from any affine maps. -/
theorem C92_end_to_end {R : Type} [CommRing R] [DecidableEq R] (k : Kind) (quad lp : Bool) (hk : k.possible quad lp = true)
    (ps : List UParam) (maps : CId → Option (RawMap R)) (hw : WFInput ps (k.canonIds quad) maps)
    (θ0 : { θ : List R // θ.length = totalSize ps }) (n eq ineq : Nat)
    (hd : Delivered k quad lp (dataOf (k.canonIds quad) n eq ineq maps))
    (order : List CId → List CId) (horder : ∀ l, (order l).Perm l) (junk : CId → Option (List R))
    (history : List (Call { a : UpdCall R // a.Valid ps })) :
    let g := canonGen ps (k.canonIds quad) quad maps θ0
    let d := dataOf (k.canonIds quad) n eq ineq maps
    ∃ toks pus' m os,
      genBlock (k.solver quad lp).pus g.quad g.changes order = .ok (toks, pus') ∧
      g.runCalls (k.solver quad lp) toks (g.initMem (k.solver quad lp) junk) history = some (m, os) ∧
      (Present k lp d → NoNull d (references k quad lp d (fun p => mapChanges (maps p) p.isUpper) m)) ∧
      (Call.solve ∈ history → NoNull d (references k quad lp d (fun p => mapChanges (maps p) p.isUpper) m) →
        Present k lp d) := by
  intro g d
  have hg : Generated k quad lp (fun p => mapChanges (maps p) p.isUpper) g :=
    ⟨hk, rfl, rfl, canonGen_sound ps _ quad maps hw θ0⟩
  exact C92_iff hg hd (fun id hid h => C92_changing _ n eq ineq maps id hid h) order horder junk history

/-! ### Non-trivial instances, and failures -/

/-- `minimize x` subject to `x == 1` and `p >= 0`: the inequality contains no variable. -/
def noVarMaps : CId → Option (RawMap Int)
  | .c => some ⟨⟨1, 2, [(0, 1, 1)]⟩, fun _ => 1⟩
  | .d => some ⟨⟨1, 2, []⟩, fun _ => 1⟩
  | .A => some ⟨⟨1, 2, [(0, 1, 1)]⟩, fun _ => 1⟩
  | .b => some ⟨⟨1, 2, [(0, 1, 1)]⟩, fun _ => 1⟩
  | .G => some ⟨⟨0, 2, []⟩, fun _ => 1⟩
  | .h => some ⟨⟨1, 2, [(0, 0, 1)]⟩, fun _ => 1⟩
  | _ => none

/-- `minimize x` subject to `x == 1` and `x >= p`. -/
def varMaps : CId → Option (RawMap Int)
  | .G => some ⟨⟨1, 2, [(0, 1, -1)]⟩, fun _ => 1⟩
  | id => noVarMaps id

def onePar : List UParam := [⟨"p", 1⟩]

theorem noVar_input : WFInput onePar (Kind.ecos.canonIds false) noVarMaps where
  names := by decide
  sizes := by decide
  cols := by
    intro id m h
    cases id <;> simp only [noVarMaps, Option.some.injEq, reduceCtorEq] at h <;> (rw [← h]; rfl)
  other := by
    intro id h
    cases id <;> first | rfl | exact absurd (by decide) h

theorem var_input : WFInput onePar (Kind.ecos.canonIds false) varMaps where
  names := by decide
  sizes := by decide
  cols := by
    intro id m h
    cases id <;> simp only [varMaps, noVarMaps, Option.some.injEq, reduceCtorEq] at h <;> (rw [← h]; rfl)
  other := by
    intro id h
    cases id <;> first | rfl | exact absurd (by decide) h

theorem noVar_delivered : Delivered .ecos false true (dataOf (Kind.ecos.canonIds false) 1 1 1 noVarMaps) where
  all := by decide +kernel
  none := by
    intro id h
    cases id <;> first | rfl | exact absurd (by decide) h
  P := by intro h; exact absurd h (by decide)
  n := by decide
  q := by
    rintro id (rfl | rfl) h
    · exact absurd h (by decide)
    · decide +kernel
  b := by decide +kernel
  h := by decide +kernel

theorem var_delivered : Delivered .ecos false true (dataOf (Kind.ecos.canonIds false) 1 1 1 varMaps) where
  all := by decide +kernel
  none := by
    intro id h
    cases id <;> first | rfl | exact absurd (by decide) h
  P := by intro h; exact absurd h (by decide)
  n := by decide
  q := by
    rintro id (rfl | rfl) h
    · exact absurd h (by decide)
    · decide +kernel
  b := by decide +kernel
  h := by decide +kernel

/-- The hypotheses of `C92_end_to_end` and `Present` are met. -/
example : Present .ecos true (dataOf (Kind.ecos.canonIds false) 1 1 1 varMaps) :=
  ⟨⟨1, by decide +kernel, by decide⟩, fun _ => ⟨1, by decide +kernel, by decide⟩⟩

/-- **C92 fails**: with ECOS, the first solve of `minimize x` subject to `x == 1`, `p >= 0` follows the null pointer `Canon_Params.G`. -/
theorem C92_fails (θ0 : { θ : List Int // θ.length = totalSize onePar }) :
    let g := canonGen onePar (Kind.ecos.canonIds false) false noVarMaps θ0
    let d := dataOf (Kind.ecos.canonIds false) 1 1 1 noVarMaps
    ∃ toks pus' m os,
      genBlock (Kind.ecos.solver false true).pus false g.changes id = .ok (toks, pus') ∧
      g.runCalls (Kind.ecos.solver false true) toks (g.initMem (Kind.ecos.solver false true) fun _ => none) [.solve] = some (m, os) ∧
      CId.init ∈ m.calls ∧ Use.follow .G ∈ callUses .ecos true d .init ∧ d.field .G = some .null := by
  intro g d
  obtain ⟨toks, pus', m, os, h1, h2, h3⟩ := C04_initialisation_first_and_once_partial
    (k := .ecos) (quad := false) (lp := true) (b := fun p => mapChanges (noVarMaps p) p.isUpper) (g := g)
    ⟨rfl, rfl, rfl, canonGen_sound onePar _ false noVarMaps noVar_input θ0⟩ rfl (by simp) id (fun l => List.Perm.refl l)
    (fun _ => none) [.solve]
  refine ⟨toks, pus', m, os, h1, h2, ?_, by simp [callUses, initUses], by decide +kernel⟩
  obtain ⟨toks', pus'', m', os', h1', h2', _, h4⟩ := C92_end_to_end .ecos false true rfl onePar noVarMaps noVar_input θ0 1 1 1
    noVar_delivered id (fun l => List.Perm.refl l) (fun _ => none) [.solve]
  have he : toks' = toks := by
    have := h1'.symm.trans h1
    simp only [Except.ok.injEq, Prod.mk.injEq] at this
    exact this.1
  subst he
  have hm : m' = m := by
    have := h2'.symm.trans h2
    simp only [Option.some.injEq, Prod.mk.injEq] at this
    exact this.1
  subst hm
  rcases h3 with h3 | ⟨later, h3, _⟩
  · exfalso
    have hp := h4 (List.mem_cons_self ..) (by
      unfold references
      rw [h3]
      intro id h
      simp only [List.flatMap_nil, List.append_nil, solveUses, canonUses] at h
      obtain ⟨i, hi1, hi2⟩ := List.mem_map.mp h
      rw [Use.follow.injEq] at hi2
      subst hi2
      have hi3 := (List.mem_filter.mp hi1)
      revert hi3
      cases i <;> first | decide +kernel | (rintro ⟨h, _⟩; exact absurd h (by simp [Kind.canonIds])))
    obtain ⟨n, hn, hn0⟩ := hp.1
    have : (some n : Option Nat) = some 0 := by rw [← hn]; decide +kernel
    simp only [Option.some.injEq] at this
    omega
  · have : CId.init ∈ m'.calls.reverse := by rw [h3]; exact List.mem_cons_self ..
    exact List.mem_reverse.mp this

end Verif.Props
