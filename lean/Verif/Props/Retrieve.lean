import Verif.Lemmas.Retrieve
import Verif.Props.Canon
import Verif.Spec.Canonical
import Mathlib.Tactic.Ring
import Mathlib.Tactic.NormNum
import Mathlib.Algebra.Field.Rat
/-!
# C15–C18: results

What the user reads after a solve: variables, dual variables, objective value.
-/
namespace Verif.Props
open Verif.Model Verif.Spec Verif.Lemmas Finset

/-! ## C17 -/

/-- Every interface fills its own arrays whenever the struct does not point into the solution. -/
theorem traits_ok (k : Kind) : k.traits.static = true ∨ k.traits.always = true := by
  cases k <;> decide

/-- **C17** For every solver, every list of variables with distinct names and every solution vector in
which the variables' blocks exist: each user variable reads, entry by entry in column-major order, the
entries of the solver's vector that CVXPY assigned to it (for symmetric variables: the entry of the
upper triangle). -/
theorem C17_primal_values {R : Type} [Zero R] (s : Kind) (vs : List UVar)
    (hnames : (vs.map UVar.name).Nodup) (hsym : ∀ v ∈ vs, SymOK v) :
    ∃ pi, primInfo vs = .ok pi ∧ ∀ (sol : List R), ∀ v ∈ vs, v.offset + solverSize v ≤ sol.length →
      primReadAll s.traits pi sol v.name = some ((List.range v.size).map fun k => fn sol (entryPos v k)) := by
  refine ⟨_, primInfo_eq vs hsym, fun sol v hv hlen => ?_⟩
  unfold primReadAll
  simp only [lookup_nodup vs UVar.name UVar.size hnames v hv, Option.bind_eq_bind, Option.bind_some]
  apply mapM_some
  intro k hk
  have hk : k < v.size := by simpa using hk
  rw [primRead_eq s.traits (traits_ok s) vs hnames hsym _ (primInfo_eq vs hsym) sol v hv k hk]
  have := entryPos_bounds v (hsym v hv) k hk
  have hlt : entryPos v k < sol.length := by omega
  simp [fn, List.getElem?_eq_getElem hlt]

/-- **C17** Entry `(i, j)` of a symmetric variable is read from the position of `(min, max)` in the
upper triangle, so both halves agree. -/
theorem C17_symmetric_entries (v : UVar) (n : Nat) (hs : v.sym = true) (hsh : v.shape = [n, n])
    (i j : Nat) (hi : i < n) (hj : j < n) :
    entryPos v (j * n + i) = v.offset + triPos n (min i j) (max i j) ∧
      entryPos v (i * n + j) = entryPos v (j * n + i) := by
  have key : ∀ a b, b < n → (a * n + b) % n = b ∧ (a * n + b) / n = a := by
    intro a b hb
    refine ⟨?_, ?_⟩
    · rw [Nat.add_comm, Nat.add_mul_mod_self_right, Nat.mod_eq_of_lt hb]
    · rw [Nat.add_comm, Nat.add_mul_div_right _ _ (by omega), Nat.div_eq_of_lt hb]; omega
  simp only [entryPos, hs, hsh, (key j i hi).1, (key j i hi).2, (key i j hj).1, (key i j hj).2]
  refine ⟨trivial, ?_⟩
  rw [Nat.min_comm, Nat.max_comm]

/-- **C17** Entries stay inside their variable's block, so variables with disjoint blocks never share
an entry, and every entry of a block is read by its variable. -/
theorem C17_blocks (v : UVar) (h : SymOK v) :
    (∀ k < v.size, v.offset ≤ entryPos v k ∧ entryPos v k < v.offset + solverSize v) ∧
    (∀ p, v.offset ≤ p → p < v.offset + solverSize v → ∃ k < v.size, entryPos v k = p) ∧
    (v.sym = false → ∀ k k', entryPos v k = entryPos v k' → k = k') := by
  refine ⟨fun k hk => entryPos_bounds v h k hk, ?_, ?_⟩
  · intro p hp hp'
    cases hs : v.sym with
    | false =>
      refine ⟨p - v.offset, ?_, ?_⟩
      · simp [solverSize, hs] at hp'; omega
      · simp [entryPos, hs]; omega
    | true =>
      obtain ⟨n, hn⟩ := h hs
      have hsz : v.size = n * n := by simp [UVar.size, hn]
      have hp2 : p - v.offset < (triPairs n).length := by
        have h2 : (triPairs n).length = n * (n + 1) / 2 := by
          rw [triPairs_length]
        rw [h2]
        simp [solverSize, hs, hn] at hp'
        omega
      obtain ⟨⟨i, j⟩, hij⟩ : ∃ e, (triPairs n)[p - v.offset]? = some e :=
        ⟨_, List.getElem?_eq_getElem hp2⟩
      obtain ⟨h1, h2, h3⟩ := triPairs_inj n _ i j hij
      have h4 := (C17_symmetric_entries v n hs hn i j (by omega) h3).1
      rw [Nat.min_eq_left h2, Nat.max_eq_right h2] at h4
      refine ⟨j * n + i, ?_, by rw [h4]; omega⟩
      rw [hsz]; nlinarith
  · intro hs k k' hkk
    simp [entryPos, hs] at hkk
    exact hkk

/-- Two variables with disjoint blocks share no entry. -/
theorem C17_no_overlap (v w : UVar) (hv : SymOK v) (hw : SymOK w)
    (hd : v.offset + solverSize v ≤ w.offset ∨ w.offset + solverSize w ≤ v.offset)
    (k k' : Nat) (hk : k < v.size) (hk' : k' < w.size) : entryPos v k ≠ entryPos w k' := by
  have h1 := entryPos_bounds v hv k hk
  have h2 := entryPos_bounds w hw k' hk'
  omega

/-- **C17 fails for diagonal variables.** CVXPY represents `Variable((2, 2), diag=True)` by its 2
diagonal entries, but the generator (which looks only at the attributes `symmetric`, `PSD`, `NSD`)
reads 4 consecutive entries: for `X` (diagonal, at 0) and `y` (at 2) with solution `[1, 2, 3, 4]` it
returns `X = [1, 2, 3, 4]`, which should be `[1, 0, 0, 2]` and overlaps `y`; if `X` is the only variable
it reads outside the solution vector. -/
theorem C17_fails_for_diagonal_variables :
    (∀ pi, primInfo [⟨"X", [2, 2], false, 0⟩, ⟨"y", [2], false, 2⟩] = .ok pi →
      primReadAll Kind.osqp.traits pi ([1, 2, 3, 4] : List Int) "X" = some [1, 2, 3, 4] ∧
      primReadAll Kind.osqp.traits pi ([1, 2, 3, 4] : List Int) "y" = some [3, 4]) ∧
    (∀ pi, primInfo [⟨"X", [2, 2], false, 0⟩] = .ok pi →
      primReadAll Kind.ecos.traits pi ([1, 2] : List Int) "X" = none) := by
  refine ⟨fun pi h => ?_, fun pi h => ?_⟩
  · cases h; decide
  · cases h; decide

/-- A symmetric 3×3 variable, a scalar and a 2×2 matrix. -/
def exVars : List UVar := [⟨"S", [3, 3], true, 1⟩, ⟨"t", [], false, 0⟩, ⟨"M", [2, 2], false, 7⟩]

example : (exVars.map UVar.name).Nodup ∧ (∀ v ∈ exVars, SymOK v) ∧
    (∀ v ∈ exVars, v.offset + solverSize v ≤ (List.range 11).length) ∧
    exVars.map (fun v => (List.range v.size).map fun k => fn (List.range 11) (entryPos v k))
      = [[1, 2, 3, 2, 4, 5, 3, 5, 6], [0], [7, 8, 9, 10]] := by
  refine ⟨by decide, ?_, by decide, by decide⟩
  intro v hv h
  simp [exVars] at hv
  rcases hv with rfl | rfl | rfl
  · exact ⟨3, rfl⟩
  · cases h
  · cases h

/-! ## C18 -/

/-- **C18** For any list of canonical constraints with distinct ids (equality constraints first), any
user constraints that have a canonical counterpart, joint or split duals (split with at least one
inequality constraint): the table of dual variables is generated, in the order of the user
constraints, and each entry points to the rows of its own constraint. -/
theorem C18_dual_table (split : Bool) (nEq : Nat) (con : List CCon) (hid : (con.map CCon.id).Nodup)
    (hs : split = true → nEq < con.length) (hne : con ≠ []) (dualIds : List Nat)
    (hd : ∀ i ∈ dualIds, i ∈ con.map CCon.id) :
    ∃ ds, dualInfo split nEq con dualIds = .ok ds ∧ ds.length = dualIds.length ∧
      ∀ (u m : Nat) (c : CCon), con[m]? = some c → dualIds[u]? = some c.id →
        ds[u]? = some { name := s!"d{u}", vec := dualVec split nEq m,
                        offset := dualStart split nEq con m, size := c.size } := by
  have hm0 : 0 < con.length := List.length_pos_of_ne_nil hne
  obtain ⟨offs, hoffs, _⟩ := dualOffsets_get split nEq con hs 0 hm0
  have hoff : ∀ m < con.length, offs[m]? = some (dualStart split nEq con m) := by
    intro m hm
    obtain ⟨offs', h1, h2⟩ := dualOffsets_get split nEq con hs m hm
    rw [hoffs] at h1; cases h1; exact h2
  have hvec := dualVecs_get split nEq con hs
  generalize hvecs : (if split then List.replicate nEq 0 ++ List.replicate ((canonOffsets con).length - nEq) 1
      else List.replicate (canonOffsets con).length 0) = vecs at hvec
  -- lookups
  have hl : ∀ m c, con[m]? = some c →
      (dictOf ((con.map CCon.id).zip offs)).lookup c.id = some (dualStart split nEq con m) ∧
      (dictOf ((con.map CCon.id).zip vecs)).lookup c.id = some (dualVec split nEq m) ∧
      (dictOf (con.map fun c => (c.id, c.size))).lookup c.id = some c.size := by
    intro m c hc
    have hm : m < con.length := (List.getElem?_eq_some_iff.mp hc).1
    have hk : (con.map CCon.id)[m]? = some c.id := by rw [List.getElem?_map, hc]; rfl
    exact ⟨lookup_zip _ _ hid m _ _ hk (hoff m hm), lookup_zip _ _ hid m _ _ hk (hvec m hm),
      lookup_nodup con CCon.id CCon.size hid c (List.mem_of_getElem? hc)⟩
  let val : Nat × Nat → DualEntry := fun ik =>
    { name := s!"d{ik.2}"
      vec := ((dictOf ((con.map CCon.id).zip vecs)).lookup ik.1).getD 0
      offset := ((dictOf ((con.map CCon.id).zip offs)).lookup ik.1).getD 0
      size := ((dictOf (con.map fun c => (c.id, c.size))).lookup ik.1).getD 0 }
  have hmap : dualInfo split nEq con dualIds = .ok (dualIds.zipIdx.map val) := by
    unfold dualInfo
    simp only [hvecs]
    rw [hoffs]
    show List.mapM _ _ = _
    apply mapM_ok
    rintro ⟨i, u⟩ hiu
    have hi : i ∈ dualIds := List.fst_mem_of_mem_zipIdx hiu
    obtain ⟨c, hc, hci⟩ := List.mem_map.mp (hd i hi)
    obtain ⟨m, hm, hcm⟩ := List.getElem_of_mem hc
    have hget : con[m]? = some c := by rw [List.getElem?_eq_getElem hm, hcm]
    obtain ⟨h1, h2, h3⟩ := hl m c hget
    subst hci
    simp only [lookupKey, h1, h2, h3, val]
    rfl
  refine ⟨_, hmap, by simp, ?_⟩
  intro u m c hc hu
  obtain ⟨h1, h2, h3⟩ := hl m c hc
  rw [List.getElem?_map, List.getElem?_zipIdx, hu]
  simp only [Option.map_some, val, h1, h2, h3, Option.getD_some, Nat.zero_add]

/-- **C18** The rows of every constraint are inside its dual vector, and different constraints never
share a row. -/
theorem C18_rows_disjoint (split : Bool) (nEq : Nat) (con : List CCon) (hn : nEq ≤ con.length)
    (m : Nat) (c : CCon) (hc : con[m]? = some c) :
    dualStart split nEq con m + c.size ≤ dualLen split nEq con (dualVec split nEq m) ∧
    ∀ m' c', con[m']? = some c' → m < m' → dualVec split nEq m = dualVec split nEq m' →
      dualStart split nEq con m + c.size ≤ dualStart split nEq con m' := by
  have hm : m < con.length := (List.getElem?_eq_some_iff.mp hc).1
  have hcg : con[m] = c := (List.getElem?_eq_some_iff.mp hc).2
  have step : ∀ l : List CCon, ∀ m c, l[m]? = some c →
      ((l.take (m + 1)).map CCon.size).sum = ((l.take m).map CCon.size).sum + c.size := by
    intro l m c h
    rw [List.take_add_one, h]; simp
  have mono : ∀ l : List CCon, ∀ a b, a ≤ b →
      ((l.take a).map CCon.size).sum ≤ ((l.take b).map CCon.size).sum := by
    intro l a b hab
    rw [sum_take_split l a b hab]; omega
  have whole : ∀ l : List CCon, ∀ m c, l[m]? = some c →
      ((l.take m).map CCon.size).sum + c.size ≤ (l.map CCon.size).sum := by
    intro l m c h
    rw [← step l m c h]
    have := mono l (m + 1) (max (m + 1) l.length) (by omega)
    rwa [List.take_of_length_le (i := max (m + 1) l.length) (by omega)] at this
  by_cases h : split = true ∧ nEq ≤ m
  · obtain ⟨rfl, hnm⟩ := h
    have hdrop : (con.drop nEq)[m - nEq]? = some c := by
      rw [List.getElem?_drop, Nat.add_sub_cancel' hnm]; exact hc
    have hst : ∀ m, nEq ≤ m → dualStart true nEq con m = (((con.drop nEq).take (m - nEq)).map CCon.size).sum := by
      intro m h
      simp only [dualStart, h, decide_true, Bool.and_self, if_true]
      rw [List.take_drop, Nat.add_sub_cancel' h]
    refine ⟨?_, ?_⟩
    · rw [hst m hnm]
      simp only [dualVec, dualLen, hnm, decide_true, Bool.and_self, if_true]
      exact whole _ _ _ hdrop
    · intro m' c' hc' hlt hv
      rw [hst m hnm, hst m' (by omega), ← step _ _ _ hdrop]
      exact mono _ _ _ (by omega)
  · have hv0 : dualVec split nEq m = 0 := by
      unfold dualVec
      rw [if_neg]; simpa using h
    have hst : ∀ m, dualVec split nEq m = 0 → dualStart split nEq con m = ((con.take m).map CCon.size).sum := by
      intro m h
      unfold dualVec at h
      unfold dualStart
      split at h
      · cases h
      · rename_i h'; rw [if_neg h']
    refine ⟨?_, ?_⟩
    · rw [hst m hv0, hv0]
      unfold dualLen
      cases split with
      | false => simpa using whole con m c hc
      | true =>
        have hlt : m < nEq := by
          by_contra hcon
          exact h ⟨rfl, by omega⟩
        have : (con.take nEq)[m]? = some c := by rw [List.getElem?_take, if_pos hlt]; exact hc
        have := whole _ _ _ this
        rw [List.take_take, Nat.min_eq_left (by omega)] at this
        simpa using this
    · intro m' c' hc' hlt hv
      rw [hst m hv0, hst m' (by rw [← hv, hv0]), ← step con m c hc]
      exact mono _ _ _ (by omega)

/-- **C18** Reading a dual variable after a solve, for every solver: entry `k` is the entry `offset + k`
of the right dual vector. -/
theorem C18_dual_values {R : Type} [Zero R] (s : Kind) (ds : List DualEntry) (d : DualEntry)
    (hd : d ∈ ds) (duals : Nat → List R) (k : Nat) (hk : k < d.size) :
    dualRead s.traits ds duals d k = (duals d.vec)[d.offset + k]? := by
  unfold dualRead
  by_cases h1 : d.size = 1
  · have hr : s.traits.retDual ds = true := by
      simp only [SolTraits.retDual, Bool.or_eq_true]
      right
      rw [List.any_eq_true]
      exact ⟨d, hd, by simp [h1]⟩
    have : k = 0 := by omega
    subst this
    simp [h1, hr, readAt]
  · rw [if_neg h1]
    cases hst : s.traits.static with
    | true => simp [readAt]
    | false =>
      have hr : s.traits.retDual ds = true := by
        have := traits_ok s
        rw [hst] at this
        simp only [SolTraits.retDual, Bool.or_eq_true]
        left; simpa using this
      simp [hr, hk, readAt]

/-- **C18 fails for split duals without inequality constraints**: generation raises `IndexError`. -/
theorem C18_fails_without_inequalities (con : List CCon) (hne : con ≠ []) (dualIds : List Nat) :
    dualInfo true con.length con dualIds = .error .indexError := by
  have h : (canonOffsets con)[con.length]? = none := by
    rw [List.getElem?_eq_none_iff, canonOffsets_length con hne]
  unfold dualInfo dualOffsets splitOffsets
  simp only [h, if_true]
  rfl

example : dualInfo true 2 [⟨7, 2⟩, ⟨5, 1⟩, ⟨9, 3⟩, ⟨4, 2⟩] [5, 9, 7, 4]
    = .ok [⟨"d0", 0, 2, 1⟩, ⟨"d1", 1, 0, 3⟩, ⟨"d2", 0, 0, 2⟩, ⟨"d3", 1, 3, 2⟩] ∧
  dualInfo false 2 [⟨7, 2⟩, ⟨5, 1⟩, ⟨9, 3⟩, ⟨4, 2⟩] [5, 9, 7, 4]
    = .ok [⟨"d0", 0, 2, 1⟩, ⟨"d1", 0, 3, 3⟩, ⟨"d2", 0, 0, 2⟩, ⟨"d3", 0, 6, 2⟩] := by decide

/-! ## C15, C16 -/

section objective
variable {R : Type} [CommRing R] [DecidableEq R]

/-- The user's objective: the canonical objective plus the constant term, negated for maximization
(CVXPY minimizes the negative of an objective that is to be maximized). -/
def userObjective (isMax : Bool) (canonical constant : R) : R :=
  if isMax then -(canonical + constant) else canonical + constant

/-- The constant term of the objective at parameter values `θ`, given by the last row of CVXPY's
objective tensor. -/
def constantAt (m : RawMap R) (θ : List R) : R :=
  ∑ j ∈ range (θ.length + 1), (m.mapping.at 0 j * m.sign 0) * fn (θ ++ [1]) j

/-- **C15** For any problem, solver, mode, set order and any history of update and solve calls: if the
solver reports the value of the objective it was given (`f` applied to its data and the point), the
reported `obj_val` is the user's objective at the parameter values of that solve, including the constant
term and the sign for maximization. -/
theorem C15_reported_objective {X : Type} (k : Kind) (quad lp : Bool) (hk : k.possible quad lp = true)
    (ps : List UParam) (maps : CId → Option (RawMap R)) (hw : WFInput ps (k.canonIds quad) maps)
    (md : RawMap R) (hmd : maps .d = some md) (hrow : md.mapping.rows = 1)
    (θ0 : { θ : List R // θ.length = totalSize ps })
    (order : List CId → List CId) (horder : ∀ l, (order l).Perm l) (junk : CId → Option (List R))
    (history : List (Call { a : UpdCall R // a.Valid ps })) (isMax : Bool)
    (f : (CId → Option (List R)) → X → R)
    (hf : ∀ D D', (∀ p ∈ (k.solver quad lp).uses, D p = D' p) → f D = f D') :
    let g := canonGen ps (k.canonIds quad) quad maps θ0
    ∃ toks pus' m os,
      genBlock (k.solver quad lp).pus g.quad g.changes order = .ok (toks, pus') ∧
      g.runCalls (k.solver quad lp) toks (g.initMem (k.solver quad lp) junk) history = some (m, os) ∧
      List.Forall₂ (fun θ o => ∃ d, o.offset = some [d] ∧ ∀ x,
          objVal isMax (nonzeroD (maps .d)) (f o.data x) d
            = userObjective isMax (f (fun p => canonVal (maps p) p.isUpper θ.1) x) (constantAt md θ.1))
        (solveParams g.assign θ0 history) os := by
  intro g
  have hg : Generated k quad lp (fun p => mapChanges (maps p) p.isUpper) g :=
    ⟨hk, rfl, rfl, canonGen_sound ps _ quad maps hw θ0⟩
  obtain ⟨toks, pus', m, os, h1, h2, _, h4⟩ :=
    C01_every_solve_uses_current_parameters hg order horder junk history
  refine ⟨toks, pus', m, os, h1, h2, ?_⟩
  refine h4.imp ?_
  intro θ o hfr
  have hcols : md.mapping.cols = θ.1.length + 1 := by rw [θ.2]; exact hw.cols .d md hmd
  have hoff : o.offset = some [constantAt md θ.1] := by
    rw [hfr.2]
    show canonVal (maps .d) (CId.isUpper .d) θ.1 = _
    rw [hmd]
    obtain ⟨v, hv, hv'⟩ := C08_canonicalization_is_affine_map md false θ.1 hcols
    have : CId.isUpper .d = false := rfl
    rw [this, hv, hv', hrow]
    simp [constantAt]
  refine ⟨_, hoff, fun x => ?_⟩
  have hdata : f o.data = f (fun p => canonVal (maps p) p.isUpper θ.1) :=
    hf _ _ fun p hp => hfr.1 p hp
  rw [hdata]
  have hz : nonzeroD (maps .d) = false → constantAt md θ.1 = 0 := by
    intro h
    rw [hmd] at h
    simp only [nonzeroD, decide_eq_false_iff_not] at h
    have hno := nnzCols_zero md.mapping 0 md.mapping.cols h
    unfold constantAt
    apply sum_eq_zero
    intro j hj
    rw [at_of_not_mem md.mapping 0 j ?_, zero_mul, zero_mul]
    rintro e he ⟨_, hej⟩
    exact hno e he ⟨Nat.zero_le _, by rw [hej, hcols]; simpa using hj⟩
  unfold objVal userObjective
  cases hb : nonzeroD (maps .d) with
  | true => simp
  | false => simp [hz hb]

end objective

theorem foldl_add {R : Type} [AddCommMonoid R] (f : Nat → R) (n : Nat) (acc : R) :
    (List.range n).foldl (fun a i => a + f i) acc = acc + ∑ i ∈ range n, f i := by
  induction n with
  | zero => simp
  | succ n ih => rw [List.range_succ, List.foldl_append, ih, sum_range_succ, ← add_assoc]; rfl

theorem foldl_add' {R : Type} [AddCommMonoid R] (f : Nat → R) (a n : Nat) (acc : R) :
    (List.range' a n).foldl (fun s i => s + f i) acc = acc + ∑ i ∈ Ico a (a + n), f i := by
  induction n with
  | zero => simp
  | succ n ih =>
    rw [List.range'_1_concat, List.foldl_append, ih, ← Nat.add_assoc,
      Finset.sum_Ico_succ_top (by omega), ← add_assoc]; rfl

/-- `½ xᵀ P x + qᵀ x`. -/
def quadObjective {R : Type} [Field R] (n : Nat) (P : Nat → Nat → R) (q x : Nat → R) : R :=
  (1 / 2) * (∑ i ∈ range n, ∑ r ∈ range n, x r * P r i * x i) + dot n q x

/-- **C16 (partial)** `cpg_obj` computes `½ xᵀPx + qᵀx` for every compressed matrix `P`, so it equals
the user's objective for minimization problems without constant term. Missing: the constant term and
the sign for maximization, see `C16_fails`. -/
theorem C16_cpg_obj_partial {R : Type} [Field R] (n : Nat) (Pp Pi : Nat → Nat) (Px q x : Nat → R)
    (hmono : ∀ i < n, Pp i ≤ Pp (i + 1)) (hidx : ∀ i < n, ∀ j ∈ Ico (Pp i) (Pp (i + 1)), Pi j < n) :
    cpgObj n Pp Pi Px q x = quadObjective n (csc Pp Pi Px) q x ∧
    cpgObj n Pp Pi Px q x = userObjective false (quadObjective n (csc Pp Pi Px) q x) 0 := by
  have h : cpgObj n Pp Pi Px q x = quadObjective n (csc Pp Pi Px) q x := by
    unfold cpgObj quadObjective dot
    simp only [foldl_add', foldl_add]
    rw [zero_add, mul_sum]
    congr 1
    apply sum_congr rfl
    intro i hi
    have hi : i < n := by simpa using hi
    rw [Nat.add_sub_cancel' (hmono i hi)]
    have e : ∀ r ∈ range n, x r * csc Pp Pi Px r i * x i
        = ∑ j ∈ Ico (Pp i) (Pp (i + 1)), if Pi j = r then x (Pi j) * Px j * x i else 0 := by
      intro r _
      unfold csc
      rw [mul_sum, sum_mul]
      apply sum_congr rfl
      intro j _
      by_cases hj : Pi j = r
      · simp [hj]
      · simp [hj]
    rw [sum_congr rfl e, sum_comm, mul_sum]
    apply sum_congr rfl
    intro j hj
    rw [sum_ite_eq, if_pos (by simpa using hidx i hi j hj)]
    ring
  exact ⟨h, by rw [h]; simp [userObjective]⟩

/-- **C16 fails** when the objective has a constant term and for maximization: minimize `x + 5` and
maximize `x` (canonically: minimize `-x`) at `x = 1`. -/
theorem C16_fails :
    cpgObj (R := ℚ) 1 (fun _ => 0) (fun _ => 0) (fun _ => 0) (fun _ => 1) (fun _ => 1)
      ≠ userObjective false (quadObjective 1 (fun _ _ => 0) (fun _ => 1) (fun _ => 1)) 5 ∧
    cpgObj (R := ℚ) 1 (fun _ => 0) (fun _ => 0) (fun _ => 0) (fun _ => -1) (fun _ => 1)
      ≠ userObjective true (quadObjective 1 (fun _ _ => 0) (fun _ => -1) (fun _ => 1)) 0 := by
  constructor <;> norm_num [cpgObj, userObjective, quadObjective, dot, List.range_succ]

/-- `P = [[2, 1], [1, 0]]`, `q = (1, 1)`, `x = (3, 4)`. -/
example : cpgObj (R := ℚ) 2 (fun i => [0, 2, 3].getD i 0) (fun i => [0, 1, 0].getD i 0)
    (fun i => [2, 1, 1].getD i 0) (fun _ => 1) (fun i => [3, 4].getD i 0) = 28 := by
  norm_num [cpgObj, List.range_succ, List.range']

/-- A problem with objective offset `s - 1` (parameter `s`). -/
example : objVal true (nonzeroD (some ⟨⟨1, 2, [(0, 0, 1), (0, 1, -1)]⟩, fun _ => 1⟩ : Option (RawMap Int))) 5 3 = -8 ∧
    constantAt (⟨⟨1, 2, [(0, 0, 1), (0, 1, -1)]⟩, fun _ => 1⟩ : RawMap Int) [4] = 3 := by decide

end Verif.Props
