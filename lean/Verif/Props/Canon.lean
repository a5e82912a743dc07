import Verif.Lemmas.Canon
import Verif.Props.UpdateSolve
import Mathlib.Algebra.Ring.Int.Defs
/-!
# C06, C07, C08, C19 and the end-to-end form of C01

Parameter layout, dependency information and the generated canonicalization loop, over any
commutative ring (exact arithmetic).
-/
namespace Verif.Props
open Verif.Model Verif.Spec Verif.Lemmas Finset

variable {R : Type} [CommRing R] [DecidableEq R]

/-- **C06** A canonical parameter that `cpg_update_<name>` does not mark as outdated has the same
value before and after the call. -/
theorem C06_unmarked_parameters_are_unaffected {ps : List UParam} {ids : List CId}
    {maps : CId → Option (RawMap R)} (hw : WFInput ps ids maps) (name : String) (idx : Nat) (val : R)
    (hvalid : ∃ p ∈ ps, p.name = name ∧ idx < p.size)
    (θ : List R) (hθ : θ.length = totalSize ps) :
    ∃ θ' marked, updateC ps name idx val θ = some θ' ∧
      (outdatedOf ps ids maps).lookup name = some marked ∧
      ∀ c, c ∉ marked → canonVal (maps c) c.isUpper θ' = canonVal (maps c) c.isUpper θ := by
  obtain ⟨j, hj, hname, hidx⟩ := valid_index (R := R) (a := ⟨name, idx, val⟩) hvalid
  simp only at hname hidx
  obtain ⟨hlt, hupd⟩ := updateC_eq hw.names hw.sizes j hj idx hidx val θ hθ
  rw [hname] at hupd
  have hlook := outdated_lookup ps hw.names ids maps j hj
  rw [hname] at hlook
  refine ⟨_, _, hupd, hlook, fun c hc => ?_⟩
  have h := (canonGen_sound ps ids true maps hw ⟨θ, hθ⟩).marks ⟨⟨name, idx, val⟩, hvalid⟩ c ⟨θ, hθ⟩
    (by show c ∉ ((outdatedOf ps ids maps).lookup name).getD []; rw [hlook]; exact hc)
  have hass := assign_eq true hw ⟨θ, hθ⟩ ⟨⟨name, idx, val⟩, hvalid⟩ ⟨θ, hθ⟩ j hj hname hidx
  have h' : canonVal (maps c) c.isUpper
      ((canonGen ps ids true maps ⟨θ, hθ⟩).assign ⟨⟨name, idx, val⟩, hvalid⟩ ⟨θ, hθ⟩).1
      = canonVal (maps c) c.isUpper θ := h
  rw [hass] at h'
  exact h'

/-- **C07** A canonical parameter for which no canonicalization code is generated has the same value
for all parameter vectors. -/
theorem C07_constant_parameters_are_constant {ps : List UParam} {ids : List CId}
    {maps : CId → Option (RawMap R)} (hw : WFInput ps ids maps) (c : CId)
    (hc : mapChanges (maps c) c.isUpper = false)
    (θ θ' : List R) (hθ : θ.length = totalSize ps) (hθ' : θ'.length = totalSize ps) :
    canonVal (maps c) c.isUpper θ = canonVal (maps c) c.isUpper θ' := by
  cases hm : maps c with
  | none => rfl
  | some m =>
    apply canonVal_const m c.isUpper θ θ' (by rw [hθ]; exact hw.cols c m hm) (by rw [hθ, hθ'])
    simpa [mapChanges, hm] using hc

/-- **C08** On any valid compressed map and any parameter vector the generated loops make no access
outside their arrays, compute every row of the product and leave the rest of the target unchanged. -/
theorem C08_canonicalization_loop (m : Csr R) (rows : Nat) (params out : List R)
    (hm : Csr.Valid m rows params.length) (ho : rows ≤ out.length) :
    ∃ out', canonicalizeC rows m params out = some out' ∧ out'.length = out.length ∧
      (∀ i < rows, out'[i]? = some (∑ k ∈ Ico (m.indptr.getD i 0) (m.indptr.getD (i + 1) 0),
        fn m.data k * fn params (m.indices.getD k 0))) ∧
      (∀ i, rows ≤ i → out'[i]? = out[i]?) :=
  canonicalizeC_csr m rows params out hm ho

/-- **C08** in terms of the mapping matrix itself: each stored entry of canonical parameter is a row
of `mapping * sign` times the parameter vector with trailing 1. For matrices, the rows are those
with a nonzero coefficient, in increasing order. -/
theorem C08_canonicalization_is_affine_map (m : RawMap R) (upper : Bool) (θ : List R)
    (hc : m.mapping.cols = θ.length + 1) :
    ∃ v, canonVal (some m) upper θ = some v ∧
      v = ((if upper then nonzeroRows m.signed else List.range m.mapping.rows).map fun r =>
        ∑ j ∈ range (θ.length + 1), (m.mapping.at r j * m.sign r) * fn (θ ++ [1]) j) := by
  refine ⟨_, canonVal_eq m upper θ hc, ?_⟩
  have hrow : ∀ i < (m.final upper).rows,
      mulVec m.mapping.cols (m.final upper).at (fn (θ ++ [1])) i
        = ∑ j ∈ range (θ.length + 1),
          (m.mapping.at (srcRow m upper i) j * m.sign (srcRow m upper i)) * fn (θ ++ [1]) j := by
    intro i hi
    unfold mulVec
    rw [hc]
    apply sum_congr rfl
    intro j hj
    rw [final_at m upper i j hi (by rw [hc]; simpa using hj)]
  cases upper with
  | false =>
    simp only [Bool.false_eq_true, if_false]
    exact List.map_congr_left fun i hi => by
      rw [hrow i (by simpa using hi)]; simp [srcRow]
  | true =>
    simp only [if_true]
    apply List.ext_getElem
    · simp [RawMap.final, Sp.selectRows]
    · intro i h1 h2
      have hi : i < (m.final true).rows := by simpa using h1
      have hi' : i < (nonzeroRows m.signed).length := by simpa using h2
      have hsrc : srcRow m true i = (nonzeroRows m.signed)[i] := by
        simp [srcRow, List.getElem?_eq_getElem hi']
      simp only [List.getElem_map, List.getElem_range]
      rw [hrow i hi, hsrc]

/-- A parameter block owns position `k`. -/
def Owns (ps : List UParam) (j k : Nat) : Prop :=
  ∃ h : j < ps.length, colOf ps j ≤ k ∧ k < colOf ps j + (ps[j]).size

/-- **C19** The blocks of the user parameters partition the parameter vector: every position below
the trailing constant belongs to exactly one parameter, and the constant to none. -/
theorem C19_blocks_partition (ps : List UParam) (k : Nat) :
    (k < totalSize ps → ∃ j, Owns ps j k ∧ ∀ j', Owns ps j' k → j' = j) ∧
    (totalSize ps ≤ k → ∀ j, ¬ Owns ps j k) := by
  constructor
  · intro hk
    have hex : ∃ n, n ≤ ps.length ∧ k < colOf ps n := ⟨ps.length, Nat.le_refl _, by rw [colOf_length]; exact hk⟩
    classical
    have hspec := Nat.find_spec hex
    have hmin := fun n => @Nat.find_min _ _ hex n
    generalize Nat.find hex = n at hspec hmin
    cases n with
    | zero => simp [colOf] at hspec
    | succ j =>
      have hj : j < ps.length := by omega
      have hlow : colOf ps j ≤ k := by
        by_contra hc
        exact hmin j (by omega) ⟨by omega, by omega⟩
      refine ⟨j, ⟨hj, hlow, by rw [← colOf_succ ps j hj]; exact hspec.2⟩, ?_⟩
      rintro j' ⟨hj', h1, h2⟩
      rw [← colOf_succ ps j' hj'] at h2
      by_contra hne
      rcases Nat.lt_or_gt_of_ne hne with h | h
      · have := colOf_mono ps (i := j' + 1) (j := j) (by omega) (by omega)
        omega
      · have := colOf_mono ps (i := j + 1) (j := j') (by omega) (by omega)
        omega
  · rintro hk j ⟨hj, h1, h2⟩
    rw [← colOf_succ ps j hj] at h2
    have := colOf_mono ps (i := j + 1) (j := ps.length) (by omega) (Nat.le_refl _)
    rw [colOf_length] at this
    omega

/-- **C19** `cpg_update_<name>(idx, val)` with an in-range index changes exactly the entry of that
parameter: it becomes `val`, every other entry (of this and of all other parameters) is kept. -/
theorem C19_update_changes_one_entry {R : Type} {ps : List UParam} (hn : (ps.map UParam.name).Nodup)
    (hpos : ∀ p ∈ ps, 0 < p.size) (j : Nat) (hj : j < ps.length) (idx : Nat)
    (hidx : idx < (ps[j]).size) (val : R) (θ : List R) (hθ : θ.length = totalSize ps) :
    ∃ θ', updateC ps (ps[j]).name idx val θ = some θ' ∧ θ'.length = θ.length ∧
      Owns ps j (colOf ps j + idx) ∧ θ'[colOf ps j + idx]? = some val ∧
      ∀ k, k ≠ colOf ps j + idx → θ'[k]? = θ[k]? := by
  obtain ⟨hlt, h⟩ := updateC_eq hn hpos j hj idx hidx val θ hθ
  refine ⟨_, h, by simp, ⟨hj, by omega, by omega⟩, ?_, ?_⟩
  · rw [List.getElem?_set_self (by rw [hθ]; exact hlt)]
  · intro k hk; rw [List.getElem?_set_ne (Ne.symm hk)]

/-- **C19/C52** With two parameters of the same name the layout breaks: the second parameter's
entries belong to no update function, and writing the merged parameter goes to the first block. -/
theorem C19_fails_for_duplicate_names :
    let ps := [UParam.mk "a" 1, UParam.mk "b" 2, UParam.mk "a" 3]
    colToName ps = [(0, "a"), (3, "b")] ∧ colOf ps 1 = 1 := by
  decide

/-- **C01, end to end** For any user parameters, any affine maps, any solver and mode, any set order
and any history of valid update and solve calls: generation succeeds, every solve is executed without
memory errors in the canonicalization, and the data the solver works on for each canonical parameter
with a map is the affine map applied to the parameter values at that moment. -/
theorem C01_end_to_end (k : Kind) (quad lp : Bool) (hk : k.possible quad lp = true)
    (ps : List UParam) (maps : CId → Option (RawMap R)) (hw : WFInput ps (k.canonIds quad) maps)
    (θ0 : { θ : List R // θ.length = totalSize ps })
    (order : List CId → List CId) (horder : ∀ l, (order l).Perm l) (junk : CId → Option (List R))
    (history : List (Call { a : UpdCall R // a.Valid ps })) :
    let g := canonGen ps (k.canonIds quad) quad maps θ0
    ∃ toks pus' m os,
      genBlock (k.solver quad lp).pus g.quad g.changes order = .ok (toks, pus') ∧
      g.runCalls (k.solver quad lp) toks (g.initMem (k.solver quad lp) junk) history = some (m, os) ∧
      List.Forall₂ (fun θ o => ∀ p ∈ (k.solver quad lp).uses, ∀ mp, maps p = some mp →
          o.data p = some ((if p.isUpper then nonzeroRows mp.signed else List.range mp.mapping.rows).map
            fun r => ∑ j ∈ range (totalSize ps + 1),
              (mp.mapping.at r j * mp.sign r) * fn (θ.1 ++ [1]) j))
        (solveParams g.assign θ0 history) os := by
  intro g
  have hg : Generated k quad lp (fun p => mapChanges (maps p) p.isUpper) g :=
    ⟨hk, rfl, rfl, canonGen_sound ps _ quad maps hw θ0⟩
  obtain ⟨toks, pus', m, os, h1, h2, _, h4⟩ :=
    C01_every_solve_uses_current_parameters hg order horder junk history
  refine ⟨toks, pus', m, os, h1, h2, ?_⟩
  refine h4.imp ?_
  intro θ o hfr p hp mp hmp
  rw [hfr.1 p hp]
  show canonVal (maps p) p.isUpper θ.1 = _
  rw [hmp]
  obtain ⟨v, hv, hv'⟩ := C08_canonicalization_is_affine_map mp p.isUpper θ.1
    (by rw [θ.2]; exact hw.cols p mp hmp)
  rw [hv, hv', θ.2]

/-! ### Non-trivial instances of the hypotheses -/

/-- Parameters `a` (2 entries), `s` (scalar). -/
def exPs : List UParam := [⟨"a", 2⟩, ⟨"s", 1⟩]

/-- `q = (a₀ - 1, 2 s)`, `A = (s)` stored in a 2-row map with a zero row; `u` constant. -/
def exMaps : CId → Option (RawMap Int)
  | .q => some ⟨⟨2, 4, [(0, 0, 1), (1, 2, 2), (0, 3, -1)]⟩, fun _ => 1⟩
  | .A => some ⟨⟨2, 4, [(1, 2, 1), (0, 1, 0)]⟩, fun _ => -1⟩
  | .u => some ⟨⟨1, 4, [(0, 3, 5)]⟩, fun _ => 1⟩
  | _ => none

theorem exWF : WFInput exPs (Kind.osqp.canonIds true) exMaps := by
  refine ⟨by decide, by decide, ?_, ?_⟩
  · intro c m h
    cases c <;> simp [exMaps] at h <;> subst h <;> rfl
  · intro c hc
    cases c <;> simp_all [Kind.canonIds, exMaps]

example : mapChanges (exMaps .u) false = false ∧ mapChanges (exMaps .q) false = true ∧
    (outdatedOf exPs (Kind.osqp.canonIds true) exMaps).lookup "s" = some [.q, .A] ∧
    (outdatedOf exPs (Kind.osqp.canonIds true) exMaps).lookup "a" = some [.q, .A] ∧
    canonVal (exMaps .q) false [3, 4, 5] = some [2, 10] ∧
    canonVal (exMaps .A) true [3, 4, 5] = some [-5] := by decide

end Verif.Props
