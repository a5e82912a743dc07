import Verif.Model.Canon
import Verif.Lemmas.Sparse
import Verif.Spec.Runtime
/-!
Parameter layout and soundness of dependency information.
-/
namespace Verif.Lemmas
open Verif.Model Verif.Spec Finset

/-! ### Dictionaries -/

theorem dictSet_new {κ ν : Type} [DecidableEq κ] (d : List (κ × ν)) (k : κ) (v : ν)
    (h : k ∉ d.map Prod.fst) : dictSet d k v = d ++ [(k, v)] := by
  induction d with
  | nil => rfl
  | cons e d ih =>
    obtain ⟨k', v'⟩ := e
    simp only [List.map_cons, List.mem_cons, not_or] at h
    simp only [dictSet, if_neg (Ne.symm h.1), List.cons_append, ih h.2]

theorem dictOf_nodup {κ ν : Type} [DecidableEq κ] (l : List (κ × ν)) (h : (l.map Prod.fst).Nodup) :
    dictOf l = l := by
  have key : ∀ (l d : List (κ × ν)), ((d ++ l).map Prod.fst).Nodup →
      l.foldl (fun d kv => dictSet d kv.1 kv.2) d = d ++ l := by
    intro l
    induction l with
    | nil => intro d _; simp
    | cons e l ih =>
      intro d hn
      rw [List.foldl_cons, dictSet_new, ih (d ++ [(e.1, e.2)])]
      · simp
      · simpa using hn
      · simp only [List.map_append, List.map_cons] at hn
        have := List.nodup_append.mp hn
        intro hmem
        exact this.2.2 _ hmem _ (by simp) rfl
  exact key l [] (by simpa using h)

theorem nameToSize_nodup (ps : List UParam) (h : (ps.map UParam.name).Nodup) :
    nameToSize ps = ps.map fun p => (p.name, p.size) := by
  unfold nameToSize
  apply dictOf_nodup
  rw [List.map_map]; exact h

/-- The list of (start column, name). -/
def colsFrom : Nat → List UParam → List (Nat × String)
  | _, [] => []
  | cum, p :: ps => (cum, p.name) :: colsFrom (cum + p.size) ps

theorem colToNameLoop_eq (ps : List UParam) (hpos : ∀ p ∈ ps, 0 < p.size) :
    ∀ (cum : Nat) (d : List (Nat × String)), (∀ e ∈ d, e.1 < cum) →
      colToNameLoop (ps.map fun p => (p.name, p.size)) cum d = d ++ colsFrom cum ps := by
  induction ps with
  | nil => intro cum d _; simp [colToNameLoop, colsFrom]
  | cons p ps ih =>
    intro cum d hd
    simp only [List.map_cons, colToNameLoop, colsFrom]
    rw [dictSet_new, ih (fun p' hp' => hpos p' (by simp [hp']))]
    · simp
    · intro e he
      rcases List.mem_append.mp he with h | h
      · have := hd e h; omega
      · simp only [List.mem_singleton] at h; subst h; have := hpos p (by simp); simp; omega
    · intro hmem
      obtain ⟨e, he, hk⟩ := List.mem_map.mp hmem
      have := hd e he
      omega

theorem colToName_eq (ps : List UParam) (hn : (ps.map UParam.name).Nodup)
    (hpos : ∀ p ∈ ps, 0 < p.size) : colToName ps = colsFrom 0 ps := by
  unfold colToName
  rw [nameToSize_nodup ps hn, colToNameLoop_eq ps hpos 0 [] (by simp)]
  rfl

theorem colsFrom_find (ps : List UParam) :
    ∀ (cum j : Nat) (hj : j < ps.length), (ps.map UParam.name).Nodup →
      (colsFrom cum ps).find? (fun e => e.2 == (ps[j]).name)
        = some (cum + colOf ps j, (ps[j]).name) := by
  induction ps with
  | nil => intro cum j hj; simp at hj
  | cons p ps ih =>
    intro cum j hj hn
    cases j with
    | zero => simp [colsFrom, colOf]
    | succ j =>
      simp only [List.map_cons, List.nodup_cons] at hn
      have hj' : j < ps.length := by simpa using hj
      have hne : p.name ≠ (ps[j]).name := by
        intro h
        exact hn.1 (h ▸ List.mem_map.mpr ⟨ps[j], List.getElem_mem hj', rfl⟩)
      simp only [colsFrom, List.getElem_cons_succ]
      rw [List.find?_cons_of_neg (by simpa using hne), ih (cum + p.size) j hj' hn.2]
      simp only [colOf, List.take_succ_cons, List.map_cons, List.sum_cons, Nat.add_assoc]

/-- The generated update function of the `j`-th parameter writes from its CVXPY column on. -/
theorem baseCol_eq (ps : List UParam) (hn : (ps.map UParam.name).Nodup)
    (hpos : ∀ p ∈ ps, 0 < p.size) (j : Nat) (hj : j < ps.length) :
    baseCol ps (ps[j]).name = some (colOf ps j) := by
  unfold baseCol
  rw [colToName_eq ps hn hpos, colsFrom_find ps 0 j hj hn]
  simp

theorem colOf_succ (ps : List UParam) (j : Nat) (hj : j < ps.length) :
    colOf ps (j + 1) = colOf ps j + (ps[j]).size := by
  unfold colOf
  rw [List.take_succ_eq_append_getElem hj, List.map_append, List.sum_append]
  simp

theorem colOf_length (ps : List UParam) : colOf ps ps.length = totalSize ps := by
  simp [colOf, totalSize]

theorem colOf_mono (ps : List UParam) {i j : Nat} (h : i ≤ j) (hj : j ≤ ps.length) :
    colOf ps i ≤ colOf ps j := by
  induction j with
  | zero => have : i = 0 := by omega
            subst this; exact Nat.le_refl _
  | succ j ih =>
    by_cases hij : i = j + 1
    · subst hij; exact Nat.le_refl _
    · rw [colOf_succ ps j (by omega)]
      have := ih (by omega) (by omega)
      omega

theorem lookup_of_nodup {κ ν : Type} [DecidableEq κ] (l : List (κ × ν)) (h : (l.map Prod.fst).Nodup)
    (e : κ × ν) (he : e ∈ l) : l.lookup e.1 = some e.2 := by
  induction l with
  | nil => simp at he
  | cons e' l ih =>
    obtain ⟨k, v⟩ := e'
    rw [List.map_cons, List.nodup_cons] at h
    rcases List.mem_cons.mp he with h1 | h1
    · subst h1; simp [List.lookup_cons]
    · have hne : e.1 ≠ k := by
        intro h2
        exact h.1 (h2 ▸ List.mem_map.mpr ⟨e, h1, rfl⟩)
      rw [List.lookup_cons]
      simp only [beq_eq_false_iff_ne.mpr hne]
      exact ih h.2 h1

variable {R : Type}

theorem outdated_lookup (ps : List UParam) (hn : (ps.map UParam.name).Nodup) (ids : List CId)
    (maps : CId → Option (RawMap R)) (j : Nat) (hj : j < ps.length) :
    (outdatedOf ps ids maps).lookup (ps[j]).name
      = some (ids.filter fun c => adjacent ps (maps c) j) := by
  have hnd : ((ps.zipIdx.map fun pj => (pj.1.name,
      ids.filter fun c => adjacent ps (maps c) pj.2)).map Prod.fst).Nodup := by
    rw [List.map_map]
    have : (Prod.fst ∘ fun pj : UParam × Nat => (pj.1.name, ids.filter fun c => adjacent ps (maps c) pj.2))
        = UParam.name ∘ Prod.fst := rfl
    rw [this, ← List.map_map, List.zipIdx_map_fst]; exact hn
  unfold outdatedOf
  rw [dictOf_nodup _ hnd]
  have hmem : ((ps[j]).name, ids.filter fun c => adjacent ps (maps c) j) ∈
      ps.zipIdx.map fun pj => (pj.1.name, ids.filter fun c => adjacent ps (maps c) pj.2) := by
    refine List.mem_map.mpr ⟨(ps[j], j), ?_, rfl⟩
    exact List.mem_zipIdx_iff_getElem?.mpr (by simp [List.getElem?_eq_getElem hj])
  exact lookup_of_nodup _ hnd _ hmem

/-! ### Values -/

theorem nonzeroRows_lt [Zero R] [DecidableEq R] (A : Sp R) : ∀ i ∈ nonzeroRows A, i < A.rows := by
  intro i hi
  unfold nonzeroRows at hi
  exact List.mem_range.mp (List.mem_filter.mp hi).1

theorem final_wf [CommRing R] [DecidableEq R] (m : RawMap R) (u : Bool) : (m.final u).WF := by
  unfold RawMap.final
  split
  · exact selectRows_wf _ (ofDense_wf _ _ _) _
  · exact ofDense_wf _ _ _

theorem final_cols [CommRing R] [DecidableEq R] (m : RawMap R) (u : Bool) :
    (m.final u).cols = m.mapping.cols := by
  unfold RawMap.final
  split <;> rfl

/-- Row of the original map that row `i` of the final map comes from. -/
def srcRow [CommRing R] [DecidableEq R] (m : RawMap R) (u : Bool) (i : Nat) : Nat :=
  if u then (nonzeroRows m.signed).getD i 0 else i

theorem srcRow_lt [CommRing R] [DecidableEq R] (m : RawMap R) (u : Bool) (i : Nat)
    (hi : i < (m.final u).rows) : srcRow m u i < m.mapping.rows := by
  unfold srcRow
  unfold RawMap.final at hi
  split
  · rename_i h
    rw [if_pos h] at hi
    simp only [Sp.selectRows] at hi
    have : (nonzeroRows m.signed).getD i 0 = (nonzeroRows m.signed)[i] := by
      simp [List.getD, List.getElem?_eq_getElem hi]
    rw [this]
    exact nonzeroRows_lt m.signed _ (List.getElem_mem hi)
  · rename_i h
    rw [if_neg h] at hi
    exact hi

theorem final_at [CommRing R] [DecidableEq R] (m : RawMap R) (u : Bool) (i j : Nat)
    (hi : i < (m.final u).rows) (hj : j < m.mapping.cols) :
    (m.final u).at i j = m.mapping.at (srcRow m u i) j * m.sign (srcRow m u i) := by
  have hlt := srcRow_lt m u i hi
  unfold RawMap.final srcRow at *
  by_cases h : u = true
  · simp only [h, if_true] at hi hlt ⊢
    rw [selectRows_at _ _ _ hi]
    exact ofDense_at _ _ _ _ _ hlt hj
  · simp only [h] at hi hlt ⊢
    exact ofDense_at _ _ _ _ _ hlt hj

theorem nnzCols_zero (A : Sp R) (lo hi : Nat) (h : ¬ 0 < A.nnzCols lo hi) :
    ∀ e ∈ A.ents, ¬ (lo ≤ e.2.1 ∧ e.2.1 < hi) := by
  intro e he hc
  apply h
  unfold Sp.nnzCols
  exact List.length_pos_of_mem (List.mem_filter.mpr ⟨he, by simpa using hc⟩)

/-- `cpg_canonicalize_<p>` does not fail and computes the product with the final map. -/
theorem canonVal_eq [CommRing R] [DecidableEq R] (m : RawMap R) (u : Bool) (θ : List R)
    (hc : m.mapping.cols = θ.length + 1) :
    canonVal (some m) u θ = some ((List.range (m.final u).rows).map fun i =>
      mulVec m.mapping.cols (m.final u).at (fn (θ ++ [1])) i) := by
  unfold canonVal
  simp only [Option.bind_some]
  obtain ⟨out, h1, h2, h3, h4⟩ := canonicalizeC_ok (m.final u) (final_wf m u) (θ ++ [1])
    (List.replicate (m.final u).rows 0) (by rw [final_cols, hc]; simp) (by simp)
  rw [h1]
  congr 1
  apply List.ext_getElem?
  intro i
  by_cases hi : i < (m.final u).rows
  · rw [h3 i hi, final_cols]; simp [hi]
  · rw [List.getElem?_eq_none (by rw [h2]; simp; omega), List.getElem?_eq_none (by simp; omega)]

theorem mulVec_congr [CommRing R] (n : Nat) (M : Nat → Nat → R) (v w : Nat → R) (i : Nat)
    (h : ∀ j < n, M i j = 0 ∨ v j = w j) : mulVec n M v i = mulVec n M w i := by
  unfold mulVec
  apply sum_congr rfl
  intro j hj
  rcases h j (by simpa using hj) with h | h
  · rw [h, zero_mul, zero_mul]
  · rw [h]

/-- An update to a column without stored entries does not change the canonical parameter. -/
theorem canonVal_set [CommRing R] [DecidableEq R] (m : RawMap R) (u : Bool) (θ : List R) (k : Nat)
    (val : R) (hc : m.mapping.cols = θ.length + 1) (hk : k < θ.length)
    (h : ∀ e ∈ m.mapping.ents, e.2.1 ≠ k) :
    canonVal (some m) u (θ.set k val) = canonVal (some m) u θ := by
  rw [canonVal_eq m u θ hc, canonVal_eq m u (θ.set k val) (by simpa using hc)]
  congr 1
  apply List.map_congr_left
  intro i hi
  apply mulVec_congr
  intro j hj
  by_cases hjk : j = k
  · left
    rw [final_at m u i j (by simpa using hi) hj, at_of_not_mem]
    · simp
    · intro e he hc'; exact h e he (hjk ▸ hc'.2)
  · right
    unfold fn
    simp only [List.getD, List.getElem?_append, List.length_set]
    split
    · rw [List.getElem?_set_ne (Ne.symm hjk)]
    · rfl

/-- A map without entries in the parameter columns is constant. -/
theorem canonVal_const [CommRing R] [DecidableEq R] (m : RawMap R) (u : Bool) (θ θ' : List R)
    (hc : m.mapping.cols = θ.length + 1) (hl : θ'.length = θ.length)
    (h : ¬ 0 < (m.final u).nnzCols 0 ((m.final u).cols - 1)) :
    canonVal (some m) u θ = canonVal (some m) u θ' := by
  rw [canonVal_eq m u θ hc, canonVal_eq m u θ' (by rw [hl]; exact hc)]
  congr 1
  apply List.map_congr_left
  intro i hi
  apply mulVec_congr
  intro j hj
  by_cases hjk : j < θ.length
  · left
    apply at_of_not_mem
    intro e he hcc
    apply nnzCols_zero _ _ _ h e he
    rw [final_cols, hc]
    omega
  · right
    have : j = θ.length := by omega
    subst this
    simp [fn, List.getD, ← hl]

/-! ### Soundness of the generated dependency information -/

/-- Well-formed input of code generation. -/
structure WFInput (ps : List UParam) (ids : List CId) (maps : CId → Option (RawMap R)) : Prop where
  names : (ps.map UParam.name).Nodup
  sizes : ∀ p ∈ ps, 0 < p.size
  cols : ∀ c m, maps c = some m → m.mapping.cols = totalSize ps + 1
  other : ∀ c, c ∉ ids → maps c = none

theorem valid_index {ps : List UParam} {a : UpdCall R} (h : a.Valid ps) :
    ∃ j, ∃ hj : j < ps.length, (ps[j]).name = a.name ∧ a.idx < (ps[j]).size := by
  obtain ⟨p, hp, h1, h2⟩ := h
  obtain ⟨j, hj, rfl⟩ := List.getElem_of_mem hp
  exact ⟨j, hj, h1, h2⟩

theorem updateC_eq {ps : List UParam} (hn : (ps.map UParam.name).Nodup)
    (hpos : ∀ p ∈ ps, 0 < p.size) (j : Nat) (hj : j < ps.length) (idx : Nat)
    (hidx : idx < (ps[j]).size) (val : R) (θ : List R) (hθ : θ.length = totalSize ps) :
    colOf ps j + idx < totalSize ps ∧
    updateC ps (ps[j]).name idx val θ = some (θ.set (colOf ps j + idx) val) := by
  have hlt : colOf ps j + idx < totalSize ps := by
    have h1 := colOf_succ ps j hj
    have h2 := colOf_mono ps (i := j + 1) (j := ps.length) (by omega) (Nat.le_refl _)
    rw [colOf_length] at h2
    omega
  refine ⟨hlt, ?_⟩
  unfold updateC
  rw [baseCol_eq ps hn hpos j hj]
  simp [store, hθ, hlt]

theorem assign_eq [CommRing R] [DecidableEq R] {ps : List UParam} {ids : List CId} (quad : Bool)
    {maps : CId → Option (RawMap R)} (hw : WFInput ps ids maps)
    (θ0 : { θ : List R // θ.length = totalSize ps }) (a : { a : UpdCall R // a.Valid ps })
    (θ : { θ : List R // θ.length = totalSize ps }) (j : Nat) (hj : j < ps.length)
    (hname : (ps[j]).name = a.1.name) (hidx : a.1.idx < (ps[j]).size) :
    ((canonGen ps ids quad maps θ0).assign a θ).1 = θ.1.set (colOf ps j + a.1.idx) a.1.val := by
  have h := (updateC_eq hw.names hw.sizes j hj a.1.idx hidx a.1.val θ.1 θ.2).2
  rw [hname] at h
  simp only [canonGen]
  split
  · rename_i θ' h'
    rw [h] at h'
    simp only [Option.some.injEq] at h'
    exact h'.symm
  · rename_i h'
    rw [h] at h'; cases h'

theorem canonGen_sound [CommRing R] [DecidableEq R] (ps : List UParam) (ids : List CId) (quad : Bool)
    (maps : CId → Option (RawMap R)) (hw : WFInput ps ids maps)
    (θ0 : { θ : List R // θ.length = totalSize ps }) : Sound (canonGen ps ids quad maps θ0) := by
  constructor
  · intro a p θ hp
    obtain ⟨j, hj, hname, hidx⟩ := valid_index a.2
    have hlt := (updateC_eq hw.names hw.sizes j hj a.1.idx hidx a.1.val θ.1 θ.2).1
    show canonVal (maps p) p.isUpper ((canonGen ps ids quad maps θ0).assign a θ).1 = canonVal (maps p) p.isUpper θ.1
    rw [assign_eq quad hw θ0 a θ j hj hname hidx]
    cases hm : maps p with
    | none => rfl
    | some m =>
      apply canonVal_set m p.isUpper θ.1 _ _ (by rw [θ.2]; exact hw.cols p m hm) (by rw [θ.2]; exact hlt)
      have hid : p ∈ ids := by
        by_contra hid
        rw [hw.other p hid] at hm; cases hm
      have hout : p ∉ ids.filter fun c => adjacent ps (maps c) j := by
        have hp' : p ∉ ((outdatedOf ps ids maps).lookup a.1.name).getD [] := hp
        rw [← hname, outdated_lookup ps hw.names ids maps j hj] at hp'
        exact hp'
      have hadj : adjacent ps (maps p) j = false := by
        cases hc : adjacent ps (maps p) j with
        | false => rfl
        | true => exact absurd (List.mem_filter.mpr ⟨hid, hc⟩) hout
      simp only [adjacent, hm, decide_eq_false_iff_not] at hadj
      intro e he hek
      apply nnzCols_zero _ _ _ hadj e he
      rw [colOf_succ ps j hj]
      omega
  · intro p θ θ' hp
    show canonVal (maps p) p.isUpper θ.1 = canonVal (maps p) p.isUpper θ'.1
    cases hm : maps p with
    | none => rfl
    | some m =>
      have hid : p ∈ ids := by
        by_contra hid
        rw [hw.other p hid] at hm; cases hm
      have hch : mapChanges (maps p) p.isUpper = false := by
        simpa [canonGen, Changes.getD, changesOf, hid] using hp
      apply canonVal_const m p.isUpper θ.1 θ'.1 (by rw [θ.2]; exact hw.cols p m hm)
        (by rw [θ.2, θ'.2])
      simpa [mapChanges, hm] using hch
  · intro p θ hp
    show canonVal (maps p) p.isUpper θ0.1 = canonVal (maps p) p.isUpper θ.1
    cases hm : maps p with
    | none => rfl
    | some m =>
      have hid : p ∈ ids := by
        by_contra hid
        rw [hw.other p hid] at hm; cases hm
      have hch : mapChanges (maps p) p.isUpper = false := by
        simpa [canonGen, Changes.getD, changesOf, hid] using hp
      apply canonVal_const m p.isUpper θ0.1 θ.1 (by rw [θ0.2]; exact hw.cols p m hm)
        (by rw [θ0.2, θ.2])
      simpa [mapChanges, hm] using hch

end Verif.Lemmas
