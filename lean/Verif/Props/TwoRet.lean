import Verif.Spec.TwoRet
import Verif.Props.Retrieve
/-!
# C84: solutions in two stages

Theorem names end in `_partial` where the property holds for part of the solvers; `C84_fails_…` show the rest.
-/
namespace Verif.Props
open Verif.Model Verif.Model.TwoRet Verif.Spec Verif.Spec.TwoRet Verif.Lemmas Finset

/-- When the intermediate solution is copied. -/
theorem needed_eq (s : Second) : s.needed = (s.kind.traits.always || s.nx == 1) := by
  unfold Second.needed
  rw [primInfo_eq _ (by intro v hv; simp at hv; subst hv; intro h; cases h)]
  simp [SolTraits.retPrim, dictOf, dictSet, UVar.size]

/-- Is the field a pointer? -/
def pointerField (s : Second) (v : UVar) : Bool := s.kind.traits.static && !v.sym && v.size != 1

/-- A variable moved by an offset. -/
def moveVar (o : Nat) (v : UVar) : UVar := { v with offset := v.offset + o }

theorem entryPos_move (o : Nat) (v : UVar) (k : Nat) : entryPos (moveVar o v) k = o + entryPos v k := by
  unfold entryPos moveVar
  cases hs : v.sym <;> cases hv : v.shape <;> simp <;> omega

theorem symOK_move (o : Nat) (v : UVar) (h : SymOK v) : SymOK (moveVar o v) := h

theorem idxList_move (o : Nat) (v : UVar) : idxList (moveVar o v) = (idxList v).map (· + o) := by
  unfold idxList
  rw [List.map_map]
  apply List.map_congr_left
  intro k _
  rw [entryPos_move]; simp; omega

theorem mergePrim_move (s : Second) (vs : List UVar) (hnames : (vs.map UVar.name).Nodup)
    (hsym : ∀ v ∈ vs, SymOK v) (pi : PrimInfo) (hpi : primInfo vs = .ok pi) (h : s.needed = false) :
    primInfo (vs.map (moveVar s.offset)) = .ok (mergePrim s pi) := by
  rw [primInfo_eq vs hsym] at hpi
  cases hpi
  rw [primInfo_eq _ (by
    intro v hv; obtain ⟨w, hw, rfl⟩ := List.mem_map.mp hv; exact symOK_move _ _ (hsym w hw))]
  have nd : ∀ {ν : Type} (f : UVar → ν), ((vs.map fun v => (v.name, f v)).map Prod.fst).Nodup := by
    intro ν f; rw [List.map_map]; exact hnames
  simp only [mergePrim, h, List.map_map, Bool.false_eq_true, if_false]
  simp only [Function.comp_def, moveVar, UVar.size]
  rw [dictOf_nodup _ (nd fun v => v.offset), dictOf_nodup _ (nd idxList),
    dictOf_nodup _ (nd fun v => v.offset + s.offset),
    dictOf_nodup (vs.map fun v => (v.name, idxList { v with offset := v.offset + s.offset })) (nd _)]
  simp only [List.map_map, Function.comp_def]
  congr 2
  apply List.map_congr_left
  intro v _
  exact congrArg _ (idxList_move s.offset v)

/-- Where a field of `CPG_Prim` reads in two stages. -/
theorem primRead2_eq {R : Type} [Zero R] (s : Second) (vs : List UVar)
    (hnames : (vs.map UVar.name).Nodup) (hsym : ∀ v ∈ vs, SymOK v) (pi : PrimInfo) (hpi : primInfo vs = .ok pi)
    (x : List R) (m : Mem R) (v : UVar) (hv : v ∈ vs) (k : Nat) (hk : k < v.size) :
    primRead2 s pi x m v.name k =
      if s.needed then if pointerField s v then m.x[entryPos v k]? else x[entryPos v k]?
      else x[s.offset + entryPos v k]? := by
  cases hn : s.needed with
  | false =>
    have h1 := mergePrim_move s vs hnames hsym pi hpi hn
    have h2 := primRead_eq s.kind.traits (traits_ok s.kind) (vs.map (moveVar s.offset))
      (by rw [List.map_map]; exact hnames)
      (by intro v hv; obtain ⟨w, hw, rfl⟩ := List.mem_map.mp hv; exact symOK_move _ _ (hsym w hw))
      _ h1 x (moveVar s.offset v) (List.mem_map_of_mem hv) k hk
    rw [entryPos_move] at h2
    simp only [Bool.false_eq_true, if_false]
    rw [← h2]
    unfold primRead2 primRead
    simp [hn, moveVar]
  | true =>
    have h2 := primRead_eq s.kind.traits (traits_ok s.kind) vs hnames hsym pi hpi x v hv k hk
    simp only [if_true]
    have hm : mergePrim s pi = pi := by simp [mergePrim, hn]
    cases hp : pointerField s v with
    | false =>
      simp only [Bool.false_eq_true, if_false]
      rw [← h2]
      have hpi' := hpi
      rw [primInfo_eq vs hsym] at hpi'
      cases hpi'
      unfold primRead2 primRead
      simp only [hm]
      rw [lookup_nodup vs UVar.name UVar.size hnames v hv,
        lookup_nodup vs UVar.name UVar.sym hnames v hv,
        lookup_nodup vs UVar.name UVar.offset hnames v hv,
        lookup_nodup vs UVar.name idxList hnames v hv]
      simp only [Option.bind_eq_bind, Option.bind_some]
      by_cases h1 : v.size = 1
      · simp [h1]
      · by_cases h3 : (v.sym || !s.kind.traits.static) = true
        · simp [h1, h3]
        · exfalso
          simp [pointerField, h1] at hp h3
          rw [hp h3.2] at h3
          simp at h3
    | true =>
      simp only [if_true]
      have hpi' := hpi
      rw [primInfo_eq vs hsym] at hpi'
      cases hpi'
      unfold primRead2
      simp only [hm]
      rw [lookup_nodup vs UVar.name UVar.size hnames v hv,
        lookup_nodup vs UVar.name UVar.sym hnames v hv,
        lookup_nodup vs UVar.name UVar.offset hnames v hv,
        lookup_nodup vs UVar.name idxList hnames v hv]
      simp only [Option.bind_eq_bind, Option.bind_some]
      simp only [pointerField, Bool.and_eq_true, Bool.not_eq_true', bne_iff_ne, ne_eq] at hp
      obtain ⟨⟨h1, h3⟩, h4⟩ := hp
      simp [h1, h3, h4, hn, readAt, entryPos]

theorem mapM_read_isSome {R : Type} (x : List R) (o n : Nat) :
    ((List.range n).mapM fun i => readAt x (o + i)).isSome ↔ n = 0 ∨ o + n ≤ x.length := by
  induction n with
  | zero => simp
  | succ n ih =>
    rw [List.range_succ, List.mapM_append]
    by_cases h : o + n < x.length
    · have hs : ((List.range n).mapM fun i => readAt x (o + i)).isSome := ih.mpr (by omega)
      obtain ⟨l, hl⟩ := Option.isSome_iff_exists.mp hs
      rw [hl]
      simp [readAt, List.getElem?_eq_getElem h]
      omega
    · have : readAt x (o + n) = none := by simp [readAt]; omega
      cases (List.range n).mapM fun i => readAt x (o + i) with
      | none => simp; omega
      | some l => simp [this]; omega

theorem mapM_read_some {R : Type} [Zero R] (x : List R) (o a n : Nat) (h : o + a + n ≤ x.length) :
    ((List.range' a n).mapM fun i => readAt x (o + i)) = some ((List.range' a n).map fun i => fn x (o + i)) := by
  apply mapM_some
  intro i hi
  have hi := List.mem_range'_1.mp hi
  have : o + i < x.length := by omega
  simp [readAt, fn, List.getElem?_eq_getElem this]

/-- `gradient_sol_y` is always filled, with the dual solution of the quadratic program. -/
theorem solY_eq {R : Type} [Zero R] [Sub R] (s : Second) (x : List R) (duals : Nat → List R) (h : Fits s x duals) :
    solY s duals = some ((List.range s.d1.size).map (qpY s duals) ++ List.replicate (s.rows - s.d1.size) 0) := by
  have ha : ((List.range s.d0.size).mapM fun i => do
      let u ← readAt (duals s.d1.vec) (s.d1.offset + i)
      let l ← readAt (duals s.d0.vec) (s.d0.offset + i)
      pure (u - l)) = some ((List.range s.d0.size).map (qpY s duals)) := by
    apply mapM_some
    intro i hi
    have hi : i < s.d0.size := by simpa using hi
    have h1 : s.d0.offset + i < (duals s.d0.vec).length := by have := h.low; omega
    have h2 : s.d1.offset + i < (duals s.d1.vec).length := by have := h.up; have := h.eqs; omega
    simp [readAt, qpY, hi, upperMult, lowerMult, fn, List.getElem?_eq_getElem h1, List.getElem?_eq_getElem h2]
  have hb := mapM_read_some (duals s.d1.vec) s.d1.offset s.d0.size (s.d1.size - s.d0.size)
    (by have := h.up; have := h.eqs; omega)
  have hb' : (List.range' s.d0.size (s.d1.size - s.d0.size)).map (fun i => fn (duals s.d1.vec) (s.d1.offset + i))
      = (List.range' s.d0.size (s.d1.size - s.d0.size)).map (qpY s duals) := by
    apply List.map_congr_left
    intro i hi
    have hi := List.mem_range'_1.mp hi
    simp [qpY, upperMult, show ¬ i < s.d0.size by omega]
  have hcat : (List.range s.d0.size).map (qpY s duals) ++
      (List.range' s.d0.size (s.d1.size - s.d0.size)).map (qpY s duals) = (List.range s.d1.size).map (qpY s duals) := by
    rw [← List.map_append, List.range_eq_range', List.range_eq_range']
    congr 1
    have := List.range'_append_1 (s := 0) (m := s.d0.size) (n := s.d1.size - s.d0.size)
    simp only [Nat.zero_add] at this
    rw [this]
    congr 1
    have := h.eqs; omega
  unfold solY
  simp only [Option.bind_eq_bind]
  simp only [Option.bind_eq_bind] at ha
  rw [ha, hb, hb']
  simp only [Option.bind_some, hcat]
  simp [h.rows]

/-- **C84** (dual solution used for derivatives) For every solver and all dual vectors, `gradient_sol_y` holds the dual
solution of the quadratic program after every solve that is defined, and these multipliers are those of the
quadratic program: they make it stationary whenever the multipliers of the second problem make that problem
stationary. -/
theorem C84_dual_solution {R : Type} [CommRing R] (s : Second) (x : List R) (duals : Nat → List R)
    (h : Fits s x duals) (pi : PrimInfo) (m : Mem R) (hm : retrieve s pi x duals = some m) :
    (∀ i < s.d1.size, m.y[i]? = some (qpY s duals i)) ∧
    ∀ (A : Nat → Nat → R) (g : Nat → R) (j : Nat),
      Stationary2 s.d1.size s.d0.size A g (lowerMult s duals) (upperMult s duals) j →
      Stationary1 s.d1.size A g (fun i => fn m.y i) j := by
  have hy : m.y = (List.range s.d1.size).map (qpY s duals) ++ List.replicate (s.rows - s.d1.size) 0 := by
    unfold retrieve at hm
    rw [solY_eq s x duals h] at hm
    cases hx : memX s pi x with
    | none => rw [hx] at hm; cases hm
    | some a => rw [hx] at hm; cases hm; rfl
  have hget : ∀ i < s.d1.size, m.y[i]? = some (qpY s duals i) := by
    intro i hi
    rw [hy, List.getElem?_append_left (by simpa using hi)]
    simp [hi]
  refine ⟨hget, fun A g j hst => ?_⟩
  have hsum : ∑ i ∈ range s.d1.size, A i j * fn m.y i = ∑ i ∈ range s.d1.size, A i j * qpY s duals i := by
    apply sum_congr rfl
    intro i hi
    rw [show fn m.y i = qpY s duals i by simp [fn, hget i (mem_range.mp hi)]]
  unfold Stationary1
  rw [hsum]
  have hst' : g j - (∑ i ∈ range s.d0.size, A i j * lowerMult s duals i)
      + ∑ i ∈ range s.d1.size, A i j * upperMult s duals i = 0 := hst
  have hlow : ∑ i ∈ range s.d0.size, A i j * lowerMult s duals i
      = ∑ i ∈ range s.d1.size, A i j * (if i < s.d0.size then lowerMult s duals i else 0) := by
    have := h.eqs
    rw [← sum_subset (range_subset_range.mpr this) (f := fun i => A i j * (if i < s.d0.size then lowerMult s duals i else 0))]
    · apply sum_congr rfl
      intro i hi
      rw [if_pos (mem_range.mp hi)]
    · intro i _ hi
      rw [if_neg (by simpa using hi)]; ring
  have hq : ∑ i ∈ range s.d1.size, A i j * qpY s duals i = (∑ i ∈ range s.d1.size, A i j * upperMult s duals i)
      - ∑ i ∈ range s.d1.size, A i j * (if i < s.d0.size then lowerMult s duals i else 0) := by
    rw [← sum_sub_distrib]
    apply sum_congr rfl
    intro i _
    unfold qpY
    split <;> ring
  rw [hq, ← hlow, ← hst']
  ring

/-- **C84** (exact) The retrieval of a solve is defined for every solution of the solver if the variables of the quadratic
program come first, or if the solution is not copied (SCS with at least two variables); if the variables come later, the
copy of the solution always reads behind the end of the solver's vector. -/
theorem C84_defined_iff {R : Type} [Zero R] [Sub R] (s : Second) (x : List R) (duals : Nat → List R) (h : Fits s x duals)
    (vs : List UVar) (pi : PrimInfo) (hpi : primInfo vs = .ok pi)
    (hret : s.needed = true → s.kind.traits.retPrim pi = true) :
    (retrieve s pi x duals).isSome ↔ s.needed = false ∨ s.offset = 0 := by
  unfold retrieve
  rw [solY_eq s x duals h]
  have hx : (memX s pi x).isSome ↔ s.needed = false ∨ s.offset = 0 := by
    unfold memX
    cases hn : s.needed with
    | false => simp
    | true =>
      have hm : mergePrim s pi = pi := by simp [mergePrim, hn]
      rw [hm, hret hn]
      simp only [if_true, solX, Bool.true_eq_false, false_or]
      rw [mapM_read_isSome, h.len]
      have := h.pos; have := h.block
      omega
  rw [← hx]
  cases memX s pi x <;> simp

/-- **C84** (primal solution used for derivatives) After every solve whose retrieval is defined, `gradient_sol_x` starts with the
primal solution of the quadratic program. -/
theorem C84_primal_solution {R : Type} [Zero R] [Sub R] (s : Second) (x : List R) (duals : Nat → List R) (h : Fits s x duals)
    (pi : PrimInfo) (hret : s.needed = true → s.kind.traits.retPrim pi = true) (m : Mem R) (hm : retrieve s pi x duals = some m) :
    ∀ i < s.nx, m.x[i]? = some (qpX s x i) := by
  intro i hi
  have hlt : s.offset + i < x.length := by have := h.len; have := h.block; omega
  have hx : memX s pi x = some m.x := by
    unfold retrieve at hm
    cases hx : memX s pi x with
    | none => rw [hx] at hm; cases hm
    | some a =>
      rw [hx, solY_eq s x duals h] at hm
      cases hm
      rfl
  unfold memX at hx
  cases hn : s.needed with
  | false =>
    rw [hn] at hx
    simp only [Bool.false_eq_true, if_false, Option.some.injEq] at hx
    rw [← hx, List.getElem?_drop, List.getElem?_eq_getElem hlt]
    simp [qpX, fn, List.getElem?_eq_getElem hlt]
  | true =>
    have hmp : mergePrim s pi = pi := by simp [mergePrim, hn]
    rw [hn, hmp, hret hn] at hx
    simp only [if_true] at hx
    unfold solX at hx
    have hle : s.offset + s.nVar ≤ x.length := by
      rcases (mapM_read_isSome x s.offset s.nVar).1 (by rw [hx]; rfl) with h0 | h0
      · have := h.block; have := h.pos; omega
      · exact h0
    have he := mapM_read_some x s.offset 0 s.nVar (by omega)
    rw [← List.range_eq_range'] at he
    rw [he, Option.some.injEq] at hx
    rw [← hx]
    have : i < s.nVar := by have := h.block; omega
    simp [this, qpX]

/-- **C84** (part: no offset, or SCS with at least two variables) Every user variable reads the entries of the solution
of the quadratic program that belong to it. -/
theorem C84_prim_partial {R : Type} [Zero R] [Sub R] (s : Second) (x : List R) (duals : Nat → List R) (h : Fits s x duals)
    (vs : List UVar) (hnames : (vs.map UVar.name).Nodup) (hsym : ∀ v ∈ vs, SymOK v) (hin : Inside s vs)
    (pi : PrimInfo) (hpi : primInfo vs = .ok pi) (hret : s.needed = true → s.kind.traits.retPrim pi = true)
    (ho : s.needed = false ∨ s.offset = 0) :
    ∃ m, retrieve s pi x duals = some m ∧ ∀ v ∈ vs,
      primReadAll2 s pi x m v.name = some ((List.range v.size).map fun k => qpX s x (entryPos v k)) := by
  obtain ⟨m, hm⟩ := Option.isSome_iff_exists.mp ((C84_defined_iff s x duals h vs pi hpi hret).mpr ho)
  refine ⟨m, hm, fun v hv => ?_⟩
  have hsize : pi.size.lookup v.name = some v.size := by
    have hpi' := hpi
    rw [primInfo_eq vs hsym] at hpi'
    cases hpi'
    exact lookup_nodup vs UVar.name UVar.size hnames v hv
  unfold primReadAll2
  rw [hsize]
  simp only [Option.bind_eq_bind, Option.bind_some]
  apply mapM_some
  intro k hk
  have hk : k < v.size := by simpa using hk
  rw [primRead2_eq s vs hnames hsym pi hpi x m v hv k hk]
  have hb := entryPos_bounds v (hsym v hv) k hk
  have hi := hin v hv
  have hlt : s.offset + entryPos v k < x.length := by have := h.len; have := h.block; omega
  have hq : x[s.offset + entryPos v k]? = some (qpX s x (entryPos v k)) := by
    simp [qpX, fn, List.getElem?_eq_getElem hlt]
  cases hn : s.needed with
  | false => simpa using hq
  | true =>
    have ho : s.offset = 0 := by rcases ho with ho | ho; · rw [hn] at ho; cases ho
                                 · exact ho
    rw [ho, Nat.zero_add] at hq
    have hmx : m.x = x := by
      unfold retrieve memX at hm
      have hmp : mergePrim s pi = pi := by simp [mergePrim, hn]
      have hsx : solX s x = some x := by
        unfold solX
        rw [ho]
        have := mapM_read_some x 0 0 s.nVar (by rw [h.len]; omega)
        rw [List.range_eq_range', this]
        congr 1
        apply List.ext_getElem
        · simp [h.len]
        · intro i h1 h2
          simp [fn, h2]
      rw [hn, hmp, hret hn, hsx, solY_eq s x duals h] at hm
      simp at hm
      rw [← hm]
    simp only [if_true, hmx, ite_self]
    exact hq

/-- **C84** (exact, where the solution is copied) Scalars, symmetric variables, and all variables of ECOS, Clarabel and QOCO
read the entry with the position of the quadratic program from the vector of the second problem: whatever
`gradient_sol_x` holds, the offset is left out. -/
theorem C84_fails_offset {R : Type} [Zero R] (s : Second) (x : List R) (m : Mem R)
    (vs : List UVar) (hnames : (vs.map UVar.name).Nodup) (hsym : ∀ v ∈ vs, SymOK v)
    (pi : PrimInfo) (hpi : primInfo vs = .ok pi) (hn : s.needed = true) (v : UVar) (hv : v ∈ vs)
    (hp : v.size = 1 ∨ v.sym = true ∨ s.kind.traits.static = false) (k : Nat) (hk : k < v.size) :
    primRead2 s pi x m v.name k = x[entryPos v k]? := by
  rw [primRead2_eq s vs hnames hsym pi hpi x m v hv k hk, hn]
  have : pointerField s v = false := by
    unfold pointerField
    rcases hp with hp | hp | hp <;> simp [hp]
  simp [this]

/-- **C84** (part: SCS and QOCOGEN, dual variables with more than one entry) Every dual variable reads the entries of the
dual solution of the quadratic program that belong to it. -/
theorem C84_dual_partial {R : Type} [Zero R] [Sub R] (s : Second) (x : List R) (duals : Nat → List R) (h : Fits s x duals)
    (pi : PrimInfo) (m : Mem R) (hm : retrieve s pi x duals = some m) (hs : s.kind.traits.static = true)
    (d : DualEntry) (hd : d.size ≠ 1) (hin : d.offset + d.size ≤ s.d1.size) (k : Nat) (hk : k < d.size) :
    dualRead2 s duals m d k = some (qpY s duals (d.offset + k)) := by
  have hy : m.y = (List.range s.d1.size).map (qpY s duals) ++ List.replicate (s.rows - s.d1.size) 0 := by
    unfold retrieve at hm
    rw [solY_eq s x duals h] at hm
    cases hx : memX s pi x with
    | none => rw [hx] at hm; cases hm
    | some a => rw [hx] at hm; cases hm; rfl
  unfold dualRead2
  simp only [hd, if_false, hs, Bool.not_true, Bool.false_eq_true]
  have hlt : d.offset + k < s.d1.size := by omega
  rw [readAt, hy, List.getElem?_append_left (by simpa using hlt)]
  simp [hlt]

/-- **C84** (exact, where dual variables are copied) Scalar dual variables, and all dual variables of ECOS, Clarabel and
QOCO, read the entry with the row of the quadratic program from the vector of the second problem that is called
`y`; Clarabel has no such vector. -/
theorem C84_fails_dual_copied {R : Type} (s : Second) (duals : Nat → List R) (m : Mem R) (d : DualEntry) (hv : d.vec = 0)
    (hc : d.size = 1 ∨ s.kind.traits.static = false) (k : Nat) (hk : k < d.size) :
    dualRead2 s duals m d k = if s.kind = .clarabel then none else (duals 0)[d.offset + k]? := by
  have hvec : vecOf s d = if s.kind = .clarabel then none else some 0 := by
    unfold vecOf
    rw [hv]
    cases hk : s.kind <;> rfl
  unfold dualRead2
  by_cases h1 : d.size = 1
  · have hk0 : k = 0 := by omega
    simp only [h1, if_true, hk0, ne_eq, not_true_eq_false, if_false, hvec]
    split <;> simp [readAt]
  · have hst : s.kind.traits.static = false := by
      rcases hc with hc | hc
      · exact absurd hc h1
      · exact hc
    simp only [h1, if_false, hst, Bool.not_false, if_true, hk, hvec]
    split <;> simp [readAt]

theorem rowReads_isSome (n : Nat) (p : List Nat) : (rowReads n p).isSome ↔ n = 0 ∨ n < p.length := by
  induction n with
  | zero => simp [rowReads]
  | succ n ih =>
    unfold rowReads at *
    rw [List.range_succ, List.mapM_append]
    by_cases h : n + 1 < p.length
    · obtain ⟨l, hl⟩ := Option.isSome_iff_exists.mp (ih.mpr (by omega))
      rw [hl]
      simp [readAt, List.getElem?_eq_getElem h, List.getElem?_eq_getElem (show n < p.length by omega)]
      omega
    · have : readAt p (n + 1) = none := by simp [readAt]; omega
      cases hl : (List.range n).mapM fun j => (do pure (← readAt p j, ← readAt p (j + 1)) : Option (Nat × Nat)) with
      | none => simp; omega
      | some l =>
        simp only [List.mapM_cons, List.mapM_nil, this]
        cases readAt p n <;> simp <;> omega

/-- **C84** (exact, derivatives) The function for derivatives runs over the rows of the maps of the first stage with the
numbers of variables and rows of the second problem: it stays inside of the maps exactly if the second problem has
no further variables and no further rows. -/
theorem C84_gradient_iff {R : Type} (s : Second) (x : List R) (duals : Nat → List R) (h : Fits s x duals)
    (pq pu : List Nat) (hq : pq.length = s.nx + 1) (hu : pu.length = s.d1.size + 1) :
    ((rowReads s.nVar pq).isSome ∧ (rowReads s.rows pu).isSome) ↔ s.nVar = s.nx ∧ s.rows = s.d1.size := by
  rw [rowReads_isSome, rowReads_isSome, hq, hu]
  have := h.block; have := h.pos; have := h.rows
  omega

/-- A second stage: two variables of the quadratic program behind two auxiliary variables; one equality row and one
inequality row, stated as one lower bound and two upper bounds. -/
def exSecond (k : Kind) (o : Nat) : Second := ⟨k, 4, 5, 2, o, ⟨"d0", (if k.dualSplit then 1 else 0), 0, 1⟩,
  ⟨"d1", (if k.dualSplit then 1 else 0), 1, 2⟩⟩

/-- Its solution: `osqp_x = [1, 2]`, multipliers 3 of the lower bound, 5 and 7 of the upper bounds. -/
def exSol2 : List Int := [8, 9, 1, 2]
def exDuals2 : Nat → List Int := fun _ => [3, 5, 7, 0, 0]

/-- The user's variables: a scalar and a scalar, and a vector with two entries. -/
def exScalars2 : List UVar := [⟨"a", [], false, 0⟩, ⟨"b", [], false, 1⟩]
def exVector2 : List UVar := [⟨"v", [2], false, 0⟩]

/-- **C84 fails** for ECOS, Clarabel, QOCO and QOCOGEN: the variables of the quadratic program come after two others.
The copy of the solution reads behind the end of the solver's vector; the scalar `a` is 8 instead of 1. -/
theorem C84_fails (k : Kind) (hk : k.traits.always = true) :
    (∀ pi, primInfo exScalars2 = .ok pi →
      retrieve (exSecond k 2) pi exSol2 exDuals2 = none ∧
      ∀ m, primRead2 (exSecond k 2) pi exSol2 m "a" 0 = some 8) ∧
    qpX (exSecond k 2) exSol2 0 = 1 := by
  refine ⟨fun pi hpi => ⟨?_, fun m => ?_⟩, rfl⟩
  · cases hpi
    cases k <;> first | (exfalso; revert hk; decide) | decide
  · rw [C84_fails_offset (exSecond k 2) exSol2 m exScalars2 (by decide) (by intro v hv h; simp [exScalars2] at hv; rcases hv with rfl | rfl <;> cases h)
      pi hpi (by rw [needed_eq]; simp [exSecond, hk]) ⟨"a", [], false, 0⟩ (by simp [exScalars2]) (Or.inl rfl) 0 (by decide)]
    rfl

/-- **C84 fails** for scalar dual variables (SCS, QOCOGEN) and for all dual variables of ECOS and QOCO: the value read is not
the multiplier of the row. -/
theorem C84_fails_dual :
    (∀ m, dualRead2 (exSecond .scs 2) exDuals2 m ⟨"d0", 0, 1, 1⟩ 0 = some 5) ∧ qpY (exSecond .scs 2) exDuals2 1 = 7 ∧
    (∀ m, dualRead2 (exSecond .ecos 0) exDuals2 m ⟨"d0", 0, 0, 2⟩ 0 = some 3) ∧ qpY (exSecond .ecos 0) exDuals2 0 = 2 := by
  refine ⟨fun m => ?_, rfl, fun m => ?_, rfl⟩ <;> rfl

theorem exFits (k : Kind) (o : Nat) (ho : o ≤ 2) : Fits (exSecond k o) exSol2 exDuals2 := by
  refine ⟨rfl, by simp [exSecond]; omega, by simp [exSecond], ?_, ?_, by simp [exSecond], by simp [exSecond]⟩ <;>
    simp [exSecond, exDuals2]

/-- SCS: the vector is read from behind the auxiliary variables, the vector dual variable from `gradient_sol_y`. -/
example : ∃ pi m, primInfo exVector2 = .ok pi ∧ (exSecond .scs 2).needed = false ∧
    retrieve (exSecond .scs 2) pi exSol2 exDuals2 = some m ∧
    primReadAll2 (exSecond .scs 2) pi exSol2 m "v" = some [1, 2] ∧ m.y = [2, 7, 0, 0, 0] ∧
    dualRead2 (exSecond .scs 2) exDuals2 m ⟨"d0", 0, 0, 2⟩ 0 = some 2 := by
  refine ⟨_, ⟨[1, 2], [2, 7, 0, 0, 0]⟩, rfl, ?_, ?_, ?_, rfl, rfl⟩
  · rw [needed_eq]; rfl
  · decide
  · decide

/-- ECOS without auxiliary variables in front. -/
example : ∃ pi m, primInfo exScalars2 = .ok pi ∧ (exSecond .ecos 0).needed = true ∧
    retrieve (exSecond .ecos 0) pi exSol2 exDuals2 = some m ∧
    primReadAll2 (exSecond .ecos 0) pi exSol2 m "b" = some [9] ∧ qpX (exSecond .ecos 0) exSol2 1 = 9 := by
  refine ⟨_, ⟨exSol2, [2, 7, 0, 0, 0]⟩, rfl, ?_, ?_, ?_, rfl⟩
  · rw [needed_eq]; rfl
  · decide
  · decide

example : Inside (exSecond .scs 2) exVector2 ∧ Inside (exSecond .ecos 0) exScalars2 := by
  constructor <;> intro v hv <;> simp [exVector2, exScalars2] at hv <;> (try rcases hv with rfl | rfl) <;> (try subst hv) <;> decide

/-- Multipliers of the second problem that make it stationary, and of the quadratic program. -/
example : Stationary2 2 1 (fun i _ => if i = 0 then 1 else 2) (fun _ => (-16 : Int)) (lowerMult (exSecond .scs 2) exDuals2)
    (upperMult (exSecond .scs 2) exDuals2) 0 := by
  simp [Stationary2, lowerMult, upperMult, exSecond, exDuals2, fn, sum_range_succ, Kind.dualSplit]

/-- The loops leave the maps in the example. -/
example : ¬ ((rowReads (exSecond .scs 2).nVar [0, 1, 2]).isSome ∧ (rowReads (exSecond .scs 2).rows [0, 1, 2]).isSome) := by
  rw [C84_gradient_iff _ exSol2 exDuals2 (exFits .scs 2 (by decide)) _ _ rfl rfl]
  decide

end Verif.Props
