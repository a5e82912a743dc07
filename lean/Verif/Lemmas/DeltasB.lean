import Verif.Spec.Deltas
import Verif.Lemmas.ExplicitB
import Mathlib.Algebra.BigOperators.Ring.Finset
import Mathlib.Data.List.Nodup
/-! Explicit mode: assignments at distinct positions. -/
namespace Verif.Lemmas.Deltas
open Verif.Model Verif.Model.Deltas Verif.Model.Explicit Verif.Lemmas.Explicit
variable {R : Type}

theorem fold_other (cs : List (Nat × R)) (f : Nat → R) (p : Nat) (h : p ∉ cs.map Prod.fst) :
    cs.foldl (fun dx c => fun i => if i = c.1 then c.2 else dx i) f p = f p := by
  induction cs generalizing f with
  | nil => rfl
  | cons c cs ih =>
    rw [List.map_cons, List.mem_cons, not_or] at h
    rw [List.foldl_cons, ih _ h.2, if_neg h.1]

theorem fold_sum [NonUnitalNonAssocSemiring R] (N : Nat) (z : Nat → R) (cs : List (Nat × R)) : ∀ (f : Nat → R),
    (cs.map Prod.fst).Nodup → (∀ c ∈ cs, c.1 < N ∧ f c.1 = 0) →
    ∑ p ∈ Finset.range N, cs.foldl (fun dx c => fun i => if i = c.1 then c.2 else dx i) f p * z p
      = ∑ p ∈ Finset.range N, f p * z p + (cs.map fun c => c.2 * z c.1).sum := by
  induction cs with
  | nil => intro f _ _; simp
  | cons c cs ih =>
    intro f hn hb
    rw [List.map_cons, List.nodup_cons] at hn
    have hc := hb c (List.mem_cons_self ..)
    rw [List.foldl_cons, ih _ hn.2, List.map_cons, List.sum_cons, ← add_assoc]
    · congr 1
      have hm : c.1 ∈ Finset.range N := Finset.mem_range.2 hc.1
      rw [← Finset.add_sum_erase _ _ hm, ← Finset.add_sum_erase (Finset.range N) (fun p => f p * z p) hm]
      simp only [hc.2, zero_mul, zero_add]
      rw [add_comm]
      congr 1
      apply Finset.sum_congr rfl
      intro p hp
      rw [if_neg (Finset.ne_of_mem_erase hp)]
    · intro d hd
      refine ⟨(hb d (List.mem_cons_of_mem _ hd)).1, ?_⟩
      rw [if_neg]
      · exact (hb d (List.mem_cons_of_mem _ hd)).2
      · intro e
        exact hn.1 (e ▸ List.mem_map_of_mem hd)

/-- The positions assigned for one variable. -/
def exPos (size : Nat) (v : VarInfo) : List Nat :=
  if size = 1 then [v.offset] else v.indices.filterMap fun e => if 0 ≤ e then some (v.offset + e.toNat) else none

theorem exCalls_pos (size : Nat) (v : VarInfo) (g : Nat → R) : (exCalls size v g).map Prod.fst = exPos size v := by
  unfold exCalls exPos
  by_cases h : size = 1
  · rw [if_pos h, if_pos h]; rfl
  · rw [if_neg h, if_neg h, List.map_filterMap]
    generalize v.offset = o
    have : ∀ (l : List Int) (j : Nat), (l.zipIdx j).filterMap (fun e => Option.map Prod.fst
        (if 0 ≤ e.1 then some (o + e.1.toNat, g e.2) else none)) =
        l.filterMap fun e => if 0 ≤ e then some (o + e.toNat) else none := by
      intro l
      induction l with
      | nil => intro j; rfl
      | cons a l ih =>
        intro j
        rw [List.zipIdx_cons, List.filterMap_cons, List.filterMap_cons, ih]
        by_cases ha : 0 ≤ a <;> simp [ha]
    exact this _ 0

/-- The assignments for one variable, against reading that variable. -/
theorem exCalls_sum [NonUnitalNonAssocSemiring R] (size : Nat) (v : VarInfo) (g z : Nat → R)
    (h1 : size = 1 → v.indices = [(v.offset : Int)]) (h2 : size ≠ 1 → v.indices.length = size) :
    ((exCalls size v g).map fun c => c.2 * z c.1).sum
      = ∑ i ∈ Finset.range size, g i * ((userPrim size v z i).getD 0) := by
  by_cases h : size = 1
  · subst h
    simp [exCalls, userPrim, h1 rfl]
  · have hl := h2 h
    unfold exCalls userPrim
    simp only [if_neg h]
    generalize v.offset = o
    rw [← hl]
    generalize v.indices = l
    induction l using List.reverseRecOn with
    | nil => simp
    | append_singleton l a ih =>
      rw [List.zipIdx_append, List.filterMap_append, List.map_append, List.sum_append, ih,
        List.length_append, List.length_singleton, Finset.sum_range_succ]
      congr 1
      · apply Finset.sum_congr rfl
        intro i hi
        rw [List.getElem?_append_left (Finset.mem_range.1 hi)]
      · by_cases ha : 0 ≤ a <;> simp [ha]

theorem placeInds_length (size : Nat) (inds : List Nat) : (placeInds size inds).length = size := by
  simp [placeInds]

theorem placeInds_get (size : Nat) (inds : List Nat) (hn : inds.Nodup) (i j : Nat)
    (h : (placeInds size inds)[i]? = some (j : Int)) : inds[j]? = some i := by
  have hi : i < size := by
    by_contra hh
    rw [List.getElem?_eq_none (by rw [placeInds_length]; omega)] at h
    cases h
  by_cases hm : i ∈ inds
  · obtain ⟨k, hk⟩ := List.getElem?_of_mem hm
    rw [placeInds_mem size inds hn i k hi hk] at h
    have : (k : Int) = j := Option.some.inj h
    have : k = j := by omega
    rw [← this, hk]
  · rw [placeInds_not_mem size inds i hi hm] at h
    have : (-1 : Int) = j := Option.some.inj h
    omega

theorem placePos_nodup (size o : Nat) (inds : List Nat) (hn : inds.Nodup) :
    ((placeInds size inds).filterMap fun e => if 0 ≤ e then some (o + e.toNat) else none).Nodup := by
  have key : ∀ (i j : Nat) (a b : Int), (placeInds size inds)[i]? = some a → (placeInds size inds)[j]? = some b → 0 ≤ a → a = b → i = j := by
    intro i j a b hi hj ha hab
    subst hab
    obtain ⟨k, rfl⟩ := Int.eq_ofNat_of_zero_le ha
    have := placeInds_get size inds hn i k hi
    have h2 := placeInds_get size inds hn j k hj
    rw [this] at h2
    exact Option.some.inj h2
  have gen : ∀ l : List Int, (∀ (i j : Nat) (a b : Int), l[i]? = some a → l[j]? = some b → 0 ≤ a → a = b → i = j) →
      (l.filterMap fun e => if 0 ≤ e then some (o + e.toNat) else none).Nodup := by
    intro l
    induction l with
    | nil => intro _; simp
    | cons a l ih =>
      intro h
      have ih' := ih fun i j a b hi hj ha hab => by
        have := h (i + 1) (j + 1) a b (by simpa using hi) (by simpa using hj) ha hab
        omega
      rw [List.filterMap_cons]
      by_cases ha : 0 ≤ a
      · simp only [if_pos ha]
        rw [List.nodup_cons]
        refine ⟨?_, ih'⟩
        intro hm
        obtain ⟨b, hb, hb2⟩ := List.mem_filterMap.1 hm
        by_cases hb0 : 0 ≤ b
        · rw [if_pos hb0] at hb2
          have e := Option.some.inj hb2
          obtain ⟨j, hj⟩ := List.getElem?_of_mem hb
          have := h 0 (j + 1) a b rfl (by simpa using hj) ha (by omega)
          omega
        · rw [if_neg hb0] at hb2; cases hb2
      · simp only [if_neg ha]
        exact ih'
  exact gen _ key

/-- A good request, as needed here. -/
structure Ok (size : String → Nat) (r : String × List Nat) : Prop where
  nodup : (reqInds size r).Nodup
  one : (reqInds size r).length = 1 ↔ size r.1 = 1

/-- The information of a request placed at `base`. -/
def infoAt (size : String → Nat) (r : String × List Nat) (base : Nat) : VarInfo :=
  { offset := base
    indices := if (reqInds size r).length = 1 then [(base : Int)] else placeInds (size r.1) (reqInds size r) }

theorem infoAt_pos (size : String → Nat) (r : String × List Nat) (base : Nat) (h : Ok size r) :
    (exPos (size r.1) (infoAt size r base)).Nodup ∧
    ∀ p ∈ exPos (size r.1) (infoAt size r base), base ≤ p ∧ p < base + (reqInds size r).length := by
  unfold exPos infoAt
  by_cases hs : size r.1 = 1
  · simp only [if_pos hs]
    have := h.one.2 hs
    exact ⟨by simp, fun p hp => by rw [List.mem_singleton] at hp; omega⟩
  · have hl : ¬ (reqInds size r).length = 1 := fun e => hs (h.one.1 e)
    simp only [if_neg hs, if_neg hl]
    refine ⟨placePos_nodup _ _ _ h.nodup, ?_⟩
    intro p hp
    obtain ⟨e, he, he2⟩ := List.mem_filterMap.1 hp
    by_cases h0 : 0 ≤ e
    · rw [if_pos h0] at he2
      obtain ⟨k, rfl⟩ := Int.eq_ofNat_of_zero_le h0
      obtain ⟨i, hi⟩ := List.getElem?_of_mem he
      have := placeInds_get _ _ h.nodup i k hi
      have hk : k < (reqInds size r).length := by
        by_contra hh; rw [List.getElem?_eq_none (by omega)] at this; cases this
      have := Option.some.inj he2
      simp at this
      omega
    · rw [if_neg h0] at he2; cases he2

theorem infoAt_sum [NonUnitalNonAssocSemiring R] (size : String → Nat) (r : String × List Nat) (base : Nat)
    (h : Ok size r) (g z : Nat → R) :
    ((exCalls (size r.1) (infoAt size r base) g).map fun c => c.2 * z c.1).sum
      = ∑ i ∈ Finset.range (size r.1), g i * ((userPrim (size r.1) (infoAt size r base) z i).getD 0) := by
  apply exCalls_sum
  · intro hs
    simp [infoAt, h.one.2 hs]
  · intro hs
    have hl : ¬ (reqInds size r).length = 1 := fun e => hs (h.one.1 e)
    simp [infoAt, if_neg hl, placeInds_length]

/-- Where the requests are placed. -/
def bases (size : String → Nat) : Nat → List (String × List Nat) → List ((String × List Nat) × Nat)
  | _, [] => []
  | b, r :: rs => (r, b) :: bases size (b + (reqInds size r).length) rs

theorem bases_fst (size : String → Nat) (b : Nat) (rs : List (String × List Nat)) :
    (bases size b rs).map Prod.fst = rs := by
  induction rs generalizing b with
  | nil => rfl
  | cons r rs ih => simp [bases, ih]

theorem storeVars_info (size : String → Nat) (o : String → Nat) (reqs : List (String × List Nat)) :
    ∀ (offs : List (String × Nat)) (s : StoreSt), (reqs.map (·.1)).Nodup →
    (∀ r ∈ reqs, offs.lookup r.1 = some (o r.1)) → (∀ r ∈ reqs, ∀ e ∈ s.info, e.1 ≠ r.1) →
    (reqs.foldl (fun s r => storeStep size s.1 s.2 r) (offs, s)).2.info
      = ((bases size s.shift reqs).map fun b => (b.1.1, infoAt size b.1 b.2)).reverse ++ s.info ∧
    (reqs.foldl (fun s r => storeStep size s.1 s.2 r) (offs, s)).2.shift
      = s.shift + (reqs.map fun r => (reqInds size r).length).sum ∧
    (s.shift = s.outInds.length → (reqs.foldl (fun s r => storeStep size s.1 s.2 r) (offs, s)).2.shift
      = (reqs.foldl (fun s r => storeStep size s.1 s.2 r) (offs, s)).2.outInds.length) := by
  induction reqs with
  | nil => intro offs s _ _ _; exact ⟨rfl, rfl, fun h => h⟩
  | cons r reqs ih =>
    intro offs s hn ho hi
    rw [List.map_cons, List.nodup_cons] at hn
    have h0 := ho r (List.mem_cons_self ..)
    have es : storeStep size offs s r = (dictPut offs r.1 s.shift,
        { shift := s.shift + (reqInds size r).length
          outInds := s.outInds ++ (reqInds size r).map (o r.1 + ·)
          info := dictPut s.info r.1 (infoAt size r s.shift) }) := by
      unfold storeStep
      simp only [h0]
      rfl
    have hput : dictPut s.info r.1 (infoAt size r s.shift) = (r.1, infoAt size r s.shift) :: s.info := by
      unfold dictPut
      rw [List.filter_eq_self.2]
      intro e he
      simpa using hi r (List.mem_cons_self ..) e he
    rw [List.foldl_cons]
    simp only [es, hput]
    obtain ⟨i1, i2, i3⟩ := ih (dictPut offs r.1 s.shift)
      { shift := s.shift + (reqInds size r).length
        outInds := s.outInds ++ (reqInds size r).map (o r.1 + ·)
        info := (r.1, infoAt size r s.shift) :: s.info } hn.2
      (by
        intro r' hr'
        rw [lookup_dictPut, if_neg]
        · exact ho r' (List.mem_cons_of_mem _ hr')
        · intro h
          exact hn.1 (h ▸ List.mem_map_of_mem hr'))
      (by
        intro r' hr' e he
        rcases List.mem_cons.1 he with rfl | he
        · intro h
          exact hn.1 (List.mem_map.2 ⟨r', hr', h.symm⟩)
        · exact hi r' (List.mem_cons_of_mem _ hr') e he)
    refine ⟨?_, ?_, ?_⟩
    · rw [i1]; simp [bases]
    · rw [i2]; simp [Nat.add_assoc]
    · intro h; exact i3 (by simp [h])

theorem bases_pos (size : String → Nat) (rs : List (String × List Nat)) (hg : ∀ r ∈ rs, Ok size r) : ∀ b,
    ((bases size b rs).flatMap fun e => exPos (size e.1.1) (infoAt size e.1 e.2)).Nodup ∧
    ∀ p ∈ (bases size b rs).flatMap fun e => exPos (size e.1.1) (infoAt size e.1 e.2),
      b ≤ p ∧ p < b + (rs.map fun r => (reqInds size r).length).sum := by
  induction rs with
  | nil => intro b; simp [bases]
  | cons r rs ih =>
    intro b
    obtain ⟨i1, i2⟩ := ih (fun r h => hg r (List.mem_cons_of_mem _ h)) (b + (reqInds size r).length)
    obtain ⟨j1, j2⟩ := infoAt_pos size r b (hg r (List.mem_cons_self ..))
    simp only [bases, List.flatMap_cons, List.map_cons, List.sum_cons]
    refine ⟨?_, ?_⟩
    · rw [List.nodup_append]
      refine ⟨j1, i1, ?_⟩
      rintro p hp q hq rfl
      have := j2 p hp
      have := i2 p hq
      omega
    · intro p hp
      rcases List.mem_append.1 hp with hp | hp
      · have := j2 p hp; omega
      · have := i2 p hp; omega

/-- `cpg_dx` against the explicit solution is the sum over the stored entries. -/
theorem exDx_sum [NonUnitalNonAssocSemiring R] (size o : String → Nat) (offs : List (String × Nat))
    (reqs : List (String × List Nat)) (hn : (reqs.map (·.1)).Nodup)
    (ho : ∀ r ∈ reqs, offs.lookup r.1 = some (o r.1)) (hg : ∀ r ∈ reqs, Ok size r) (g : String → Nat → R) (z : Nat → R) :
    ∑ p ∈ Finset.range (storeVars size offs reqs).2.outInds.length,
        exDx size (storeVars size offs reqs).2.info g p * z p
      = ((bases size 0 reqs).map fun e => ∑ i ∈ Finset.range (size e.1.1),
          g e.1.1 i * ((userPrim (size e.1.1) (infoAt size e.1 e.2) z i).getD 0)).sum := by
  obtain ⟨i1, i2, i3⟩ := storeVars_info size o reqs offs ⟨0, [], []⟩ hn ho (by simp)
  have i3 := i3 rfl
  obtain ⟨p1, p2⟩ := bases_pos size reqs hg 0
  unfold storeVars
  rw [i1, ← i3, i2]
  simp only [List.append_nil, Nat.zero_add] at p2 ⊢
  unfold exDx
  have perm : (((bases size 0 reqs).map fun b => (b.1.1, infoAt size b.1 b.2)).reverse.flatMap
      fun e => exCalls (size e.1) e.2 (g e.1)).Perm
      ((bases size 0 reqs).flatMap fun e => exCalls (size e.1.1) (infoAt size e.1 e.2) (g e.1.1)) := by
    refine ((List.reverse_perm _).flatMap_right _).trans ?_
    rw [List.flatMap_map]
  have pm : ((bases size 0 reqs).flatMap fun e => exCalls (size e.1.1) (infoAt size e.1 e.2) (g e.1.1)).map Prod.fst
      = (bases size 0 reqs).flatMap fun e => exPos (size e.1.1) (infoAt size e.1 e.2) := by
    rw [List.map_flatMap]
    simp only [exCalls_pos]
  rw [fold_sum]
  · rw [(perm.map fun c => c.2 * z c.1).sum_eq]
    simp only [zero_mul, Finset.sum_const_zero, zero_add]
    have hb : ∀ e ∈ bases size 0 reqs, Ok size e.1 := fun e he =>
      hg e.1 (by rw [← bases_fst size 0 reqs]; exact List.mem_map_of_mem he)
    generalize bases size 0 reqs = l at hb
    induction l with
    | nil => rfl
    | cons e l ih =>
      rw [List.flatMap_cons, List.map_append, List.sum_append, ih fun e he => hb e (List.mem_cons_of_mem _ he),
        infoAt_sum size e.1 e.2 (hb e (List.mem_cons_self ..)), List.map_cons, List.sum_cons]
  · exact ((perm.map Prod.fst).nodup_iff).2 (by rw [pm]; exact p1)
  · intro c hc
    refine ⟨(p2 c.1 ?_).2, rfl⟩
    rw [← pm]
    exact (perm.map Prod.fst).mem_iff.1 (List.mem_map_of_mem hc)
end Verif.Lemmas.Deltas
