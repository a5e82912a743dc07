import Verif.Model.ExMem
import Verif.Lemmas.DeltasB
import Verif.Props.Explicit
import Verif.Props.Kinds
import Mathlib.Data.List.Perm.Basic
/-! C60: accesses to the arrays of explicit mode are in bounds. -/
namespace Verif.Props
open Verif.Model Verif.Model.Explicit Verif.Model.Deltas Verif.Lemmas Verif.Lemmas.Explicit Verif.Lemmas.Deltas

/-- All accesses are within the arrays. -/
def InBounds (g : ExGen) (l : List (ExArr × Nat)) : Prop := ∀ a i, (a, i) ∈ l → i < g.len a

/-- Requests for different variables of the problem, with valid indices (as in C39). -/
structure ExOK (g : ExGen) : Prop where
  names : g.all.Nodup
  reqs : (g.reqs.map (·.1)).Nodup
  known : ∀ r ∈ g.reqs, r.1 ∈ g.all ∧ (g.offs.lookup r.1).isSome = true
  good : ∀ r ∈ g.reqs, GoodReq g.size r

/-- The variables fit into the canonical vector (there are no symmetric ones). -/
def ExFits (g : ExGen) : Prop := (g.all.map g.size).sum ≤ g.nVar

/-- Every variable is stored, at least in part. -/
def ExAllStored (g : ExGen) : Prop := ∀ n ∈ g.all, n ∈ g.reqs.map (·.1)

section
variable {g : ExGen} (h : ExOK g)
include h

theorem exmem_lookup : ∀ r ∈ g.reqs, g.offs.lookup r.1 = some ((g.offs.lookup r.1).getD 0) := by
  intro r hr
  obtain ⟨a, ha⟩ := Option.isSome_iff_exists.1 (h.known r hr).2
  rw [ha]; rfl

theorem exmem_store : g.store.info = ((bases g.size 0 g.reqs).map fun b => (b.1.1, infoAt g.size b.1 b.2)).reverse ∧
    g.nSol = (g.reqs.map (reqLen g.size)).sum := by
  obtain ⟨i1, i2, i3⟩ := storeVars_info g.size (fun n => (g.offs.lookup n).getD 0) g.reqs g.offs ⟨0, [], []⟩ h.reqs
    (exmem_lookup h) (by simp)
  refine ⟨by unfold ExGen.store storeVars; rw [i1]; simp, ?_⟩
  unfold ExGen.nSol ExGen.store storeVars
  rw [← i3 rfl, i2]
  simp only [Nat.zero_add]
  rfl

theorem exmem_ok : ∀ r ∈ g.reqs, Ok g.size r := fun r hr =>
  ⟨by unfold reqInds; split
      · exact List.nodup_range
      · exact (h.good r hr).nodup, reqInds_one (h.good r hr)⟩

theorem reducedSize_spec : (∀ r ∈ g.reqs, reducedSize g.size g.offs g.reqs r.1 = reqLen g.size r) ∧
    ∀ n, n ∉ g.reqs.map (·.1) → reducedSize g.size g.offs g.reqs n = g.size n := by
  have gen : ∀ (rs : List (String × List Nat)) (f : String → Nat), (rs.map (·.1)).Nodup →
      (∀ r ∈ rs, (g.offs.lookup r.1).isSome = true) →
      (∀ r ∈ rs, rs.foldl (fun f r => if (g.offs.lookup r.1).isSome then fun n => if n = r.1 then reqLen g.size r else f n
        else f) f r.1 = reqLen g.size r) ∧
      ∀ n, n ∉ rs.map (·.1) → rs.foldl (fun f r => if (g.offs.lookup r.1).isSome then
        fun n => if n = r.1 then reqLen g.size r else f n else f) f n = f n := by
    intro rs
    induction rs with
    | nil => intro f _ _; exact ⟨fun r hr => by simp at hr, fun n _ => rfl⟩
    | cons r rs ih =>
      intro f hn hk
      rw [List.map_cons, List.nodup_cons] at hn
      obtain ⟨j1, j2⟩ := ih (fun n => if n = r.1 then reqLen g.size r else f n) hn.2 fun r hr => hk r (List.mem_cons_of_mem _ hr)
      rw [List.foldl_cons, if_pos (hk r (List.mem_cons_self ..))]
      refine ⟨fun r' hr' => ?_, fun n hn' => ?_⟩
      · rcases List.mem_cons.1 hr' with rfl | hr'
        · rw [j2 _ hn.1, if_pos rfl]
        · exact j1 r' hr'
      · rw [List.map_cons, List.mem_cons, not_or] at hn'
        rw [j2 n hn'.2, if_neg hn'.1]
  exact gen g.reqs g.size h.reqs fun r hr => (h.known r hr).2

/-- The sum of the reduced sizes is the length of the explicit solution plus the sizes of the variables not stored. -/
theorem exmem_nRed : g.nRed = g.nSol + ((g.all.filter fun n => decide (n ∉ g.reqs.map (·.1))).map g.size).sum := by
  obtain ⟨s1, s2⟩ := reducedSize_spec h
  have hp : g.all.Perm (g.reqs.map (·.1) ++ g.all.filter fun n => decide (n ∉ g.reqs.map (·.1))) := by
    rw [List.perm_ext_iff_of_nodup h.names]
    · intro n
      rw [List.mem_append, List.mem_filter]
      constructor
      · intro hn
        by_cases hm : n ∈ g.reqs.map (·.1)
        · exact .inl hm
        · exact .inr ⟨hn, by simpa using hm⟩
      · rintro (hn | hn)
        · obtain ⟨r, hr, rfl⟩ := List.mem_map.1 hn
          exact (h.known r hr).1
        · exact hn.1
    · rw [List.nodup_append]
      refine ⟨h.reqs, h.names.filter _, ?_⟩
      rintro a ha b hb rfl
      have := (List.mem_filter.1 hb).2
      simp only [decide_eq_true_eq] at this
      exact this ha
  unfold ExGen.nRed
  rw [(hp.map _).sum_eq, List.map_append, List.sum_append, (exmem_store h).2, List.map_map]
  congr 2
  · exact List.map_congr_left fun r hr => s1 r hr
  · apply List.map_congr_left
    intro n hn
    have := (List.mem_filter.1 hn).2
    simp only [decide_eq_true_eq] at this
    exact s2 n this

theorem exmem_le : g.nSol ≤ g.nRed := by rw [exmem_nRed h]; omega

theorem reqLen_le {r : String × List Nat} (hr : r ∈ g.reqs) : reqLen g.size r ≤ g.size r.1 := by
  unfold reqLen
  split
  · simp
  · have : r.2 ⊆ List.range (g.size r.1) := fun i hi => List.mem_range.2 ((h.good r hr).range i hi)
    simpa using ((h.good r hr).nodup.subperm this).length_le

/-- Without reduction everything is stored. -/
theorem exmem_full (hf : reducedFlag g.size g.offs g.all g.reqs = false) :
    ExAllStored g ∧ ∀ r ∈ g.reqs, reqLen g.size r = g.size r.1 := by
  unfold reducedFlag at hf
  rw [Bool.or_eq_false_iff] at hf
  constructor
  · intro n hn
    have := List.any_eq_false.1 hf.2 n hn
    simp only [Bool.not_eq_true, Bool.not_eq_false', List.contains_eq_mem, decide_eq_true_eq] at this
    obtain ⟨r, hr, rfl⟩ := List.mem_map.1 this
    exact List.mem_map.2 ⟨r, (List.mem_filter.1 hr).1, rfl⟩
  · intro r hr
    have := List.any_eq_false.1 hf.1 r hr
    simp only [(h.known r hr).2, Bool.true_and, decide_eq_true_eq] at this
    have := reqLen_le h hr
    omega

theorem exmem_solx (hx : ExFits g) : g.nSol ≤ g.len .solx := by
  unfold ExGen.len
  by_cases hf : reducedFlag g.size g.offs g.all g.reqs = true
  · rw [if_pos hf]; exact exmem_le h
  · rw [if_neg hf]
    obtain ⟨a, b⟩ := exmem_full h (by simpa using hf)
    refine le_trans ?_ hx
    rw [(exmem_store h).2, List.map_congr_left b]
    have hp : g.all.Perm (g.reqs.map (·.1)) := by
      rw [List.perm_ext_iff_of_nodup h.names h.reqs]
      intro n
      refine ⟨a n, fun hn => ?_⟩
      obtain ⟨r, hr, rfl⟩ := List.mem_map.1 hn
      exact (h.known r hr).1
    rw [(hp.map g.size).sum_eq, List.map_map]
    rfl

theorem exPos_bound : ∀ e ∈ g.store.info, ∀ p ∈ exPos (g.size e.1) e.2, p < g.nSol := by
  intro e he p hp
  rw [(exmem_store h).1, List.mem_reverse] at he
  obtain ⟨b, hb, rfl⟩ := List.mem_map.1 he
  have := (bases_pos g.size g.reqs (exmem_ok h) 0).2 p (List.mem_flatMap.2 ⟨b, hb, hp⟩)
  rw [(exmem_store h).2]
  rw [Nat.zero_add] at this
  exact this.2
end

/-- The full claim of C60. -/
def C60Claim : Prop :=
  ∀ g : ExGen, ExOK g → InBounds g (g.evaluate ++ g.reads ++ g.objective ++ g.deltas ++ g.print) ∧
    ∀ h < g.nLaws, InBounds g (g.gradient h)

theorem infoAt_inds {g : ExGen} (h : ExOK g) : ∀ e ∈ g.store.info, ∀ i, e.2.indices = [i] → i.toNat ∈ exPos (g.size e.1) e.2 := by
  intro e he i hi
  rw [(exmem_store h).1, List.mem_reverse] at he
  obtain ⟨b, hb, rfl⟩ := List.mem_map.1 he
  have hr : b.1 ∈ g.reqs := by rw [← bases_fst g.size 0 g.reqs]; exact List.mem_map_of_mem hb
  have ok := exmem_ok h b.1 hr
  have hs : g.size b.1.1 = 1 := by
    by_contra hs
    have hl : ¬ (reqInds g.size b.1).length = 1 := fun e => hs (ok.one.1 e)
    have := congrArg List.length hi
    simp only [infoAt, if_neg hl, placeInds_length, List.length_singleton] at this
    exact hs this
  have hl := ok.one.2 hs
  simp only [infoAt, if_pos hl] at hi
  have : (b.2 : Int) = i := by simpa using hi
  subst this
  simp [exPos, hs, infoAt]

/-- Evaluation of the explicit solution, retrieval of its variables (Python module), the objective and the incoming
gradients stay within the arrays, whichever entries of whichever variables are stored.
Missing from the claim: `cpg_gradient` (next theorem), the example program (`C60_print_partial`), symmetric variables. -/
theorem C60_partial (g : ExGen) (h : ExOK g) (hx : ExFits g) :
    InBounds g (g.evaluate ++ g.reads ++ g.objective ++ g.deltas) := by
  have hs := exmem_solx h hx
  intro a i hm
  rcases List.mem_append.1 hm with hm | hm
  · rcases List.mem_append.1 hm with hm | hm
    · rcases List.mem_append.1 hm with hm | hm
      · obtain ⟨j, hj, e⟩ := List.mem_map.1 hm
        cases e
        exact lt_of_lt_of_le (List.mem_range.1 hj) hs
      · obtain ⟨e, he, hm⟩ := List.mem_flatMap.1 hm
        have hb := exPos_bound h e he
        rcases List.mem_append.1 hm with hm | hm
        · have key : ∃ j, e.2.indices = [j] ∧ (a, i) = (ExArr.solx, j.toNat) := by
            revert hm
            rcases e.2.indices with _ | ⟨j, _ | ⟨_, _⟩⟩
            · simp
            · intro hm; exact ⟨j, rfl, by simpa using hm⟩
            · simp
          obtain ⟨j, e1, e2⟩ := key
          cases e2
          exact lt_of_lt_of_le (hb _ (infoAt_inds h e he j e1)) hs
        · by_cases h1 : g.size e.1 = 1
          · rw [if_pos h1] at hm; simp at hm
          · rw [if_neg h1] at hm
            obtain ⟨j, hj, e2⟩ := List.mem_filterMap.1 hm
            by_cases hj0 : 0 ≤ j
            · rw [if_pos hj0] at e2
              cases e2
              refine lt_of_lt_of_le (hb _ ?_) hs
              rw [exPos, if_neg h1]
              exact List.mem_filterMap.2 ⟨j, hj, if_pos hj0⟩
            · rw [if_neg hj0] at e2; cases e2
    · unfold ExGen.objective at hm
      by_cases hf : reducedFlag g.size g.offs g.all g.reqs = true
      · rw [if_pos hf] at hm; simp at hm
      · rw [if_neg hf] at hm
        obtain ⟨j, hj, e⟩ := List.mem_map.1 hm
        cases e
        simpa [ExGen.len, hf] using hj
  · obtain ⟨e, he, hm⟩ := List.mem_flatMap.1 hm
    obtain ⟨c, hc, e2⟩ := List.mem_map.1 hm
    cases e2
    refine lt_of_lt_of_le (exPos_bound h e he _ ?_) (exmem_le h)
    rw [← exCalls_pos (g.size e.1) e.2 fun _ => ()]
    exact List.mem_map_of_mem hc

theorem law_bound {H K N h i j : Nat} (hh : h < H) (hi : i < N) (hj : j < K) :
    h * (K + 1) * N + i * (K + 1) + j < H * (N * (K + 1)) := by
  have h1 : (i + 1) * (K + 1) ≤ N * (K + 1) := Nat.mul_le_mul_right _ hi
  have h2 : (h + 1) * (N * (K + 1)) ≤ H * (N * (K + 1)) := Nat.mul_le_mul_right _ hh
  have h3 : h * (K + 1) * N = h * (N * (K + 1)) := by rw [Nat.mul_assoc, Nat.mul_comm (K + 1)]
  rw [h3]
  rw [Nat.succ_mul] at h1 h2
  omega

/-- If every variable is stored, at least in part, then `cpg_gradient` stays within the arrays. -/
theorem C60_gradient_partial (g : ExGen) (h : ExOK g) (ha : ExAllStored g) : ∀ k < g.nLaws, InBounds g (g.gradient k) := by
  have hN : g.nRed = g.nSol := by
    rw [exmem_nRed h, List.filter_eq_nil_iff.2]
    · simp
    · intro n hn; simpa using ha n hn
  intro k hk a i hm
  rcases List.mem_append.1 hm with hm | hm
  · obtain ⟨j, hj, hm⟩ := List.mem_flatMap.1 hm
    obtain ⟨l, hl, hm⟩ := List.mem_flatMap.1 hm
    rw [List.mem_range] at hj hl
    simp only [List.mem_cons, Prod.mk.injEq, List.not_mem_nil, or_false] at hm
    rcases hm with ⟨rfl, rfl⟩ | ⟨rfl, rfl⟩
    · exact law_bound hk (hN ▸ hl) hj
    · exact hl
  · obtain ⟨l, hl, e⟩ := List.mem_map.1 hm
    cases e
    exact List.mem_range.1 hl

/-- Exactly when: for a problem with parameters and laws, `cpg_gradient` of the last law stays within PDAQP's table iff the
variables that are not stored at all have no entries. -/
theorem C60_gradient_iff (g : ExGen) (h : ExOK g) (hK : 0 < g.K) (hL : 0 < g.nLaws) :
    InBounds g (g.gradient (g.nLaws - 1)) ↔ ∀ n ∈ g.all, n ∉ g.reqs.map (·.1) → g.size n = 0 := by
  have hR := exmem_nRed h
  constructor
  · intro hb n hn hnot
    by_contra hs
    have hmem : g.size n ∈ (g.all.filter fun n => decide (n ∉ g.reqs.map (·.1))).map g.size :=
      List.mem_map_of_mem (List.mem_filter.2 ⟨hn, by simpa using hnot⟩)
    have hle : g.size n ≤ ((g.all.filter fun n => decide (n ∉ g.reqs.map (·.1))).map g.size).sum :=
      List.single_le_sum (fun _ _ => Nat.zero_le _) _ hmem
    have hlt : g.nSol < g.nRed := by omega
    have hb := hb .feedbacks ((g.nLaws - 1) * (g.K + 1) * g.nSol + g.nSol * (g.K + 1) + 0) (by
      unfold ExGen.gradient
      refine List.mem_append.2 (.inl (List.mem_flatMap.2 ⟨0, List.mem_range.2 hK, List.mem_flatMap.2 ⟨g.nSol, List.mem_range.2 hlt, ?_⟩⟩))
      exact List.mem_cons_self ..)
    have h3 : (g.nLaws - 1) * (g.K + 1) * g.nSol = (g.nLaws - 1) * (g.nSol * (g.K + 1)) := by
      rw [Nat.mul_assoc, Nat.mul_comm (g.K + 1)]
    obtain ⟨m, hm⟩ : ∃ m, g.nLaws = m + 1 := ⟨g.nLaws - 1, by omega⟩
    simp only [ExGen.len] at hb
    rw [h3, hm, Nat.succ_mul, Nat.add_sub_cancel] at hb
    omega
  · intro hz
    have hN : g.nRed = g.nSol := by
      rw [hR, List.sum_eq_zero, Nat.add_zero]
      intro x hx
      obtain ⟨n, hn, rfl⟩ := List.mem_map.1 hx
      have := List.mem_filter.1 hn
      exact hz n this.1 (by simpa using this.2)
    intro a i hm
    rcases List.mem_append.1 hm with hm | hm
    · obtain ⟨j, hj, hm⟩ := List.mem_flatMap.1 hm
      obtain ⟨l, hl, hm⟩ := List.mem_flatMap.1 hm
      rw [List.mem_range] at hj hl
      simp only [List.mem_cons, Prod.mk.injEq, List.not_mem_nil, or_false] at hm
      rcases hm with ⟨rfl, rfl⟩ | ⟨rfl, rfl⟩
      · exact law_bound (by omega) (hN ▸ hl) hj
      · exact hl
    · obtain ⟨l, hl, e⟩ := List.mem_map.1 hm
      cases e
      exact List.mem_range.1 hl

/-- The entries printed by the example program for a variable are in `sol_x` if its size is at most the number of entries
left behind its offset; so they are if every stored variable is stored completely. -/
theorem C60_print_partial (g : ExGen) (h : ExOK g) (hx : ExFits g)
    (hc : ∀ r ∈ g.reqs, reqLen g.size r = g.size r.1) : InBounds g g.print := by
  have hs := exmem_solx h hx
  intro a i hm
  obtain ⟨e, he, hm⟩ := List.mem_flatMap.1 hm
  have he' := he
  rw [(exmem_store h).1, List.mem_reverse] at he'
  obtain ⟨b, hb, rfl⟩ := List.mem_map.1 he'
  have hr : b.1 ∈ g.reqs := by rw [← bases_fst g.size 0 g.reqs]; exact List.mem_map_of_mem hb
  simp only at hm
  by_cases h1 : g.size b.1.1 = 1
  · rw [if_pos h1] at hm; simp at hm
  rw [if_neg h1] at hm
  obtain ⟨j, hj, e⟩ := List.mem_map.1 hm
  cases e
  rw [List.mem_range] at hj
  have gen : ∀ (rs : List (String × List Nat)) (c : Nat), ∀ b ∈ bases g.size c rs,
      b.2 + (reqInds g.size b.1).length ≤ c + (rs.map fun r => (reqInds g.size r).length).sum := by
    intro rs
    induction rs with
    | nil => intro c b hb; simp [bases] at hb
    | cons r rs ih =>
      intro c b hb
      rw [List.map_cons, List.sum_cons]
      rcases List.mem_cons.1 hb with rfl | hb
      · simp only; omega
      · have := ih _ b hb; omega
  have := gen g.reqs 0 b hb
  rw [Nat.zero_add] at this
  have hlen : (reqInds g.size b.1).length = g.size b.1.1 := hc b.1 hr
  have hn := (exmem_store h).2
  have hn' : g.nSol = (g.reqs.map fun r => (reqInds g.size r).length).sum := hn
  have : (infoAt g.size b.1 b.2).offset = b.2 := rfl
  show (infoAt g.size b.1 b.2).offset + j < _
  omega

/-- Two variables with three entries each; both stored, of the second two entries (in the order 2, 0). -/
def exMemOk : ExGen where
  size := fun _ => 3
  offs := [("x", 1), ("y", 4)]
  all := ["x", "y"]
  reqs := [("y", [2, 0]), ("x", [])]
  nVar := 8
  K := 2
  nLaws := 4

theorem exMemOk_ok : ExOK exMemOk :=
  ⟨by decide, by decide, by decide, by
    intro r hr
    simp only [exMemOk, List.mem_cons, List.not_mem_nil, or_false] at hr
    rcases hr with rfl | rfl
    · exact ⟨by decide, by decide, by decide⟩
    · exact ⟨by decide, by decide, by decide⟩⟩

example : ExOK exMemOk ∧ ExFits exMemOk ∧ ExAllStored exMemOk :=
  ⟨exMemOk_ok, by unfold ExFits; decide, by unfold ExAllStored; decide⟩

example : exMemOk.nSol = 5 ∧ exMemOk.len .solx = 5 := by decide

/-- The second variable is not stored. -/
def exMemGrad : ExGen := { exMemOk with reqs := [("x", [])] }

theorem exMemGrad_ok : ExOK exMemGrad :=
  ⟨by decide, by decide, by decide, by
    intro r hr
    simp only [exMemGrad, List.mem_cons, List.not_mem_nil, or_false] at hr
    rcases hr with rfl
    exact ⟨by decide, by decide, by decide⟩⟩

/-- Some variable is not stored: the gradient of the last law reads beyond PDAQP's table. -/
theorem C60_fails_gradient : ExOK exMemGrad ∧ ExFits exMemGrad ∧ ¬ InBounds exMemGrad (exMemGrad.gradient 3) :=
  ⟨exMemGrad_ok, by unfold ExFits; decide, fun hb => absurd
    ((C60_gradient_iff exMemGrad exMemGrad_ok (by decide) (by decide)).1 hb "y" (by decide) (by decide)) (by decide)⟩

/-- The last variable is stored in part: the example program reads beyond `sol_x`. -/
theorem C60_fails_print : ∃ g : ExGen, ExOK g ∧ ExFits g ∧ ExAllStored g ∧ ¬ InBounds g g.print := by
  refine ⟨{ exMemOk with reqs := [("x", []), ("y", [2, 0])] }, ⟨by decide, by decide, by decide, ?_⟩, by unfold ExFits; decide,
    by unfold ExAllStored; decide, fun hb => ?_⟩
  · intro r hr
    simp only [List.mem_cons, List.not_mem_nil, or_false] at hr
    rcases hr with rfl | rfl
    · exact ⟨by decide, by decide, by decide⟩
    · exact ⟨by decide, by decide, by decide⟩
  · exact absurd (hb .solx 5 (by decide)) (by decide)

/-- A symmetric variable has more entries than canonical variables (2×2: four and three): evaluation writes beyond `sol_x`,
which has one entry per canonical variable because nothing seems to be reduced. -/
theorem C60_fails_symmetric : ∃ g : ExGen, ExOK g ∧ ¬ ExFits g ∧ ¬ InBounds g g.evaluate := by
  refine ⟨{ size := fun _ => 4, offs := [("S", 0)], all := ["S"], reqs := [("S", [])], nVar := 3, K := 1, nLaws := 1 },
    ⟨by decide, by decide, by decide, ?_⟩, by unfold ExFits; decide, fun hb => ?_⟩
  · intro r hr
    simp only [List.mem_cons, List.not_mem_nil, or_false] at hr
    rcases hr with rfl
    exact ⟨by decide, by decide, by decide⟩
  · exact absurd (hb .solx 3 (by decide)) (by decide)

/-- The claim requires different variables: a list with the same variable twice makes evaluation write beyond
`sol_x`: the size counted for the variable is that of its last occurrence. -/
theorem C60_fails_twice : ∃ g : ExGen, ExFits g ∧ (∀ r ∈ g.reqs, r.1 ∈ g.all ∧ GoodReq g.size r) ∧
    ¬ InBounds g g.evaluate := by
  refine ⟨{ size := fun _ => 3, offs := [("x", 0)], all := ["x"], reqs := [("x", []), ("x", [])], nVar := 3, K := 1, nLaws := 1 },
    by unfold ExFits; decide, ?_, fun hb => ?_⟩
  · intro r hr
    simp only [List.mem_cons, List.not_mem_nil, or_false] at hr
    rcases hr with rfl | rfl <;> exact ⟨by decide, by decide, by decide, by decide⟩
  · exact absurd (hb .solx 3 (by decide)) (by decide)

theorem C60_fails : ¬ C60Claim := by
  intro h
  exact C60_fails_gradient.2.2 ((h exMemGrad exMemGrad_ok).2 3 (by decide))

end Verif.Props
