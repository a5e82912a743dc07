import Verif.Lemmas.Deltas
import Verif.Lemmas.DeltasB
import Verif.Props.Explicit
import Mathlib.Algebra.Ring.Int.Defs
/-! C55: incoming gradients. -/
namespace Verif.Props
open Verif.Model Verif.Model.Deltas Verif.Spec Verif.Spec.Deltas Verif.Lemmas Verif.Lemmas.Deltas
open Verif.Model.Explicit Verif.Lemmas.Explicit
section
variable {R : Type}

/-- At every gradient computation `dx` represents the functional of the values given since the previous one. -/
def DxRight [NonUnitalNonAssocSemiring R] (vs : List UVar) (n : Nat) (g : String → Nat → R) (dx : List R) : Prop :=
  dx.length = n ∧ ∀ x : Nat → R, ∑ i ∈ Finset.range n, dx.getD i 0 * x i = functional vs g x

/-- The full claim of C55 for problems solved by a solver (no explicit solution). -/
def C55Claim : Prop :=
  ∀ (vs : List UVar) (n : Nat) (pi : PrimInfo) (ops : List (Op Int)), Blocks vs n → (∀ v ∈ vs, SymOK v) →
    primInfo vs = .ok pi → (∀ o ∈ ops, ValidOp vs o) →
    ∃ s, run pi n ops = some s ∧ List.Forall₂ (DxRight vs n) (pendings ops) s.log

/-- Missing for the full claim: symmetric variables. -/
theorem C55_partial [NonUnitalNonAssocSemiring R] (vs : List UVar) (n : Nat) (pi : PrimInfo) (ops : List (Op R))
    (hb : Blocks vs n) (hf : ∀ v ∈ vs, v.sym = false) (hpi : primInfo vs = .ok pi) (hops : ∀ o ∈ ops, ValidOp vs o) :
    ∃ s, run pi n ops = some s ∧ List.Forall₂ (DxRight vs n) (pendings ops) s.log := by
  obtain ⟨s, h1, _, h3⟩ := run_spec hb hf hpi ops hops
  exact ⟨s, h1, h3.imp fun g dx hi => ⟨hi.len, inv_functional hb hf g dx hi⟩⟩

theorem pending_updates [Zero R] (us : List (Upd R)) (ops : List (Op R)) (nm : String) (k : Nat) :
    pending (ops ++ us.map Op.upd) nm k
      = us.foldl (fun a u => if nm = u.name ∧ k = u.idx then u.val else a) (pending ops nm k) := by
  induction us using List.reverseRecOn with
  | nil => simp
  | append_singleton us u ih =>
    rw [List.map_append, ← List.append_assoc, List.map_singleton, pending_snoc, List.foldl_append]
    simp only [ih]
    rfl

/-- The calls made for a Python user (`gradient_cpp`): whatever was called before, the computation uses exactly the
values given now. -/
theorem C55_python [NonUnitalNonAssocSemiring R] (vs : List UVar) (n : Nat) (pi : PrimInfo) (ops : List (Op R))
    (hb : Blocks vs n) (hf : ∀ v ∈ vs, v.sym = false) (hpi : primInfo vs = .ok pi) (hops : ∀ o ∈ ops, ValidOp vs o)
    (g : String → Nat → R) :
    ∃ s, run pi n (ops ++ pyCalls vs g) = some s ∧ s.dx = List.replicate n 0 ∧
      ∃ dx, s.log.getLast? = some dx ∧ DxRight vs n g dx := by
  have hv : ∀ o ∈ pyCalls vs g, ValidOp vs o := by
    intro o ho
    rcases List.mem_append.1 ho with ho | ho
    · obtain ⟨v, hv, ho⟩ := List.mem_flatMap.1 ho
      obtain ⟨k, hk, rfl⟩ := List.mem_map.1 ho
      exact ⟨v, hv, rfl, List.mem_range.1 hk⟩
    · rw [List.mem_singleton] at ho; subst ho; trivial
  obtain ⟨us, hus⟩ : ∃ us : List (Upd R), us = vs.flatMap fun v => (List.range v.size).map fun k => ⟨v.name, k, g v.name k⟩ :=
    ⟨_, rfl⟩
  have epy : pyCalls vs g = us.map Op.upd ++ [.gradient] := by
    rw [hus, List.map_flatMap]
    simp only [List.map_map]
    rfl
  obtain ⟨s, h1, h2, h3⟩ := run_spec hb hf hpi (ops ++ us.map Op.upd) (by
    intro o ho
    rcases List.mem_append.1 ho with ho | ho
    · exact hops o ho
    · exact hv o (by rw [epy]; exact List.mem_append_left _ ho))
  have er : run pi n (ops ++ pyCalls vs g) = some ⟨List.replicate n 0, s.log ++ [s.dx]⟩ := by
    unfold run at h1 ⊢
    rw [epy, ← List.append_assoc, List.foldlM_append, h1]
    simp only [Option.bind_eq_bind, Option.bind_some, List.foldlM_cons, List.foldlM_nil, step]
    rw [zero_loop n s.dx h2.len]
    rfl
  refine ⟨_, er, rfl, s.dx, by simp, h2.len, fun x => ?_⟩
  rw [inv_functional hb hf _ _ h2 x]
  unfold functional
  congr 1
  apply List.map_congr_left
  intro v hv
  apply Finset.sum_congr rfl
  intro k hk
  have hk := Finset.mem_range.1 hk
  rw [pending_updates]
  congr 1
  have last : ∀ (us : List (Upd R)) (a : R), (∀ u ∈ us, u.name = v.name → u.idx = k → u.val = g v.name k) →
      (∃ u ∈ us, u.name = v.name ∧ u.idx = k) →
      us.foldl (fun a u => if v.name = u.name ∧ k = u.idx then u.val else a) a = g v.name k := by
    intro us
    induction us using List.reverseRecOn with
    | nil => rintro a _ ⟨u, hu, _⟩; cases hu
    | append_singleton us u ih =>
      intro a hall hex
      rw [List.foldl_append]
      simp only [List.foldl_cons, List.foldl_nil]
      by_cases hu : v.name = u.name ∧ k = u.idx
      · rw [if_pos hu]
        exact hall u (by simp) hu.1.symm hu.2.symm
      · rw [if_neg hu]
        apply ih a fun w hw => hall w (List.mem_append_left _ hw)
        obtain ⟨w, hw, e1, e2⟩ := hex
        rcases List.mem_append.1 hw with hw | hw
        · exact ⟨w, hw, e1, e2⟩
        · rw [List.mem_singleton] at hw
          subst hw
          exact absurd ⟨e1.symm, e2.symm⟩ hu
  apply last
  · intro u hu e1 e2
    rw [hus] at hu
    obtain ⟨w, hw, hu⟩ := List.mem_flatMap.1 hu
    obtain ⟨l, hl, rfl⟩ := List.mem_map.1 hu
    dsimp only at e1 e2 ⊢
    rw [e1, e2]
  · rw [hus]
    exact ⟨⟨v.name, k, g v.name k⟩, List.mem_flatMap.2 ⟨v, hv, List.mem_map.2 ⟨k, List.mem_range.2 hk, rfl⟩⟩, rfl, rfl⟩

end

/-- Where the code puts the gradient of entry `(0, 1)` of a symmetric variable, in general: `n` places after the start of
the variable, while the entry is at the next place. -/
theorem C55_fails_symmetric_place {R : Type} (nm : String) (n off N : Nat) (hn : 2 ≤ n) (hN : off + n < N) (dx : List R)
    (hdx : dx.length = N) (val : R) (pi : PrimInfo) (hpi : primInfo [⟨nm, [n, n], true, off⟩] = .ok pi) :
    updStep pi dx ⟨nm, n, val⟩ = some (dx.set (off + n) val) ∧ entryPos ⟨nm, [n, n], true, off⟩ n = off + 1 ∧
      off + n ≠ off + 1 := by
  refine ⟨?_, ?_, by omega⟩
  · rw [primInfo_eq _ (by intro v hv _; rw [List.mem_singleton] at hv; subst hv; exact ⟨n, rfl⟩)] at hpi
    cases hpi
    have hsz : UVar.size ⟨nm, [n, n], true, off⟩ = n * n := by simp [UVar.size]
    have h1 : ¬ n * n = 1 := by
      intro h
      have := Nat.mul_le_mul hn hn
      omega
    unfold updStep
    rw [show (dictOf (List.map (fun v : UVar => (v.name, v.size)) [⟨nm, [n, n], true, off⟩])).lookup nm = some (n * n) by
        have := lookup_nodup [⟨nm, [n, n], true, off⟩] UVar.name UVar.size (by simp) ⟨nm, [n, n], true, off⟩ (by simp)
        rw [hsz] at this; exact this,
      show (dictOf (List.map (fun v : UVar => (v.name, v.offset)) [⟨nm, [n, n], true, off⟩])).lookup nm = some off from
        lookup_nodup [⟨nm, [n, n], true, off⟩] UVar.name UVar.offset (by simp) ⟨nm, [n, n], true, off⟩ (by simp)]
    simp only [Option.bind_eq_bind, Option.bind_some, if_neg h1]
    rw [store, if_pos (by omega)]
  · have h0 : n % n = 0 := Nat.mod_self n
    have h1 : n / n = 1 := Nat.div_self (by omega)
    simp [entryPos, h0, h1, triPos]

/-- A symmetric variable at the end of the solver's vector: the calls made for a Python user write outside of `dx`. -/
theorem C55_fails_symmetric_bounds : (primInfo [⟨"X", [2, 2], true, 0⟩]).toOption.map
    (fun pi => (run pi 3 (pyCalls [⟨"X", [2, 2], true, 0⟩] fun _ _ => (1 : Int))).isSome) = some false := by
  rw [primInfo_eq _ (by intro v hv _; rw [List.mem_singleton] at hv; subst hv; exact ⟨2, rfl⟩)]
  decide

theorem C55_fails : ¬ C55Claim := by
  intro h
  have hp := primInfo_eq [⟨"X", [2, 2], true, 0⟩]
    (by intro v hv _; rw [List.mem_singleton] at hv; subst hv; exact ⟨2, rfl⟩)
  obtain ⟨s, h1, _⟩ := h [⟨"X", [2, 2], true, 0⟩] 3 _ (pyCalls [⟨"X", [2, 2], true, 0⟩] fun _ _ => 1)
    ⟨by decide, by decide, by decide⟩ (by intro v hv _; rw [List.mem_singleton] at hv; subst hv; exact ⟨2, rfl⟩) hp
    (by
      intro o ho
      rcases List.mem_append.1 ho with ho | ho
      · obtain ⟨v, hv, ho⟩ := List.mem_flatMap.1 ho
        obtain ⟨k, hk, rfl⟩ := List.mem_map.1 ho
        exact ⟨v, hv, rfl, List.mem_range.1 hk⟩
      · rw [List.mem_singleton] at ho; subst ho; trivial)
  have hf := C55_fails_symmetric_bounds
  rw [hp] at hf
  simp only [Except.toOption, Option.map_some, h1] at hf
  cases hf

/-- Non-vacuity: a scalar and a matrix, two gradient computations, and what they use. -/
def exDeltaVars : List UVar := [⟨"s", [], false, 0⟩, ⟨"M", [2, 2], false, 1⟩]

example : Blocks exDeltaVars 6 ∧ (∀ v ∈ exDeltaVars, v.sym = false) ∧
    (run (R := Int) ⟨[("s", 0), ("M", 1)], [], [("s", 1), ("M", 4)], [], []⟩ 6
      [.upd ⟨"M", 2, 5⟩, .upd ⟨"s", 0, 7⟩, .upd ⟨"M", 2, 6⟩, .gradient, .upd ⟨"M", 0, 1⟩, .gradient]).map St.log
      = some [[7, 0, 0, 6, 0, 0], [0, 1, 0, 0, 0, 0]] :=
  ⟨⟨by decide, by decide, by decide⟩, by decide, by decide⟩

/-! ### explicit mode -/

section
variable {R : Type}

theorem goodReq_ok (size : String → Nat) (r : String × List Nat) (g : GoodReq size r) : Ok size r := by
  refine ⟨?_, ?_⟩
  · unfold reqInds
    by_cases h : r.2 = []
    · rw [if_pos h]; exact List.nodup_range
    · rw [if_neg h]; exact g.nodup
  · unfold reqInds
    by_cases h : r.2 = []
    · rw [if_pos h]; simp
    · rw [if_neg h]
      constructor
      · exact g.single
      · intro hs
        have hall : ∀ a ∈ r.2, a = 0 := fun a ha => by have := g.range a ha; omega
        rcases hl : r.2 with _ | ⟨a, _ | ⟨b, t⟩⟩
        · exact absurd hl h
        · rfl
        · have h1 := hall a (by simp [hl])
          have h2 := hall b (by simp [hl])
          have := g.nodup
          rw [hl] at this
          simp [h1, h2] at this

/-- The gradients given for the stored entries, as a functional of the full solution `x` (`o`: where each variable begins
in it). -/
def storedFunctional [NonUnitalNonAssocSemiring R] (size o : String → Nat) (reqs : List (String × List Nat))
    (g : String → Nat → R) (x : Nat → R) : R :=
  (reqs.map fun r => ∑ i ∈ Finset.range (size r.1), if r.2 = [] ∨ i ∈ r.2 then g r.1 i * x (o r.1 + i) else 0).sum

/-- `cpg_dx`, against the stored entries of any full solution, is the functional of the gradients of exactly the stored
entries. Missing for the full claim: as for C39, single entries of larger variables and repeated variables. -/
theorem C55_explicit_partial [NonUnitalNonAssocSemiring R] (size o : String → Nat) (offs : List (String × Nat))
    (reqs : List (String × List Nat)) (hn : (reqs.map (·.1)).Nodup)
    (ho : ∀ r ∈ reqs, offs.lookup r.1 = some (o r.1)) (hg : ∀ r ∈ reqs, GoodReq size r) (g : String → Nat → R)
    (x : Nat → R) :
    ∑ p ∈ Finset.range (storeVars size offs reqs).2.outInds.length,
        exDx size (storeVars size offs reqs).2.info g p * x ((storeVars size offs reqs).2.outInds.getD p 0)
      = storedFunctional size o reqs g x := by
  rw [exDx_sum size o offs reqs hn ho (fun r hr => goodReq_ok size r (hg r hr)) g
    fun p => x ((storeVars size offs reqs).2.outInds.getD p 0)]
  have hC := C39_partial size o offs reqs hn ho hg x
  obtain ⟨i1, _, _⟩ := storeVars_info size o reqs offs ⟨0, [], []⟩ hn ho (by simp)
  have i1 : (storeVars size offs reqs).2.info = ((bases size 0 reqs).map fun b => (b.1.1, infoAt size b.1 b.2)).reverse := by
    unfold storeVars; rw [i1]; simp
  have hbn : ((bases size 0 reqs).map fun b => b.1.1).Nodup := by
    have : (bases size 0 reqs).map (fun b => b.1.1) = reqs.map (·.1) := by
      rw [← bases_fst size 0 reqs, List.map_map, bases_fst]; rfl
    rw [this]; exact hn
  unfold storedFunctional
  have hval : ∀ e ∈ bases size 0 reqs, ∀ i < size e.1.1,
      userPrim (size e.1.1) (infoAt size e.1 e.2) (fun p => x ((storeVars size offs reqs).2.outInds.getD p 0)) i
        = wanted size o x e.1 i := by
    intro e he i hi
    obtain ⟨v, hv, hw⟩ := hC e.1 (by rw [← bases_fst size 0 reqs]; exact List.mem_map_of_mem he)
    have : v = infoAt size e.1 e.2 := by
      rw [i1] at hv
      have hm : (e.1.1, v) ∈ ((bases size 0 reqs).map fun b => (b.1.1, infoAt size b.1 b.2)).reverse := by
        obtain ⟨l1, l2, hl, _⟩ := List.lookup_eq_some_iff.1 hv
        rw [hl]; simp
      rw [List.mem_reverse, List.mem_map] at hm
      obtain ⟨e', he', heq⟩ := hm
      have h1 : e'.1.1 = e.1.1 := (Prod.mk.inj heq).1
      have : e' = e := List.inj_on_of_nodup_map hbn he' he h1
      subst this
      exact (Prod.mk.inj heq).2.symm
    rw [← this]
    exact hw i hi
  have : ∀ l : List ((String × List Nat) × Nat), (∀ e ∈ l, e ∈ bases size 0 reqs) →
      (l.map fun e => ∑ i ∈ Finset.range (size e.1.1), g e.1.1 i *
        ((userPrim (size e.1.1) (infoAt size e.1 e.2) (fun p => x ((storeVars size offs reqs).2.outInds.getD p 0)) i).getD 0)).sum
      = ((l.map Prod.fst).map fun r => ∑ i ∈ Finset.range (size r.1),
          if r.2 = [] ∨ i ∈ r.2 then g r.1 i * x (o r.1 + i) else 0).sum := by
    intro l hl
    rw [List.map_map]
    congr 1
    apply List.map_congr_left
    intro e he
    apply Finset.sum_congr rfl
    intro i hi
    rw [hval e (hl e he) i (Finset.mem_range.1 hi)]
    unfold wanted
    by_cases h : e.1.2 = [] ∨ i ∈ e.1.2
    · rw [if_pos h, if_pos h]; rfl
    · rw [if_neg h, if_neg h]; simp
  have h2 := this (bases size 0 reqs) fun e he => he
  rw [bases_fst] at h2
  exact h2

end

/-- One entry (number 1) of a larger variable stored after another variable: the gradient given for entry 1 is not used, and
the one for entry 0 is written two places further. -/
theorem C55_explicit_fails_single :
    let st := (storeVars (fun _ => 2) [("y", 0), ("x", 2)] [("y", []), ("x", [1])]).2
    (exCalls 2 ⟨2, [2]⟩ fun i => (i : Int) + 5) = [(4, 5)] ∧ st.outInds.length = 3 ∧ st.info.lookup "x" = some ⟨2, [2]⟩ := by
  decide

example : (exDx (fun n => if n = "x" then 3 else 1)
      (storeVars (fun n => if n = "x" then 3 else 1) [("y", 0), ("x", 1)] [("y", []), ("x", [2, 0])]).2.info
      (fun n i => if n = "x" then (10 : Int) + i else 7) 0,
    exDx (fun n => if n = "x" then 3 else 1)
      (storeVars (fun n => if n = "x" then 3 else 1) [("y", 0), ("x", 1)] [("y", []), ("x", [2, 0])]).2.info
      (fun n i => if n = "x" then (10 : Int) + i else 7) 1) = (7, 12) := by decide
end Verif.Props
