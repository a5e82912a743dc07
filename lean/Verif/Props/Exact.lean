import Verif.Props.Dispatch
import Verif.Props.Flatten
import Verif.Props.Precond
import Verif.Props.Retrieve
import Verif.Props.Text
import Verif.Props.Explicit
import Verif.Props.ExObj
/-!
# Exact conditions for C18, C24, C39, C40, C44, C46 and C50

The restrictions under which these properties are proved elsewhere are not only sufficient: outside of them the property fails
for every input, not just for the witnesses given there.
-/
namespace Verif.Props

section
open Verif.Model

/-- **C18 (iff)** The table of dual variables exists exactly if there is an inequality constraint, or no constraint, or a single dual
vector. -/
theorem C18_iff (split : Bool) (nEq : Nat) (con : List CCon) (hid : (con.map CCon.id).Nodup) (hn : nEq ≤ con.length) (dualIds : List Nat)
    (hd : ∀ i ∈ dualIds, i ∈ con.map CCon.id) :
    (∃ ds, dualInfo split nEq con dualIds = .ok ds) ↔ (split = true → nEq < con.length ∨ con = []) := by
  by_cases hne : con = []
  · subst hne
    have h0 : nEq = 0 := by simpa using hn
    have h1 : dualIds = [] := by
      cases dualIds with
      | nil => rfl
      | cons a l => simpa using hd a (by simp)
    subst h0 h1
    refine ⟨fun _ _ => Or.inr rfl, fun _ => ?_⟩
    cases split <;> exact ⟨[], rfl⟩
  · constructor
    · rintro ⟨ds, h⟩ hs
      left
      by_contra hlt
      have : nEq = con.length := by omega
      subst this
      rw [hs, C18_fails_without_inequalities con hne dualIds] at h
      cases h
    · intro h
      obtain ⟨ds, h1, -⟩ := C18_dual_table split nEq con hid (fun hs => (h hs).resolve_right hne) hne dualIds hd
      exact ⟨ds, h1⟩

example : (∃ ds, dualInfo true 1 [⟨7, 2⟩, ⟨9, 1⟩] [9, 7] = .ok ds) :=
  (C18_iff true 1 [⟨7, 2⟩, ⟨9, 1⟩] (by decide) (by decide) [9, 7] (by decide)).mpr fun _ => Or.inl (by decide)

end

section
open Verif.Model Verif.Model.Precond Verif.Spec.Precond
variable {V : Type}

/-- **C24 (iff)** Solvers that scale the copies they are given leave the canonical parameters alone, for all sequences of calls and
whatever they do to the copies, exactly if no canonical parameter but `d` has one entry. -/
theorem C24_iff [Nontrivial V] (size : CId → Nat) :
    (∀ (v0 : CId → List V) (ops : List (Op V)), (∀ c, (v0 c).length = size c) → (∀ op ∈ ops, OpOK size op) →
      ∃ s, run size (init v0) ops = some s ∧ ∀ c, s.heap (.canon c) = stored v0 ops c) ↔
    ∀ c, c ≠ .d → size c ≠ 1 := by
  constructor
  · intro h c hd h1
    obtain ⟨a, b, hab⟩ := exists_pair_ne V
    have hv : ∀ c, (List.replicate (size c) a).length = size c := fun c => by simp
    obtain ⟨s, e1, e2⟩ := h (fun c => List.replicate (size c) a) [.copy c, .call false [c] fun _ _ _ => b] hv (by
      intro op ho
      simp only [List.mem_cons, List.not_mem_nil, or_false] at ho
      rcases ho with rfl | rfl
      · trivial
      · rfl)
    obtain ⟨s', e3, e4⟩ := C24_fails_size_one size c hd h1 (init fun c => List.replicate (size c) a) fun _ _ _ => b
    rw [e1] at e3
    obtain rfl := Option.some.inj e3
    have e5 := e2 c
    rw [e4] at e5
    simp only [init, overwrite, stored, List.foldl_cons, List.foldl_nil, h1, List.replicate_one] at e5
    simp at e5
    exact hab e5.symm
  · intro h v0 ops hl ho
    obtain ⟨s, e1, e2, -⟩ := C24_partial h v0 hl ops ho
    exact ⟨s, e1, e2⟩

/-- Two problems: without a canonical parameter of one entry, and with one. -/
example : (∀ c : CId, c ≠ .d → (if c = .d then 1 else 2) ≠ 1) ∧ ¬ ∀ c : CId, c ≠ .d → (if c = .q then 1 else 2) ≠ 1 :=
  ⟨fun c h => by simp [h], fun h => h .q (by decide) (by simp)⟩

end

section
open Verif.Model.Text Verif.Spec.Text

/-- **C44 (iff)** The values of the user parameters survive printing exactly if they are finite. -/
theorem C44_iff (v : List FVal) (hv : ∀ neg mag, FVal.fin neg mag ∈ v → 0 ≤ mag) :
    (∀ (i : Nat) (x : FVal), v[i]? = some x → ∃ t, (paramsInit v)[i]? = some t ∧ Shows t x) ↔
    ∀ x ∈ v, ∃ neg mag, x = .fin neg mag := by
  constructor
  · intro h x hx
    obtain ⟨i, hi⟩ := List.getElem?_of_mem hx
    obtain ⟨t, h1, y, w, h2, -⟩ := h i x hi
    have ht : t = fmt20 x := by
      unfold paramsInit vecInit at h1
      rw [List.getElem?_map, hi] at h1
      exact (Option.some.inj h1).symm
    subst ht
    cases x with
    | fin neg mag => exact ⟨neg, mag, rfl⟩
    | inf neg =>
      have : litVal (fmt20 (.inf neg)) = none := by cases neg <;> decide
      rw [this] at h2; cases h2
    | nan =>
      have : litVal (fmt20 .nan) = none := by decide
      rw [this] at h2; cases h2
  · intro h
    refine (C44_partial v fun x hx => ?_).2.1
    obtain ⟨neg, mag, rfl⟩ := h x hx
    exact ⟨neg, mag, rfl, hv neg mag hx⟩

example : ∀ neg mag, FVal.fin neg mag ∈ [FVal.fin true 2, .inf false, .nan] → 0 ≤ mag := by
  intro neg mag h
  simp at h
  rw [h.2]; decide

end

section
open Verif.Model.Text Verif.Model.Dispatch Verif.Spec.Dispatch

/-- The outcome the documentation promises. -/
def Promised (solver : Option Txt) (dual gradient windows : Bool) : Prop :=
  ∃ s, solver = some s ∧ select ⟨some s, dual, gradient, windows⟩ =
    match documented s dual gradient windows with
    | some m => .ok m
    | none => .error .valueError

/-- **C46 (iff)** A solver name has the documented effect exactly if there is one and, with differentiation, it is not OSQP in other
than capital letters. -/
theorem C46_iff (solver : Option Txt) (dual gradient windows : Bool) :
    Promised solver dual gradient windows ↔
      ∃ s, solver = some s ∧ (gradient = true → lower s = "osqp".toList → s = "OSQP".toList) := by
  constructor
  · rintro ⟨s, rfl, h⟩
    refine ⟨s, rfl, fun hg hs => ?_⟩
    by_contra hne
    subst hg
    have h1 : ¬ lower s = "explicit".toList := by rw [hs]; decide
    have h2 : documented s dual true windows = some (.osqp, 0, false) := by
      unfold documented
      simp only [if_neg h1, if_pos hs]
    rw [h2] at h
    unfold select resolve twoStage at h
    simp only [if_neg h1] at h
    rw [iface_lookup, if_pos hs] at h
    simp at h
    exact hne (by simpa using h)
  · rintro ⟨s, rfl, h⟩
    exact ⟨s, rfl, C46_partial s dual gradient windows h⟩

example : Promised (some "scs".toList) false true false ∧ ¬ Promised (some "osqp".toList) false true false ∧
    ¬ Promised none false false false := by
  refine ⟨(C46_iff ..).mpr ⟨_, rfl, fun _ h => absurd h (by decide)⟩, fun h => ?_, fun ⟨_, h, _⟩ => by cases h⟩
  obtain ⟨s, h1, h2⟩ := (C46_iff ..).mp h
  obtain rfl := Option.some.inj h1
  exact absurd (h2 rfl (by decide)) (by decide)

end

section
open Verif.Model.Flatten Verif.Spec.Flatten

/-- **C50 (iff)** The value of a parameter arrives in the generated code exactly if the parameter has several entries that may be
nonzero or is a single number. -/
theorem C50_iff {R : Type} [Zero R] (shape : List Nat) (attr : PAttr) (t : List Nat → R)
    (ha : HasAttr shape t attr) (hc : ∀ c, attr = .sparse c → c.Nodup ∧ ∀ idx ∈ c, Verif.Spec.Flatten.InBounds shape idx)
    (h0 : 0 < sizeUsp shape attr) :
    (∃ l, delivered shape attr t = some l) ↔ (sizeUsp shape attr = 1 → size shape = 1) := by
  constructor
  · rintro ⟨l, h⟩ h1
    by_contra hs
    unfold delivered getParamValue at h
    rw [if_neg hs, h1] at h
    cases attr <;> simp [toField] at h
  · intro h
    obtain ⟨l, h1, -⟩ := C50_partial shape attr t ha hc h0 h
    exact ⟨l, h1⟩

/-- The hypotheses are met on both sides. -/
example : (∃ (shape : List Nat) (attr : PAttr) (t : List Nat → Int), HasAttr shape t attr ∧
      (∀ c, attr = .sparse c → c.Nodup ∧ ∀ idx ∈ c, Verif.Spec.Flatten.InBounds shape idx) ∧ 0 < sizeUsp shape attr ∧
      ¬ (sizeUsp shape attr = 1 → size shape = 1)) ∧
    ∃ (shape : List Nat) (attr : PAttr) (t : List Nat → Int), HasAttr shape t attr ∧
      (∀ c, attr = .sparse c → c.Nodup ∧ ∀ idx ∈ c, Verif.Spec.Flatten.InBounds shape idx) ∧ 0 < sizeUsp shape attr ∧
      (sizeUsp shape attr = 1 → size shape = 1) := by
  constructor
  · obtain ⟨shape, attr, t, h1, h2, h3, h4⟩ := C50_fails
    refine ⟨shape, attr, t, h1, h2, h3, fun h => ?_⟩
    obtain ⟨l, h5⟩ := (C50_iff shape attr t h1 h2 h3).mpr h
    rw [h4] at h5; cases h5
  · exact ⟨[2, 3], .plain, fun _ => 1, trivial, fun c h => (by cases h), by decide, by decide⟩

end

section
open Verif.Model.Explicit Verif.Spec.Explicit Verif.Lemmas

/-- The rows of `A` are kept up to here. -/
theorem rank_eq_iff (mask : List Bool) (k : Nat) : rank mask k = k ↔ ∀ r < k, mask[r]? = some true := by
  unfold rank
  induction mask generalizing k with
  | nil =>
    cases k with
    | zero => simp
    | succ k => simpa using ⟨0, by omega⟩
  | cons b mask ih =>
    cases k with
    | zero => simp
    | succ k =>
      have hle : (mask.take k).count true ≤ k := (List.count_le_length ..).trans (by simp)
      rw [List.take_succ_cons, List.count_cons]
      constructor
      · intro h r hr
        cases b with
        | false => simp at h; omega
        | true =>
          simp at h
          cases r with
          | zero => rfl
          | succ r => exact (ih k).mp h r (by omega)
      · intro h
        have hb := h 0 (by omega)
        have := (ih k).mpr fun r hr => by simpa using h (r + 1) (by omega)
        simp at hb
        subst hb
        rw [this]; simp

/-- **C40 (iff)** For constraints whose rows are in the order of the constraints, the value saved for an entry is its multiplier,
whatever the multipliers are, exactly if no constraint on parameters comes before and no row before it has been removed. -/
theorem C40_iff (mask : List Bool) (cons : List DCon) (i : Nat) (c : DCon) (hi : cons[i]? = some c) (hc : c.isParam = false) (j : Nat)
    (hj : j < c.size) (horder : cons.Pairwise fun a b => a.offset + a.size ≤ b.offset) :
    (∀ soly : Nat → Int, savedDual cons soly i j = some (multiplier mask soly c j)) ↔
      (∀ d ∈ cons.take i, d.isParam = false) ∧ ∀ r < c.offset + j, mask[r]? = some true := by
  have hlt := (List.getElem?_eq_some_iff.mp hi).1
  have hsplit : cons = cons.take i ++ c :: cons.drop (i + 1) := by
    have h2 : cons[i] = c := (List.getElem?_eq_some_iff.mp hi).2
    rw [← h2, List.getElem_cons_drop_succ_eq_drop, List.take_append_drop]
  constructor
  · intro h
    have hle : rank mask (c.offset + j) ≤ c.offset + j := by
      unfold rank
      exact (List.count_le_length ..).trans (by simp)
    have h1 := h fun k => k
    have key : ∃ c', (cons.filter fun c => !c.isParam)[i]? = some c' ∧ c'.offset + j = rank mask (c.offset + j) := by
      unfold savedDual multiplier dualInfo at h1
      split at h1
      · rename_i c' e
        split at h1
        · exact ⟨c', e, by have := Option.some.inj h1; simp only at this; exact_mod_cast this⟩
        · cases h1
      · cases h1
    obtain ⟨c', e1, e2⟩ := key
    have hpre : ∀ d ∈ cons.take i, d.isParam = false := by
      by_contra hcon
      have hlen : ((cons.take i).filter fun c => !c.isParam).length < i := by
        have h3 : ((cons.take i).filter fun c => !c.isParam).length < (cons.take i).length := by
          rcases Nat.lt_or_ge ((cons.take i).filter fun c => !c.isParam).length (cons.take i).length with h3 | h3
          · exact h3
          · exfalso
            apply hcon
            intro d hd
            have := List.length_filter_eq_length_iff.mp (Nat.le_antisymm (List.length_filter_le ..) h3) d hd
            simpa using this
        exact h3.trans_le (by simp)
      have hmem : c' ∈ cons.drop (i + 1) := by
        rw [hsplit, List.filter_append, List.getElem?_append_right hlen.le, List.filter_cons, hc] at e1
        simp only [Bool.not_false, if_true] at e1
        obtain ⟨m, hm⟩ : ∃ m, i - ((cons.take i).filter fun c => !c.isParam).length = m + 1 := ⟨_, (Nat.succ_pred_eq_of_pos (by omega)).symm⟩
        rw [hm, List.getElem?_cons_succ] at e1
        exact List.mem_of_mem_filter (List.mem_of_getElem? e1)
      rw [hsplit, List.pairwise_append, List.pairwise_cons] at horder
      have := horder.2.1.1 c' hmem
      omega
    refine ⟨hpre, ?_⟩
    have hcc : c' = c := by
      have hf : (cons.take i).filter (fun c => !c.isParam) = cons.take i := by
        rw [List.filter_eq_self]
        intro d hd
        simp [hpre d hd]
      rw [hsplit, List.filter_append, hf, List.getElem?_append_right (by simp), List.filter_cons, hc] at e1
      have hl : (cons.take i).length = i := by simp; omega
      simpa [hl] using e1.symm
    subst hcc
    exact (rank_eq_iff _ _).mp e2.symm
  · rintro ⟨h1, h2⟩ soly
    have := C40_partial mask soly (cons.take i) (cons.drop (i + 1)) c h1 hc j hj h2
    rw [← hsplit] at this
    rwa [show (cons.take i).length = i by simp; omega] at this

/-- Entry 1 of the second constraint: saved if no row has been removed, not if row 0 has been. -/
example : (∀ soly : Nat → Int, savedDual [⟨false, 0, 1⟩, ⟨false, 1, 2⟩] soly 1 1 = some (multiplier [true, true, true] soly ⟨false, 1, 2⟩ 1)) ∧
    ¬ ∀ soly : Nat → Int, savedDual [⟨false, 0, 1⟩, ⟨false, 1, 2⟩] soly 1 1 = some (multiplier [false, true, true] soly ⟨false, 1, 2⟩ 1) := by
  constructor
  · refine (C40_iff _ _ 1 _ rfl rfl 1 (by decide) (by simp)).mpr ⟨by decide, fun r hr => ?_⟩
    change r < 2 at hr
    rcases r with _ | _ | r
    · rfl
    · rfl
    · omega
  · intro h
    have := ((C40_iff _ _ 1 _ rfl rfl 1 (by decide) (by simp)).mp h).2 0 (by decide)
    simp at this

end

section
open Verif.Model.Explicit Verif.Spec.Explicit Verif.Lemmas Verif.Lemmas.Explicit

/-- The canonical position of every stored entry, in the order of storage. -/
theorem storeVars_outInds (size o : String → Nat) (offs : List (String × Nat)) (reqs : List (String × List Nat))
    (hn : (reqs.map (·.1)).Nodup) (ho : ∀ r ∈ reqs, offs.lookup r.1 = some (o r.1)) :
    (storeVars size offs reqs).2.outInds = reqs.flatMap fun r => (reqInds size r).map (o r.1 + ·) := by
  have := outInds_fold size o reqs offs ⟨0, [], []⟩ hn ho
  unfold storeVars
  rw [this]
  simp

/-- **C39 (iff)** With requests for distinct variables, a request is answered with the requested entries of the full solution,
whatever that is, exactly if it is not for one entry of a larger variable or is, as the first, for entry 0. -/
theorem C39_iff (size o : String → Nat) (offs : List (String × Nat)) (reqs : List (String × List Nat))
    (hn : (reqs.map (·.1)).Nodup) (ho : ∀ r ∈ reqs, offs.lookup r.1 = some (o r.1)) (hpos : ∀ r ∈ reqs, 0 < size r.1)
    (hr : ∀ r ∈ reqs, r.2.Nodup ∧ ∀ i ∈ r.2, i < size r.1)
    (hd : ∀ r ∈ reqs, ∀ r' ∈ reqs, r.1 ≠ r'.1 → o r.1 + size r.1 ≤ o r'.1 ∨ o r'.1 + size r'.1 ≤ o r.1)
    (r : String × List Nat) (hm : r ∈ reqs) :
    (∃ v, (storeVars size offs reqs).2.info.lookup r.1 = some v ∧
      ∀ x z : Nat → Int, (∀ k p, (storeVars size offs reqs).2.outInds[k]? = some p → z k = x p) →
        ∀ i < size r.1, userPrim (size r.1) v z i = wanted size o x r i) ↔
    (r.2.length = 1 → size r.1 = 1 ∨ (r.2 = [0] ∧ reqs.head? = some r)) := by
  obtain ⟨offs', s', e1, _, _, e4⟩ := storeVars_spec size o reqs offs ⟨0, [], []⟩ hn ho rfl
  obtain ⟨base, f1, f2⟩ := e4 r hm
  have es : (storeVars size offs reqs).2 = s' := by unfold storeVars; rw [e1]
  have hlt : ∀ r ∈ reqs, ∀ i ∈ reqInds size r, i < size r.1 := by
    intro r hm i hi
    unfold reqInds at hi
    split at hi
    · simpa using hi
    · exact (hr r hm).2 i hi
  have hO := storeVars_outInds size o offs reqs hn ho
  have hnd : s'.outInds.Nodup := by
    rw [← es, hO, List.nodup_flatMap]
    refine ⟨fun r hm => ?_, ?_⟩
    · refine List.Nodup.map (fun a b h => by simpa using h) ?_
      unfold reqInds
      split
      · exact List.nodup_range
      · exact (hr r hm).1
    · rw [List.nodup_iff_pairwise_ne, List.pairwise_map] at hn
      refine hn.imp_of_mem ?_
      intro a b ha hb hab p h1 h2
      simp only [List.mem_map] at h1 h2
      obtain ⟨i, hi, rfl⟩ := h1
      obtain ⟨j, hj, h⟩ := h2
      have := hlt a ha i hi
      have := hlt b hb j hj
      rcases hd a ha b hb hab with h' | h' <;> omega
  rw [es]
  by_cases h1 : r.2.length = 1
  · obtain ⟨k, hk⟩ := List.length_eq_one_iff.mp h1
    have hk' : reqInds size r = [k] := by unfold reqInds; rw [hk]; simp
    have hkl := (hr r hm).2 k (by simp [hk])
    by_cases hs : size r.1 = 1
    · refine ⟨fun _ _ => Or.inl hs, fun _ => ?_⟩
      refine ⟨_, f1, fun x z hz i hi => ?_⟩
      obtain ⟨v, g1, g2⟩ := c39_request size o offs reqs hn ho x z (by rw [es]; exact hz) r hm ⟨(hr r hm).2, (hr r hm).1, fun _ => hs⟩
      rw [es, f1] at g1
      obtain rfl := Option.some.inj g1
      exact g2 i hi
    · have fb := f2 0 k (by rw [hk']; rfl)
      rw [hk'] at f1
      simp only [List.length_singleton, if_true] at f1
      have hbase : base = 0 ↔ reqs.head? = some r := by
        obtain ⟨r0, rest, hreqs⟩ : ∃ a l, reqs = a :: l := List.exists_cons_of_ne_nil (List.ne_nil_of_mem hm)
        have h0 : r0 ∈ reqs := by simp [hreqs]
        obtain ⟨i0, hi0⟩ : ∃ i, (reqInds size r0)[0]? = some i := by
          have : 0 < (reqInds size r0).length := by
            unfold reqInds
            split
            · simpa using hpos r0 h0
            · rename_i h; exact List.length_pos_iff.mpr h
          exact ⟨_, List.getElem?_eq_getElem this⟩
        have hz0 : s'.outInds[0]? = some (o r0.1 + i0) := by
          rw [← es, hO, hreqs, List.flatMap_cons, List.getElem?_append_left, List.getElem?_map, hi0]
          · rfl
          · simpa using (List.getElem?_eq_some_iff.mp hi0).1
        rw [hreqs]
        simp only [List.head?_cons, Option.some.injEq]
        constructor
        · rintro rfl
          by_contra hne
          have hnn : r0.1 ≠ r.1 := by
            intro h
            exact hne (List.inj_on_of_nodup_map hn h0 hm h)
          rw [Nat.add_zero, hz0] at fb
          have := Option.some.inj fb
          have := hlt r0 h0 i0 (List.mem_of_getElem? hi0)
          rcases hd r0 h0 r hm hnn with h' | h' <;> omega
        · rintro rfl
          rw [hk'] at hi0
          simp at hi0
          subst hi0
          rw [Nat.add_zero] at fb
          have hl := (List.getElem?_eq_some_iff.mp fb).1
          exact (List.getElem?_inj hl hnd).mp (fb.trans hz0.symm)
      constructor
      · rintro ⟨v, g1, g2⟩ _
        right
        rw [f1] at g1
        obtain rfl := Option.some.inj g1
        have g3 := g2 (fun p => p) (fun m => match s'.outInds[m]? with | some p => (p : Int) | none => -1)
          (fun m p h => by simp [h]) k hkl
        unfold userPrim wanted at g3
        simp only [if_neg hs, hk] at g3
        cases k with
        | succ k => simp at g3
        | zero =>
          refine ⟨hk, hbase.mp ?_⟩
          simp only [List.getElem?_cons_zero, Int.natCast_nonneg, if_true, Int.toNat_natCast, List.mem_singleton, or_true, Nat.add_zero,
            Option.some.injEq] at g3
          split at g3
          · rename_i p hp
            have : p = o r.1 := by exact_mod_cast g3
            subst this
            rw [Nat.add_zero, Nat.add_zero] at fb
            have hl := (List.getElem?_eq_some_iff.mp fb).1
            have := (List.getElem?_inj hl hnd).mp (fb.trans hp.symm)
            omega
          · omega
      · intro h
        obtain ⟨h2, h3⟩ := (h h1).resolve_left hs
        have hb := hbase.mpr h3
        subst hb
        rw [hk] at h2
        obtain rfl : k = 0 := by simpa using h2
        refine ⟨_, f1, fun x z hz i hi => ?_⟩
        unfold userPrim wanted
        simp only [if_neg hs, hk]
        cases i with
        | zero =>
          have := hz 0 _ fb
          simp [this]
        | succ i => simp
  · refine ⟨fun _ h => absurd h h1, fun _ => ?_⟩
    refine ⟨_, f1, fun x z hz i hi => ?_⟩
    obtain ⟨v, g1, g2⟩ := c39_request size o offs reqs hn ho x z (by rw [es]; exact hz) r hm ⟨(hr r hm).2, (hr r hm).1, fun h => absurd h h1⟩
    rw [es, f1] at g1
    obtain rfl := Option.some.inj g1
    exact g2 i hi

/-- Entry 0 of `x` and then entry 0 of `y`, both with three entries: the first request is answered, the second is not. -/
example : (∃ v, (storeVars (fun _ => 3) [("x", 0), ("y", 3)] [("x", [0]), ("y", [0])]).2.info.lookup "x" = some v ∧
      ∀ x z : Nat → Int, (∀ k p, (storeVars (fun _ => 3) [("x", 0), ("y", 3)] [("x", [0]), ("y", [0])]).2.outInds[k]? = some p → z k = x p) →
        ∀ i < 3, userPrim 3 v z i = wanted (fun _ => 3) (fun n => if n = "x" then 0 else 3) x ("x", [0]) i) ∧
    ¬ ∃ v, (storeVars (fun _ => 3) [("x", 0), ("y", 3)] [("x", [0]), ("y", [0])]).2.info.lookup "y" = some v ∧
      ∀ x z : Nat → Int, (∀ k p, (storeVars (fun _ => 3) [("x", 0), ("y", 3)] [("x", [0]), ("y", [0])]).2.outInds[k]? = some p → z k = x p) →
        ∀ i < 3, userPrim 3 v z i = wanted (fun _ => 3) (fun n => if n = "x" then 0 else 3) x ("y", [0]) i := by
  have key := C39_iff (fun _ => 3) (fun n => if n = "x" then 0 else 3) [("x", 0), ("y", 3)] [("x", [0]), ("y", [0])] (by decide) (by decide)
    (by decide) (by decide) (by decide)
  refine ⟨(key ("x", [0]) (by decide)).mpr fun _ => Or.inr ⟨rfl, rfl⟩, fun h => ?_⟩
  have := (key ("y", [0]) (by decide)).mp h rfl
  revert this
  decide

end

end Verif.Props
