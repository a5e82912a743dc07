import Verif.Spec.Requests
import Verif.Lemmas.Flatten
import Verif.Props.Explicit
/-!
C64: the entries of variables chosen with `stored_vars` are the ones stored.
-/
namespace Verif.Props
open Verif.Model Verif.Model.Requests Verif.Spec.Requests Verif.Spec.Flatten Verif.Lemmas.Flatten Verif.Model.Explicit

/-- The indices for the request are the column-major positions of the entries it selects, each once. -/
def Chosen (shape : List Nat) (q : Req) (l : List Nat) : Prop :=
  resolve shape q = .ok (l.map Int.ofNat) ∧ l.Nodup ∧
  ∀ k, k ∈ l ↔ ∃ idx, InBounds shape idx ∧ Selected shape idx q ∧ pos shape idx = k

/-- Every axis has an index that is in range, not empty and without repetition. -/
def KeysOk : List AxKey → List Nat → Prop
  | [], [] => True
  | k :: ks, d :: ds => k.vals.Nodup ∧ k.vals ≠ [] ∧ (∀ z ∈ k.vals, 0 ≤ z ∧ z < d) ∧ KeysOk ks ds
  | _, _ => False

/-- A list of indices that is not a single one. -/
def longKey : AxKey → Bool
  | .sl _ => false
  | .ints l => l.length != 1

/-- Requests that are handled as in numpy. -/
def GoodKey (shape : List Nat) : Req → Prop
  | .whole => True
  | .oneList l => (∃ d, shape = [d] ∧ ∀ z ∈ l, 0 ≤ z ∧ z < d) ∧ l ≠ [] ∧ l.Nodup
  | .many keys => KeysOk keys shape ∧ (keys.filter longKey).length ≤ 1
  | _ => False

theorem requests_ravel : ∀ (shape r : List Nat), InBounds shape r → ravel shape (r.map Int.ofNat) = .ok (pos shape r)
  | [], [], _ => rfl
  | d :: ds, i :: r, h => by
    have := requests_ravel ds r h.2
    have hi := h.1
    rw [List.map_cons, ravel, if_pos ⟨Int.natCast_nonneg i, by simpa using hi⟩, this]
    simp [pos]

/-- The product, as natural numbers. -/
theorem prod_nat : ∀ (keys : List AxKey) (shape : List Nat), KeysOk keys shape →
    ∃ L : List (List Nat), prod (keys.map AxKey.vals) = L.map (List.map Int.ofNat) ∧ L.Nodup ∧ L ≠ [] ∧
      (∀ r ∈ L, InBounds shape r) ∧
      ∀ r, r ∈ L ↔ List.Forall₂ (fun (k : AxKey) (i : Nat) => (i : Int) ∈ k.vals) keys r
  | [], [], _ => ⟨[[]], rfl, by simp, by simp, by simp [InBounds], fun r => by cases r <;> simp⟩
  | k :: ks, d :: ds, h => by
    obtain ⟨L, h1, h2, h3, h4, h5⟩ := prod_nat ks ds h.2.2.2
    obtain ⟨n1, n2, n3, _⟩ := h
    obtain ⟨v, hv⟩ : ∃ v : List Nat, k.vals = v.map Int.ofNat := by
      refine ⟨k.vals.map Int.toNat, ?_⟩
      rw [List.map_map]
      conv_lhs => rw [← List.map_id k.vals]
      apply List.map_congr_left
      intro z hz
      have := (n3 z hz).1
      simp [Int.toNat_of_nonneg this]
    have hvn : v.Nodup := by rw [hv] at n1; exact List.Nodup.of_map _ n1
    have hmem : ∀ i : Nat, (i : Int) ∈ k.vals ↔ i ∈ v := by
      intro i
      rw [hv]
      constructor
      · intro hi
        obtain ⟨j, hj, e⟩ := List.mem_map.1 hi
        have : j = i := Int.ofNat.inj e
        exact this ▸ hj
      · intro hi; exact List.mem_map.2 ⟨i, hi, rfl⟩
    refine ⟨v.flatMap fun i => L.map (i :: ·), ?_, ?_, ?_, ?_, ?_⟩
    · simp only [List.map_cons, prod, hv, h1, List.flatMap_map, List.map_flatMap, List.map_map]
      rfl
    · rw [List.nodup_flatMap]
      refine ⟨fun i _ => h2.map fun a b e => (List.cons.inj e).2, ?_⟩
      refine hvn.imp_of_mem fun {a b} _ _ hab => ?_
      simp only [Function.onFun, List.disjoint_left, List.mem_map, not_exists, not_and]
      rintro x ⟨y, _, rfl⟩ z _ e
      exact hab (List.cons.inj e).1.symm
    · intro e
      cases hL : L with
      | nil => exact h3 hL
      | cons r _ =>
        cases hv' : v with
        | nil => rw [hv'] at hv; exact n2 (by simpa using hv)
        | cons i _ => rw [hL, hv'] at e; simp at e
    · intro r hr
      obtain ⟨i, hi, hr⟩ := List.mem_flatMap.1 hr
      obtain ⟨r', hr', rfl⟩ := List.mem_map.1 hr
      exact ⟨by have := (n3 _ ((hmem i).2 hi)).2; exact_mod_cast this, h4 r' hr'⟩
    · intro r
      constructor
      · intro hr
        obtain ⟨i, hi, hr⟩ := List.mem_flatMap.1 hr
        obtain ⟨r', hr', rfl⟩ := List.mem_map.1 hr
        exact List.Forall₂.cons ((hmem i).2 hi) ((h5 r').1 hr')
      · intro hr
        cases hr with
        | cons a b => exact List.mem_flatMap.2 ⟨_, (hmem _).1 a, List.mem_map.2 ⟨_, (h5 _).2 b, rfl⟩⟩

/-- What numpy selects is within the product. -/
theorem together_prod (t : Nat) : ∀ (keys : List AxKey) (shape idx : List Nat), KeysOk keys shape → Together t keys shape idx →
    List.Forall₂ (fun (k : AxKey) (i : Nat) => (i : Int) ∈ k.vals) keys idx
  | [], [], [], _, _ => .nil
  | k :: ks, d :: ds, [], _, h => by cases k <;> exact h.elim
  | k :: ks, d :: ds, i :: r, hk, h => by
    cases k with
    | sl l =>
      exact .cons (List.mem_map.2 ⟨i, h.1.2, rfl⟩) (together_prod t ks ds r hk.2.2.2 h.2)
    | ints l =>
      obtain ⟨⟨_, z, hz, hw⟩, h2⟩ := h
      have hm := List.mem_of_getElem? hz
      have h0 := (hk.2.2.1 z hm).1
      unfold Wraps at hw
      rw [if_neg (by omega)] at hw
      exact .cons (by rw [hw]; exact hm) (together_prod t ks ds r hk.2.2.2 h2)

/-- Without lists of several elements the product is what numpy selects. -/
theorem prod_together_none (t : Nat) : ∀ (keys : List AxKey) (shape idx : List Nat), KeysOk keys shape →
    (∀ k ∈ keys, longKey k = false) → List.Forall₂ (fun (k : AxKey) (i : Nat) => (i : Int) ∈ k.vals) keys idx →
    Together t keys shape idx
  | [], [], [], _, _, _ => trivial
  | k :: ks, d :: ds, i :: r, hk, hl, .cons a b => by
    have ih := prod_together_none t ks ds r hk.2.2.2 (fun x hx => hl x (List.mem_cons_of_mem _ hx)) b
    have hid : i < d := by have := (hk.2.2.1 _ a).2; exact_mod_cast this
    cases k with
    | sl l =>
      obtain ⟨j, hj, e⟩ := List.mem_map.1 a
      have : j = i := Int.ofNat.inj e
      exact ⟨⟨hid, this ▸ hj⟩, ih⟩
    | ints l =>
      have h1 : l.length = 1 := by simpa [longKey] using hl (.ints l) (by simp)
      refine ⟨⟨hid, (i : Int), ?_, ?_⟩, ih⟩
      · rw [if_pos h1]
        obtain ⟨z, rfl⟩ := List.length_eq_one_iff.1 h1
        have : (i : Int) = z := by simpa [AxKey.vals] using a
        rw [this]; rfl
      · unfold Wraps; rw [if_neg (by omega)]

/-- With at most one list of several elements, too. -/
theorem prod_together : ∀ (keys : List AxKey) (shape idx : List Nat), KeysOk keys shape →
    (keys.filter longKey).length ≤ 1 → List.Forall₂ (fun (k : AxKey) (i : Nat) => (i : Int) ∈ k.vals) keys idx →
    ∃ t, Together t keys shape idx
  | [], [], [], _, _, _ => ⟨0, trivial⟩
  | k :: ks, d :: ds, i :: r, hk, hl, .cons a b => by
    have hid : i < d := by have := (hk.2.2.1 _ a).2; exact_mod_cast this
    by_cases hlong : longKey k = true
    · rw [List.filter_cons, if_pos hlong, List.length_cons] at hl
      have hnone : ∀ x ∈ ks, longKey x = false := by
        intro x hx
        by_contra hc
        have : x ∈ ks.filter longKey := List.mem_filter.2 ⟨hx, by simpa using hc⟩
        have := List.length_pos_of_mem this
        omega
      cases k with
      | sl l => cases hlong
      | ints l =>
        have h1 : l.length ≠ 1 := by simpa [longKey] using hlong
        obtain ⟨t, ht, e⟩ := List.getElem_of_mem a
        refine ⟨t, ⟨hid, (i : Int), ?_, ?_⟩, prod_together_none t ks ds r hk.2.2.2 hnone b⟩
        · rw [if_neg h1]
          rw [← e]
          exact List.getElem?_eq_getElem ht
        · unfold Wraps; rw [if_neg (by omega)]
    · rw [List.filter_cons, if_neg hlong] at hl
      obtain ⟨t, ht⟩ := prod_together ks ds r hk.2.2.2 hl b
      refine ⟨t, ?_⟩
      have := prod_together_none t [k] [d] [i] ⟨hk.1, hk.2.1, hk.2.2.1, trivial⟩ (by simpa using hlong) (.cons a .nil)
      cases k with
      | sl l => exact ⟨this.1, ht⟩
      | ints l => exact ⟨this.1, ht⟩

theorem keysOk_length : ∀ (keys : List AxKey) (shape : List Nat), KeysOk keys shape → keys.length = shape.length
  | [], [], _ => rfl
  | _ :: ks, _ :: ds, h => by simp [keysOk_length ks ds h.2.2.2]

theorem mapM_ravel (shape : List Nat) : ∀ L : List (List Nat), (∀ r ∈ L, InBounds shape r) →
    (L.map (List.map Int.ofNat)).mapM (ravel shape) = .ok (L.map (pos shape))
  | [], _ => rfl
  | r :: L, h => by
    rw [List.map_cons, List.mapM_cons, requests_ravel shape r (h r (by simp)), mapM_ravel shape L fun x hx => h x (by simp [hx])]
    rfl

/-- Several axes: the indices are the positions of the product. -/
theorem indsOf_spec (shape : List Nat) (keys : List AxKey) (hk : KeysOk keys shape) :
    ∃ l, indsOf shape keys = .ok l ∧ l ≠ [] ∧ l.Nodup ∧ ∀ k, k ∈ l ↔ ∃ idx, InBounds shape idx ∧
      List.Forall₂ (fun (k : AxKey) (i : Nat) => (i : Int) ∈ k.vals) keys idx ∧ pos shape idx = k := by
  obtain ⟨L, h1, h2, h3, h4, h5⟩ := prod_nat keys shape hk
  refine ⟨L.map (pos shape), ?_, by simpa using h3, ?_, fun k => ?_⟩
  · unfold indsOf
    rw [List.map_fst_zip (by rw [keysOk_length _ _ hk]), h1]
    exact mapM_ravel shape L h4
  · exact (List.nodup_map_iff_inj_on h2).2 fun a ha b hb e => pos_inj shape a b (h4 a ha) (h4 b hb) e
  · rw [List.mem_map]
    constructor
    · rintro ⟨idx, hi, rfl⟩; exact ⟨idx, h4 idx hi, (h5 idx).1 hi, rfl⟩
    · rintro ⟨idx, _, hf, rfl⟩; exact ⟨idx, (h5 idx).2 hf, rfl⟩

theorem map_ofNat_inj {a b : List Nat} (h : a.map Int.ofNat = b.map Int.ofNat) : a = b :=
  List.map_injective_iff.2 (fun _ _ e => Int.ofNat.inj e) h

/-- The full property: whatever the index, the entries it selects are stored. -/
def C64Claim : Prop := ∀ (shape : List Nat) (q : Req), ∃ l, Chosen shape q l

/-- For whole variables, lists of indices from the beginning for one axis, and products of slices with at most one list of
several elements. -/
theorem C64_partial (shape : List Nat) (q : Req) (hq : GoodKey shape q) : ∃ l, Chosen shape q l := by
  cases q with
  | whole =>
    refine ⟨List.range (Flatten.size shape), rfl, List.nodup_range, fun k => ?_⟩
    rw [List.mem_range]
    constructor
    · intro h
      obtain ⟨h1, h2⟩ := idxOf_spec shape k h
      exact ⟨_, h1, h1, h2⟩
    · rintro ⟨idx, h1, _, rfl⟩; exact pos_lt shape idx h1
  | oneList l =>
    obtain ⟨⟨d, rfl, hr⟩, hne, hnd⟩ := hq
    have hl : l = (l.map Int.toNat).map Int.ofNat := by
      rw [List.map_map]
      conv_lhs => rw [← List.map_id l]
      apply List.map_congr_left
      intro z hz
      simp [Int.toNat_of_nonneg (hr z hz).1]
    refine ⟨l.map Int.toNat, ?_, ?_, fun k => ?_⟩
    · simp only [resolve, orAll, if_neg hne]
      rw [← hl]
    · exact (List.nodup_map_iff_inj_on hnd).2 fun a ha b hb e => by
        have h1 := (hr a ha).1
        have h2 := (hr b hb).1
        omega
    · rw [List.mem_map]
      constructor
      · rintro ⟨z, hz, rfl⟩
        obtain ⟨h0, h1⟩ := hr z hz
        have hi : InBounds [d] [z.toNat] := ⟨by omega, trivial⟩
        refine ⟨[z.toNat], hi, ⟨hi, d, z.toNat, z, rfl, rfl, hz, ?_⟩, by simp [pos]⟩
        unfold Wraps; rw [if_neg (by omega)]; omega
      · rintro ⟨idx, h1, ⟨_, d', i, z, hd, rfl, hz, hw⟩, rfl⟩
        refine ⟨z, hz, ?_⟩
        unfold Wraps at hw
        rw [if_neg (by have := (hr z hz).1; omega)] at hw
        simp only [pos]
        omega
  | many keys =>
    obtain ⟨hk, hl⟩ := hq
    obtain ⟨l, h1, h2, h3, h4⟩ := indsOf_spec shape keys hk
    refine ⟨l, ?_, h3, fun k => ?_⟩
    · simp only [resolve, h1, orAll]
      rw [if_neg (by simpa using h2)]
    · rw [h4]
      constructor
      · rintro ⟨idx, a, b, c⟩; exact ⟨idx, a, prod_together keys shape idx hk hl b, c⟩
      · rintro ⟨idx, a, ⟨t, b⟩, c⟩; exact ⟨idx, a, together_prod t keys shape idx hk b, c⟩
  | oneSlice l => exact hq.elim
  | oneMask l => exact hq.elim
  | oneArray l => exact hq.elim
  | rows l => exact hq.elim

/-- Several lists: what is selected is stored, possibly with more. -/
theorem C64_superset (shape : List Nat) (keys : List AxKey) (hk : KeysOk keys shape) :
    ∃ l : List Nat, resolve shape (.many keys) = .ok (l.map Int.ofNat) ∧
      ∀ idx, Selected shape idx (.many keys) → InBounds shape idx → pos shape idx ∈ l := by
  obtain ⟨l, h1, h2, h3, h4⟩ := indsOf_spec shape keys hk
  refine ⟨l, ?_, fun idx ⟨t, b⟩ a => (h4 _).2 ⟨idx, a, together_prod t keys shape idx hk b, rfl⟩⟩
  simp only [resolve, h1, orAll]
  rw [if_neg (by simpa using h2)]

theorem orAll_nil {n : Nat} {l : List Int} (h : orAll n l = []) : n = 0 := by
  unfold orAll at h
  split at h
  · simpa using h
  · contradiction

theorem resolve_nil (shape : List Nat) (q : Req) (h : resolve shape q = .ok []) : Flatten.size shape = 0 := by
  cases q with
  | whole => exact orAll_nil (Except.ok.inj h)
  | oneSlice l => cases h
  | oneList l => exact orAll_nil (Except.ok.inj h)
  | oneMask l => exact orAll_nil (Except.ok.inj h)
  | oneArray l =>
    match l, h with
    | [], h => exact orAll_nil (Except.ok.inj h)
    | [i], h =>
      have h := Except.ok.inj h
      split at h
      · exact orAll_nil h
      · cases h
    | _ :: _ :: _, h => cases h
  | many keys =>
    simp only [resolve] at h
    split at h
    · exact orAll_nil (Except.ok.inj h)
    · cases h
  | rows l =>
    simp only [resolve] at h
    split at h
    · cases h
    · split at h
      · exact orAll_nil (Except.ok.inj h)
      · cases h

/-- From the request to the value (with C39): the user gets the entry of the full solution `x`, in which the variable
begins at `o`, exactly for the entries selected. -/
theorem C64_values_partial {R : Type} (shape : String → List Nat) (o : String → Nat) (offs : List (String × Nat))
    (qs : List (String × Req)) (hn : (qs.map Prod.fst).Nodup) (ho : ∀ q ∈ qs, offs.lookup q.1 = some (o q.1))
    (hq : ∀ q ∈ qs, GoodKey (shape q.1) q.2)
    (hs : ∀ q ∈ qs, ∀ l, resolve (shape q.1) q.2 = .ok l → l.length = 1 → Flatten.size (shape q.1) = 1) (x : Nat → R) :
    ∃ reqs : List (String × List Nat),
      List.Forall₂ (fun q r => r.1 = q.1 ∧ resolve (shape q.1) q.2 = .ok (r.2.map Int.ofNat)) qs reqs ∧
      ∀ q ∈ qs, ∃ v, (storeVars (fun n => Flatten.size (shape n)) offs reqs).2.info.lookup q.1 = some v ∧
        ∀ idx, InBounds (shape q.1) idx →
          (Selected (shape q.1) idx q.2 →
            userPrim (Flatten.size (shape q.1)) v
              (fun k => x ((storeVars (fun n => Flatten.size (shape n)) offs reqs).2.outInds.getD k 0)) (pos (shape q.1) idx) =
              some (x (o q.1 + pos (shape q.1) idx))) ∧
          (¬ Selected (shape q.1) idx q.2 →
            userPrim (Flatten.size (shape q.1)) v
              (fun k => x ((storeVars (fun n => Flatten.size (shape n)) offs reqs).2.outInds.getD k 0)) (pos (shape q.1) idx) = none) := by
  choose f hf using fun q : {q // q ∈ qs} => C64_partial (shape q.1.1) q.1.2 (hq q.1 q.2)
  let reqs := qs.attach.map fun q => (q.1.1, f q)
  have hmem : ∀ r ∈ reqs, ∃ q : {q // q ∈ qs}, r = (q.1.1, f q) := by
    intro r hr
    obtain ⟨q, _, rfl⟩ := List.mem_map.1 hr
    exact ⟨q, rfl⟩
  have hnames : reqs.map Prod.fst = qs.map Prod.fst := by
    simp only [reqs, List.map_map]
    rw [show (Prod.fst ∘ fun q : {q // q ∈ qs} => (q.1.1, f q)) = (fun q : {q // q ∈ qs} => Prod.fst q.1) from rfl]
    exact List.attach_map_val (l := qs) (f := Prod.fst)
  have hall := C39_partial (R := R) (fun n => Flatten.size (shape n)) o offs reqs (by rw [show (reqs.map (·.1)) = reqs.map Prod.fst from rfl, hnames]; exact hn)
    (by
      intro r hr
      obtain ⟨q, rfl⟩ := hmem r hr
      exact ho q.1 q.2)
    (by
      intro r hr
      obtain ⟨q, rfl⟩ := hmem r hr
      obtain ⟨h1, h2, h3⟩ := hf q
      refine ⟨fun i hi => ?_, h2, fun hl => hs q.1 q.2 _ h1 (by simpa using hl)⟩
      obtain ⟨idx, a, _, rfl⟩ := (h3 i).1 hi
      exact pos_lt _ _ a) x
  refine ⟨reqs, ?_, ?_⟩
  · have : ∀ l : List {q // q ∈ qs}, List.Forall₂ (fun (q : String × Req) (r : String × List Nat) => r.1 = q.1 ∧ resolve (shape q.1) q.2 = .ok (r.2.map Int.ofNat))
        (l.map Subtype.val) (l.map fun q => (q.1.1, f q)) := by
      intro l
      induction l with
      | nil => exact .nil
      | cons a l ih => exact .cons ⟨rfl, (hf a).1⟩ ih
    have h := this qs.attach
    rw [List.attach_map_subtype_val] at h
    exact h
  · intro q hqm
    have hr : (q.1, f ⟨q, hqm⟩) ∈ reqs := List.mem_map.2 ⟨⟨q, hqm⟩, List.mem_attach _ _, rfl⟩
    obtain ⟨v, h1, h2⟩ := hall _ hr
    refine ⟨v, h1, fun idx hi => ?_⟩
    have := h2 (pos (shape q.1) idx) (pos_lt _ _ hi)
    obtain ⟨_, _, h3⟩ := hf ⟨q, hqm⟩
    have hne : f ⟨q, hqm⟩ ≠ [] := by
      intro e
      have h0 := (hf ⟨q, hqm⟩).1
      rw [e] at h0
      have h1 : Flatten.size (shape q.1) = 0 := resolve_nil _ _ h0
      have h2 := pos_lt _ _ hi
      omega
    rw [this]
    unfold wanted
    constructor
    · intro hsel
      rw [if_pos (Or.inr ((h3 _).2 ⟨idx, hi, hsel, rfl⟩))]
    · intro hsel
      rw [if_neg]
      rintro (e | e)
      · exact hne e
      · obtain ⟨idx', a, b, c⟩ := (h3 _).1 e
        rw [pos_inj _ _ _ a hi c] at b
        exact hsel b

/-! ### where it fails -/

/-- A slice or an integer for a variable with one axis always raises. -/
theorem C64_fails_slice (shape l : List Nat) : ∀ m, ¬ Chosen shape (.oneSlice l) m := fun _ h => by cases h.1

/-- A negative index in a list: the entry of the solution that is stored lies before the variable. -/
theorem C64_fails_negative (d : Nat) (l : List Int) (z : Int) (hz : z ∈ l) (h0 : z < 0) :
    ∃ m, resolve [d] (.oneList l) = .ok m ∧ z ∈ m ∧ (∀ o : Int, o + z < o) ∧ ∀ k, ¬ Chosen [d] (.oneList l) k := by
  have hne : l ≠ [] := List.ne_nil_of_mem hz
  have e : resolve [d] (.oneList l) = .ok l := by simp only [resolve, orAll, if_neg hne]
  refine ⟨l, e, hz, fun o => by omega, fun k hk => ?_⟩
  have := Except.ok.inj (e.symm.trans hk.1)
  rw [this] at hz
  obtain ⟨j, _, rfl⟩ := List.mem_map.1 hz
  have : (0 : Int) ≤ Int.ofNat j := Int.natCast_nonneg j
  omega

/-- A mask for a variable with one axis is taken for the indices 0 and 1: no entry from the third on is ever stored. -/
theorem C64_fails_mask (d : Nat) (l : List Bool) (i : Nat) (hl : l.length = d) (hi : 2 ≤ i) (ht : l[i]? = some true) :
    Selected [d] [i] (.oneMask l) ∧ ∃ m, resolve [d] (.oneMask l) = .ok m ∧ (i : Int) ∉ m := by
  have hid : i < d := by
    rw [← hl]
    exact (List.getElem?_eq_some_iff.1 ht).1
  refine ⟨⟨⟨hid, trivial⟩, i, rfl, ht⟩, _, rfl, ?_⟩
  have hne : (l.map fun b : Bool => if b then (1 : Int) else 0) ≠ [] := by
    intro e
    have := List.map_eq_nil_iff.1 e
    rw [this] at ht
    cases ht
  rw [orAll, if_neg hne]
  intro hz
  obtain ⟨b, _, e⟩ := List.mem_map.1 hz
  cases b <;> simp at e <;> omega

/-- An array of several indices raises; the array of index 0 stands for all entries. -/
theorem C64_fails_array :
    (∀ shape a b l, resolve shape (.oneArray (a :: b :: l)) = .error .valueError) ∧
    ∀ d, resolve [d] (.oneArray [0]) = resolve [d] .whole :=
  ⟨fun _ _ _ _ => rfl, fun _ => rfl⟩

/-- An index that selects nothing stands for all entries. -/
theorem C64_fails_empty (d e : Nat) (k : AxKey) :
    resolve [d, e] (.many [.sl [], k]) = resolve [d, e] .whole ∧ ∀ idx, ¬ Selected [d, e] idx (.many [.sl [], k]) := by
  refine ⟨rfl, ?_⟩
  rintro idx ⟨t, h⟩
  match idx, h with
  | [], h => exact h.elim
  | i :: r, h => cases h.1.2

/-- A list for a variable with two axes selects rows; one entry is stored. Negative indices count from the end. -/
theorem C64_fails_rows (d e : Nat) (z w : Int) (i j : Nat) (hi : i < d) (hj : j < e) (hz : Wraps d z i) (hw : Wraps e w j) :
    resolve [d, e] (.rows [z, w]) = .ok [((i + d * j : Nat) : Int)] ∧
    ∀ k < e, Selected [d, e] [i, k] (.rows [z, w]) ∧ ∀ i' < d, Wraps d w i' → Selected [d, e] [i', k] (.rows [z, w]) := by
  have fmt : ∀ (d : Nat) (z : Int) (i : Nat), i < d → Wraps d z i → formatInt d z = .ok (.sl [i]) := by
    intro d z i hi hz
    unfold Wraps at hz
    unfold formatInt
    by_cases h0 : z < 0
    · rw [if_pos h0] at hz
      rw [if_neg (by omega), if_pos ⟨h0, by omega⟩]
      congr 3
      omega
    · rw [if_neg h0] at hz
      rw [if_pos ⟨by omega, by omega⟩]
      congr 3
      omega
  constructor
  · have h1 : axesOf [d, e] [z, w] = .ok [.sl [i], .sl [j]] := by
      simp only [axesOf, List.zip_cons_cons, List.zip_nil_left, List.mapM_cons, List.mapM_nil, fmt d z i hi hz, fmt e w j hj hw]
      rfl
    have h2 : indsOf [d, e] [.sl [i], .sl [j]] = .ok [i + d * j] := by
      have : ravel [d, e] ([i, j].map Int.ofNat) = .ok (i + d * j) := by
        rw [requests_ravel [d, e] [i, j] ⟨hi, hj, trivial⟩]; simp [pos]
      show [[i, j].map Int.ofNat].mapM (ravel [d, e]) = _
      rw [List.mapM_cons, this]
      rfl
    simp only [resolve, h1, h2]
    rfl
  · intro k hk
    exact ⟨⟨⟨hi, hk, trivial⟩, d, [e], i, [k], z, rfl, rfl, by simp, hz⟩,
      fun i' hi' hw' => ⟨⟨hi', hk, trivial⟩, d, [e], i', [k], w, rfl, rfl, by simp, hw'⟩⟩

/-- `X[[-1, 0]]` for a 2 by 3 matrix: two rows; the first entry of the last row is stored. -/
example : resolve [2, 3] (.rows [-1, 0]) = .ok [1] ∧ Wraps 2 (-1) 1 ∧ Wraps 3 0 0 := by
  refine ⟨by decide, ?_, ?_⟩ <;> unfold Wraps <;> simp

/-- Two lists: numpy selects two entries, four are stored. -/
theorem C64_fails_pairs : resolve [2, 3] (.many [.ints [0, 1], .ints [1, 2]]) = .ok [2, 4, 3, 5] ∧
    ∀ idx, Selected [2, 3] idx (.many [.ints [0, 1], .ints [1, 2]]) → pos [2, 3] idx = 2 ∨ pos [2, 3] idx = 5 := by
  refine ⟨by decide, ?_⟩
  rintro idx ⟨t, h⟩
  match idx, h with
  | [], h => exact h.elim
  | [_], h => exact h.2.elim
  | [i, j], h =>
    obtain ⟨⟨_, z, h1, h2⟩, ⟨_, w, h3, h4⟩, _⟩ := h
    simp only [List.length_cons, List.length_nil, Nat.reduceAdd, OfNat.ofNat_ne_one, if_false] at h1 h3
    match t with
    | 0 =>
      cases h1; cases h3
      unfold Wraps at h2 h4
      simp only [pos]
      norm_num at h2 h4
      omega
    | 1 =>
      cases h1; cases h3
      unfold Wraps at h2 h4
      simp only [pos]
      norm_num at h2 h4
      omega
    | t + 2 => simp at h1
  | _ :: _ :: _ :: _, h => exact h.2.2.elim

theorem C64_fails : ¬ C64Claim := fun h => by
  obtain ⟨m, hm⟩ := h [3] (.oneSlice [0, 1])
  exact C64_fails_slice _ _ _ hm

/-! ### samples -/

/-- `X[0, :, [1]]` for a variable of shape (2, 2, 2). -/
example : GoodKey [2, 2, 2] (.many [.sl [0], .sl [0, 1], .ints [1]]) ∧
    resolve [2, 2, 2] (.many [.sl [0], .sl [0, 1], .ints [1]]) = .ok [4, 6] :=
  ⟨⟨⟨by decide, by decide, by decide, by decide, by decide, by decide, by decide, by decide, by decide, trivial⟩, by decide⟩,
    by decide⟩

/-- `x[[0, 2]]`. -/
example : GoodKey [3] (.oneList [0, 2]) ∧ resolve [3] (.oneList [0, 2]) = .ok [0, 2] :=
  ⟨⟨⟨3, rfl, by decide⟩, by decide, by decide⟩, by decide⟩

example : (∀ l, resolve [3] (.oneList [0, 2]) = .ok l → l.length = 1 → Flatten.size [3] = 1) := by
  intro l h; cases h; decide

end Verif.Props
