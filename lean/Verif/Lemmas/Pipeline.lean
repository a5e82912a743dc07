import Verif.Spec.Pipeline
import Verif.Lemmas.Flatten
import Verif.Props.Retrieve
import Verif.Props.Wrapper
import Verif.Props.Saved
/-!
Lemmas for the composition of the Python method.
-/
namespace Verif.Lemmas.Pipeline
open Verif.Model Verif.Model.Pipeline Verif.Model.Saved Verif.Model.Flatten Verif.Spec.Flatten Verif.Spec
open Verif.Spec.Pipeline Verif.Lemmas Verif.Lemmas.Flatten Verif.Props Finset

variable {R S : Type}

theorem size_prod : ∀ s : List Nat, size s = s.prod
  | [] => rfl
  | d :: ds => by rw [size, size_prod ds, List.prod_cons]

theorem slots_eq (p : TParam) : slots p = sizeUsp p.shape p.attr := by
  unfold slots sizeUsp
  cases p.attr <;> simp [size_prod]

theorem unpos_eq : ∀ (s : List Nat) (k : Nat), unpos s k = idxOf s k
  | [], _ => rfl
  | d :: ds, k => by rw [unpos, idxOf, unpos_eq ds]

/-- A parameter for which the conversion works (see C50). -/
structure ParamOK (p : TParam) : Prop where
  pos : 0 < slots p
  one : slots p = 1 → size p.shape = 1
  diag : p.attr = .diag → ∃ n, p.shape = [n, n]
  sparse : ∀ c, p.attr = .sparse c → c.Nodup ∧ ∀ idx ∈ c, InBounds p.shape idx

theorem delivered_eq (p : TParam) (h : ParamOK p) (t : List Nat → R) :
    delivered p.shape p.attr t = some (slotVec p t) := by
  have hlen : (slotVec p t).length = slots p := by simp [slotVec]
  unfold delivered getParamValue
  rw [← slots_eq]
  by_cases hs : size p.shape = 1
  · rw [if_pos hs]
    have hslots : slots p = 1 ∧ t (slotIdx p 0) = t (p.shape.map fun _ => 0) := by
      cases ha : p.attr with
      | plain =>
        have h1 : slots p = 1 := by rw [slots_eq, ha]; exact hs
        refine ⟨h1, ?_⟩
        simp only [slotIdx, ha, unpos_eq]
        rw [zeros_of_size_one p.shape _ hs (idxOf_spec p.shape 0 (by omega)).1]
      | diag =>
        obtain ⟨n, hn⟩ := h.diag ha
        rw [hn] at hs
        simp only [size, Nat.mul_one] at hs
        have hn1 := (mul_one_iff hs).1
        refine ⟨by simp [slots, ha, hn, hn1], ?_⟩
        simp [slotIdx, ha, hn]
      | sparse c =>
        obtain ⟨hnd, hb⟩ := h.sparse c ha
        have hp := h.pos
        simp only [slots, ha] at hp
        cases c with
        | nil => simp at hp
        | cons a c =>
          have e1 := zeros_of_size_one p.shape a hs (hb a (by simp))
          cases c with
          | nil => exact ⟨by simp [slots, ha], by simp [slotIdx, ha, e1]⟩
          | cons b c =>
            have e2 := zeros_of_size_one p.shape b hs (hb b (by simp))
            rw [e1, e2] at hnd
            simp at hnd
    rw [hslots.1]
    simp only [toField, le_refl, if_true, slotVec, hslots.1, Option.some.injEq]
    rw [← hslots.2]
    rfl
  · rw [if_neg hs]
    have hgt : 1 < slots p := by
      rcases Nat.lt_or_ge 1 (slots p) with h' | h'
      · exact h'
      · have := h.pos
        exact absurd (h.one (by omega)) hs
    have key : ∀ l : List R, l = slotVec p t → toField (slots p) (.list l) = some (slotVec p t) := by
      rintro l rfl
      simp only [toField]
      rw [if_pos ⟨hgt, hlen⟩]
    cases ha : p.attr with
    | plain =>
      apply key
      obtain ⟨e1, e2⟩ := flattenF_spec p.shape t
      apply List.ext_getElem?
      intro k
      by_cases hk : k < size p.shape
      · obtain ⟨a, b⟩ := idxOf_spec p.shape k hk
        have := e2 _ a
        rw [b] at this
        rw [this]
        simp only [slotVec, slots, ha, slotIdx, unpos_eq]
        rw [List.getElem?_map, List.getElem?_range (by rw [← size_prod]; exact hk)]
        rfl
      · rw [List.getElem?_eq_none (by omega), List.getElem?_eq_none]
        rw [hlen, slots_eq, ha]
        simp only [sizeUsp]; omega
    | diag =>
      apply key
      simp only [slotVec, slots, ha, slotIdx]
    | sparse c =>
      apply key
      simp only [slotVec, slots, ha, slotIdx]
      apply List.ext_getElem?
      intro k
      by_cases hk : k < c.length
      · simp [List.getElem?_map, List.getElem?_range hk, List.getElem?_eq_getElem hk]
      · rw [List.getElem?_eq_none (by simpa using hk), List.getElem?_eq_none (by simpa using hk)]

/-- What generation and CVXPY guarantee about a problem for which the method works. -/
structure ProbOK [CommRing R] (P : Prob R) : Prop where
  possible : P.k.possible P.quad P.lp = true
  wf : WFInput P.ps (P.k.canonIds P.quad) P.maps
  const : ∃ md, P.maps .d = some md ∧ md.mapping.rows = 1
  params : ∀ p ∈ P.tps, ParamOK p
  varNames : (P.vs.map UVar.name).Nodup
  sym : ∀ v ∈ P.vs, SymOK v
  consDistinct : P.cons.Nodup
  conDistinct : (P.con.map CCon.id).Nodup
  split : P.k.dualSplit = true → P.nEq < P.con.length ∨ P.con = [] ∧ P.nEq = 0
  ids : ∃ ms, P.idMaps = firstMap id P.cons :: ms
  followed : ∀ c ∈ P.cons, ∃ i ∈ P.con.map CCon.id, follow P.idMaps c = .ok i

/-- What the solver guarantees: vectors long enough for the blocks of variables and constraints, and a result that depends on
the data it uses and on the settings that reach it only. -/
structure SolverOK (P : Prob R) (sg : Stgs S) (solver : SolverFn R S) : Prop where
  sol : ∀ n D s, ∀ v ∈ P.vs, v.offset + solverSize v ≤ (solver n D s).sol.length
  duals : ∀ n D s i, ((solver n D s).duals i).length = dualLen P.k.dualSplit P.nEq P.con i
  local' : ∀ n D D' s s', (∀ p ∈ (P.k.solver P.quad P.lp).uses, D p = D' p) → (∀ m, settled P.k sg m → s m = s' m) →
    solver n D s = solver n D' s'

theorem canonVal_dataAt [CommRing R] [DecidableEq R] {P : Prob R} (hw : WFInput P.ps (P.k.canonIds P.quad) P.maps)
    (θ : List R) (hθ : θ.length = totalSize P.ps) (c : CId) :
    canonVal (P.maps c) c.isUpper θ = dataAt P θ c := by
  unfold dataAt
  cases h : P.maps c with
  | none => rfl
  | some m =>
    obtain ⟨v, h1, h2⟩ := C08_canonicalization_is_affine_map m c.isUpper θ (by rw [hθ]; exact hw.cols c m h)
    rw [h1, h2]
    rfl

/-- Table of dual variables, also if there are no constraints. -/
theorem dual_table [CommRing R] {P : Prob R} (h : ProbOK P) :
    ∃ ids ds, dualIds P.idMaps = .ok ids ∧ dualInfo P.k.dualSplit P.nEq P.con ids = .ok ds ∧ ds.length = P.cons.length ∧
      ∀ u c : Nat, P.cons[u]? = some c → ∃ (m : Nat) (cc : CCon), P.con[m]? = some cc ∧ follow P.idMaps c = .ok cc.id ∧
        ds[u]? = some { name := s!"d{u}"
                        vec := dualVec P.k.dualSplit P.nEq m
                        offset := dualStart P.k.dualSplit P.nEq P.con m
                        size := cc.size : DualEntry } := by
  obtain ⟨ms, hms⟩ := h.ids
  classical
  let g : Nat → Nat := fun c => if hc : c ∈ P.cons then (h.followed c hc).choose else 0
  have hg : ∀ c ∈ P.cons, g c ∈ P.con.map CCon.id ∧ follow P.idMaps c = .ok (g c) := by
    intro c hc
    simp only [g, dif_pos hc]
    exact (h.followed c hc).choose_spec
  have hf : firsts P.cons = P.cons := by
    have hd := h.consDistinct
    clear * - hd
    generalize P.cons = l at hd
    induction l with
    | nil => rfl
    | cons a t ih =>
      rw [List.nodup_cons] at hd
      rw [firsts, ih hd.2, List.filter_eq_self.2]
      intro x hx
      have : x ≠ a := fun e => hd.1 (e ▸ hx)
      simpa using this
  have hids : dualIds P.idMaps = .ok (P.cons.map g) := by
    rw [hms]
    have := C63_ids_partial P.cons ms g (fun c hc => by rw [← hms]; exact (hg c hc).2)
    rwa [hf] at this
  refine ⟨P.cons.map g, ?_⟩
  by_cases hne : P.con = []
  · have hc0 : P.cons = [] := by
      rcases hcs : P.cons with _ | ⟨c, cs⟩
      · rfl
      · have := (hg c (by rw [hcs]; simp)).1
        rw [hne] at this; simp at this
    have hinfo : dualInfo P.k.dualSplit P.nEq P.con [] = .ok [] := by
      rw [hne]
      cases hsp : P.k.dualSplit with
      | false => rfl
      | true =>
        rcases h.split hsp with h1 | h1
        · rw [hne] at h1; simp at h1
        · rw [h1.2]; rfl
    refine ⟨[], hids, ?_, by simp [hc0], ?_⟩
    · rw [hc0]; exact hinfo
    · intro u c hu; rw [hc0] at hu; simp at hu
  · obtain ⟨ds, h1, h2, h3⟩ := C18_dual_table P.k.dualSplit P.nEq P.con h.conDistinct
      (fun hs => by
        rcases h.split hs with h' | h'
        · exact h'
        · exact absurd h'.1 hne) hne (P.cons.map g) (by
        intro i hi
        obtain ⟨c, hc, rfl⟩ := List.mem_map.1 hi
        exact (hg c hc).1)
    refine ⟨ds, hids, h1, by simpa using h2, fun u c hu => ?_⟩
    have hc : c ∈ P.cons := List.mem_of_getElem? hu
    obtain ⟨hgc, hfc⟩ := hg c hc
    obtain ⟨cc, hcc, e⟩ := List.mem_map.1 hgc
    obtain ⟨m, hm, e'⟩ := List.getElem_of_mem hcc
    have hget : P.con[m]? = some cc := by rw [List.getElem?_eq_getElem hm, e']
    exact ⟨m, cc, hget, by rw [hfc, e], h3 u m cc hget (by rw [List.getElem?_map, hu]; simp [e])⟩

/-- The constant term read by the retrieval of the objective value. -/
theorem const_read [CommRing R] [DecidableEq R] {P : Prob R} (h : ProbOK P) (θ : List R) (hθ : θ.length = totalSize P.ps) :
    dataAt P θ .d = some [constAt P θ] ∧ ∀ x, objVal P.isMax (nonzeroD (P.maps .d)) x (constAt P θ) = userObj P x (constAt P θ) := by
  obtain ⟨md, hmd, hrow⟩ := h.const
  have hcols : md.mapping.cols = θ.length + 1 := by rw [hθ]; exact h.wf.cols .d md hmd
  have hd : dataAt P θ .d = some [constantAt md θ] := by
    have hu : CId.isUpper .d = false := rfl
    simp only [dataAt, hmd, Option.map_some, hu, hrow]
    rfl
  have hc : constAt P θ = constantAt md θ := by unfold constAt; rw [hd]; rfl
  refine ⟨by rw [hd, hc], fun x => ?_⟩
  have hz : nonzeroD (P.maps .d) = false → constantAt md θ = 0 := by
    intro h
    rw [hmd] at h
    simp only [nonzeroD, decide_eq_false_iff_not] at h
    have hno := nnzCols_zero md.mapping 0 md.mapping.cols h
    unfold constantAt
    apply sum_eq_zero
    intro j hj
    rw [at_of_not_mem md.mapping 0 j ?_, zero_mul, zero_mul]
    rintro e he ⟨_, hej⟩
    exact hno e he ⟨Nat.zero_le _, by rw [hej, hcols]; simpa using hj⟩
  rw [hc]
  unfold objVal userObj
  cases hb : nonzeroD (P.maps .d) with
  | true => simp
  | false => simp [hz hb]

theorem mapM_some_opt {α β : Type} {f : α → Option β} {g : α → β} : ∀ {l : List α}, (∀ a ∈ l, f a = some (g a)) →
    l.mapM f = some (l.map g)
  | [], _ => rfl
  | a :: l, h => by
    rw [List.mapM_cons, h a (by simp), mapM_some_opt fun b hb => h b (List.mem_cons_of_mem _ hb)]
    rfl

/-- Reading of the result: all reads are in bounds, and every entry is the right one. -/
theorem readRes_ok [CommRing R] [DecidableEq R] {P : Prob R} (h : ProbOK P) (F : Files)
    (hpi : primInfo P.vs = .ok F.pi) (ids : List Nat) (_hids : dualIds P.idMaps = .ok ids)
    (_hds : dualInfo P.k.dualSplit P.nEq P.con ids = .ok F.ds) (hlen : F.ds.length = P.cons.length)
    (htab : ∀ u c : Nat, P.cons[u]? = some c → ∃ (m : Nat) (cc : CCon), P.con[m]? = some cc ∧ follow P.idMaps c = .ok cc.id ∧
        F.ds[u]? = some { name := s!"d{u}"
                          vec := dualVec P.k.dualSplit P.nEq m
                          offset := dualStart P.k.dualSplit P.nEq P.con m
                          size := cc.size : DualEntry })
    (out : SolverOut R) (hsol : ∀ v ∈ P.vs, v.offset + solverSize v ≤ out.sol.length)
    (hdual : ∀ i, (out.duals i).length = dualLen P.k.dualSplit P.nEq P.con i) (d : R) :
    ∃ res, readRes P F out (some [d]) = some res ∧
      (∀ v ∈ P.vs, res.prim v.name = (List.range v.size).map fun k => fn out.sol (entryPos v k)) ∧
      (∀ u c : Nat, P.cons[u]? = some c → ∃ m cc, P.con[m]? = some cc ∧ follow P.idMaps c = .ok cc.id ∧
        (res.dual u).length = cc.size ∧ ∀ i < cc.size, ∃ x, (res.dual u)[i]? = some x ∧
          (out.duals (dualVec P.k.dualSplit P.nEq m))[dualStart P.k.dualSplit P.nEq P.con m + i]? = some x) ∧
      res.objVal = objVal P.isMax (nonzeroD (P.maps .d)) out.obj d ∧ res.status = out.status := by
  obtain ⟨pi, hpi', hprim⟩ := C17_primal_values (R := R) P.k P.vs h.varNames h.sym
  rw [hpi] at hpi'
  cases hpi'
  -- variables
  have hv : ∀ v ∈ P.vs, primReadAll P.k.traits F.pi out.sol v.name
      = some ((List.range v.size).map fun k => fn out.sol (entryPos v k)) := fun v hm => hprim out.sol v hm (hsol v hm)
  have h1 : (P.vs.map UVar.name).mapM (fun n => (primReadAll P.k.traits F.pi out.sol n).map fun l => (n, l))
      = some (P.vs.map fun v => (v.name, (List.range v.size).map fun k => fn out.sol (entryPos v k))) := by
    rw [mapM_some_opt (g := fun n => (n, (primReadAll P.k.traits F.pi out.sol n).getD []))]
    · rw [List.map_map]
      congr 1
      apply List.map_congr_left
      intro v hm
      simp only [Function.comp, hv v hm, Option.getD_some]
    · intro n hn
      obtain ⟨v, hm, rfl⟩ := List.mem_map.1 hn
      simp only [hv v hm, Option.map_some, Option.getD_some]
  -- dual variables
  have hin : ∀ dd ∈ F.ds, ∀ i < dd.size, ∃ x, (out.duals dd.vec)[dd.offset + i]? = some x := by
    intro dd hdd i hi
    obtain ⟨u, hu, e⟩ := List.getElem_of_mem hdd
    obtain ⟨m, cc, a, b, c⟩ := htab u (P.cons[u]'(by omega)) (List.getElem?_eq_getElem (by omega))
    rw [List.getElem?_eq_getElem hu, e] at c
    have c := Option.some.inj c
    have hm : m < P.con.length := (List.getElem?_eq_some_iff.mp a).1
    have hn : P.k.dualSplit = true → P.nEq ≤ P.con.length := by
      intro hs
      rcases h.split hs with h' | h' <;> omega
    have hrow : dd.offset + dd.size ≤ (out.duals dd.vec).length := by
      rw [hdual, c]
      by_cases hs : P.k.dualSplit = true
      · exact (C18_rows_disjoint P.k.dualSplit P.nEq P.con (hn hs) m cc a).1
      · have hs : P.k.dualSplit = false := by simpa using hs
        have := (C18_rows_disjoint P.k.dualSplit 0 P.con (Nat.zero_le _) m cc a).1
        simpa [dualStart, dualLen, dualVec, hs] using this
    exact ⟨_, List.getElem?_eq_getElem (by omega)⟩
  have hread : ∀ dd ∈ F.ds, (List.range dd.size).mapM (dualRead P.k.traits F.ds out.duals dd)
      = some ((List.range dd.size).map fun i => fn (out.duals dd.vec) (dd.offset + i)) := by
    intro dd hdd
    apply mapM_some_opt
    intro i hi
    have hi : i < dd.size := by simpa using hi
    obtain ⟨x, hx⟩ := hin dd hdd i hi
    rw [C18_dual_values P.k F.ds dd hdd out.duals i hi, hx]
    simp [fn, hx]
  have h2 : F.ds.mapM (fun d => (List.range d.size).mapM (dualRead P.k.traits F.ds out.duals d))
      = some (F.ds.map fun dd => (List.range dd.size).map fun i => fn (out.duals dd.vec) (dd.offset + i)) :=
    mapM_some_opt hread
  refine ⟨_, by unfold readRes; rw [h1, h2], fun v hm => ?_, fun u c hu => ?_, rfl, rfl⟩
  · dsimp only
    have : (P.vs.map fun v => (v.name, (List.range v.size).map fun k => fn out.sol (entryPos v k))).lookup v.name
        = some ((List.range v.size).map fun k => fn out.sol (entryPos v k)) := by
      have hn := h.varNames
      clear * - hn hm
      generalize P.vs = l at hn hm ⊢
      induction l with
      | nil => simp at hm
      | cons w vs ih =>
        rw [List.map_cons, List.nodup_cons] at hn
        rw [List.map_cons, List.lookup_cons]
        rcases List.mem_cons.1 hm with rfl | hm
        · simp
        · have : v.name ≠ w.name := fun e => hn.1 (e ▸ List.mem_map.2 ⟨v, hm, rfl⟩)
          rw [show (v.name == w.name) = false by simpa using this]
          exact ih hn.2 hm
    rw [this]
    rfl
  · obtain ⟨m, cc, a, b, e⟩ := htab u c hu
    have hmem := List.mem_of_getElem? e
    refine ⟨m, cc, a, b, ?_⟩
    dsimp only
    rw [List.getElem?_map, e]
    refine ⟨by simp, fun i hi => ?_⟩
    obtain ⟨x, hx⟩ := hin _ hmem i hi
    refine ⟨x, ?_, hx⟩
    simp only [Option.map_some, Option.getD_some]
    rw [List.getElem?_map, List.getElem?_range hi]
    dsimp only at hx
    simp only [fn, List.getD_eq_getElem?_getD, hx, Option.map_some, Option.getD_some]

end Verif.Lemmas.Pipeline
