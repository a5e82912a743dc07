import Verif.Spec.ExPipe
import Verif.Props.Pipeline
import Verif.Props.ExMem
import Verif.Props.Stored
import Mathlib.Tactic.Linarith
/-!
Lemmas for the composition of explicit mode.
-/
namespace Verif.Lemmas.ExPipe
open Verif.Model Verif.Model.Pipeline Verif.Model.Saved Verif.Model.Flatten Verif.Model.Explicit Verif.Model.ExPipe
open Verif.Spec.Flatten Verif.Spec Verif.Spec.Pipeline Verif.Spec.Explicit Verif.Spec.ExPipe
open Verif.Lemmas Verif.Lemmas.Flatten Verif.Lemmas.Pipeline Verif.Lemmas.Explicit Verif.Lemmas.Deltas Verif.Props Finset

variable {R : Type}

/-! ### freshness of the canonical parameters -/

section
variable {Θ V Act : Type} {g : Gen Θ V Act}

/-- Canonical parameters are those of the parameter vector unless marked. -/
def EInv (g : Gen Θ V Act) (m : Mem Θ V) : Prop :=
  ∀ c, m.flags c = false ∨ g.chg c = false → m.canon c = g.canonOf c m.θ

theorem einv_update (hs : Sound g) (a : Act) {m : Mem Θ V} (h : EInv g m) : EInv g (g.update a m) := by
  intro c hc
  show m.canon c = g.canonOf c (g.assign a m.θ)
  rcases hc with hc | hc
  · have hc : ((g.outdated a).contains c || m.flags c) = false := hc
    rw [Bool.or_eq_false_iff] at hc
    rw [hs.marks a c m.θ (by simpa using hc.1)]
    exact h c (.inl hc.2)
  · rw [h c (.inr hc)]
    exact hs.const c _ _ hc

theorem canonicalize_fresh {m : Mem Θ V} (h : EInv g m) (c : CId) : (g.canonicalize m).canon c = g.canonOf c m.θ := by
  show (if g.chg c && m.flags c then g.canonOf c m.θ else m.canon c) = _
  split
  · rfl
  · rename_i hn
    apply h
    cases h1 : g.chg c <;> cases h2 : m.flags c <;> simp_all

theorem einv_solved {m : Mem Θ V} (h : EInv g m) : EInv g (g.resetFlags (g.canonicalize m)) :=
  fun c _ => canonicalize_fresh h c

end

/-! ### selection -/

theorem sel_rel {α β : Type} (r : α → β → Prop) : ∀ (mask : List Bool) (l1 : List α) (l2 : List β),
    (∀ (i : Nat) x y, l1[i]? = some x → l2[i]? = some y → r x y) →
    ∀ (k : Nat) x y, (sel mask l1)[k]? = some x → (sel mask l2)[k]? = some y → r x y
  | [], l1, l2, _, k, x, y, h, _ => by simp [sel] at h
  | b :: ms, [], l2, _, k, x, y, h, _ => by cases b <;> simp [sel] at h
  | b :: ms, a :: l1, [], _, k, x, y, _, h => by cases b <;> simp [sel] at h
  | false :: ms, a :: l1, c :: l2, hr, k, x, y, h1, h2 =>
    sel_rel r ms l1 l2 (fun i x y a b => hr (i + 1) x y (by simpa using a) (by simpa using b)) k x y h1 h2
  | true :: ms, a :: l1, c :: l2, hr, 0, x, y, h1, h2 => hr 0 x y (by simpa [sel] using h1) (by simpa [sel] using h2)
  | true :: ms, a :: l1, c :: l2, hr, k + 1, x, y, h1, h2 =>
    sel_rel r ms l1 l2 (fun i x y a b => hr (i + 1) x y (by simpa using a) (by simpa using b)) k x y (by simpa [sel] using h1)
      (by simpa [sel] using h2)

/-! ### what is read -/

theorem userPrim_congr (size : Nat) (v : VarInfo) (z z' : Nat → R) (h1 : size = 1 → ∀ k : Int, v.indices[0]? = some k → z k.toNat = z' k.toNat)
    (h : ∀ p ∈ exPos size v, z p = z' p) (i : Nat) : userPrim size v z i = userPrim size v z' i := by
  unfold userPrim
  by_cases hs : size = 1
  · rw [if_pos hs, if_pos hs]
    split
    · cases hk : v.indices[0]? with
      | none => rfl
      | some k => simp [h1 hs k hk]
    · rfl
  · rw [if_neg hs, if_neg hs]
    cases hk : v.indices[i]? with
    | none => rfl
    | some k =>
      dsimp only
      by_cases h0 : 0 ≤ k
      · rw [if_pos h0, if_pos h0, h]
        rw [exPos, if_neg hs]
        exact List.mem_filterMap.2 ⟨k, List.mem_of_getElem? hk, if_pos h0⟩
      · rw [if_neg h0, if_neg h0]

/-- What generation and CVXPY guarantee about a problem for which the method works: as in C68, C39 and C60. -/
structure EOK [CommRing R] (E : EProb R) : Prop where
  wf : WFInput E.prob.ps (E.prob.k.canonIds E.prob.quad) E.maps
  params : ∀ p ∈ E.tps, ParamOK p
  q : ∃ m, E.maps .q = some m ∧ m.mapping.rows = E.n
  u : ∃ m, E.maps .u = some m ∧ m.mapping.rows = E.m
  const : ∃ md, E.maps .d = some md ∧ md.mapping.rows = 1
  varNames : (E.vs.map UVar.name).Nodup
  sym : ∀ v ∈ E.vs, v.sym = false
  reqNames : (E.reqs.map Prod.fst).Nodup
  known : ∀ r ∈ E.reqs, r.1 ∈ E.vs.map UVar.name
  good : ∀ r ∈ E.reqs, GoodReq E.exGen.size r
  eqRows : E.eqM ≤ E.m
  /-- bounds of parameters do not reach beyond the parameters -/
  slices : ∀ c ∈ E.pcons, upperAt c (totalSize E.prob.ps) = none ∧ lowerAt c (totalSize E.prob.ps) = none

section
variable [CommRing R] {E : EProb R}

theorem EOK.prob (h : EOK E) : ProbOK E.prob where
  possible := rfl
  wf := h.wf
  const := h.const
  params := h.params
  varNames := h.varNames
  sym := fun v hv hs => by rw [h.sym v hv] at hs; cases hs
  consDistinct := List.nodup_nil
  conDistinct := List.nodup_nil
  split := fun hs => by cases hs
  ids := ⟨[], rfl⟩
  followed := fun c hc => by cases hc

theorem find_var (h : EOK E) {v : UVar} (hv : v ∈ E.vs) : (E.vs.find? fun w => w.name == v.name) = some v := by
  have hn := h.varNames
  generalize E.vs = l at hn hv
  induction l with
  | nil => simp at hv
  | cons w l ih =>
    rw [List.map_cons, List.nodup_cons] at hn
    rw [List.find?_cons]
    rcases List.mem_cons.1 hv with rfl | hv
    · simp
    · have : w.name ≠ v.name := fun e => hn.1 (e ▸ List.mem_map.2 ⟨v, hv, rfl⟩)
      rw [show (w.name == v.name) = false by simpa using this]
      exact ih hn.2 hv

theorem size_var (h : EOK E) {v : UVar} (hv : v ∈ E.vs) : E.exGen.size v.name = v.size := by
  simp [EProb.exGen, find_var h hv]

theorem offs_var (h : EOK E) {v : UVar} (hv : v ∈ E.vs) : E.exGen.offs.lookup v.name = some v.offset := by
  have hn := h.varNames
  show (E.vs.map fun v => (v.name, v.offset)).lookup v.name = _
  generalize E.vs = l at hn hv
  induction l with
  | nil => simp at hv
  | cons w l ih =>
    rw [List.map_cons, List.nodup_cons] at hn
    rw [List.map_cons, List.lookup_cons]
    rcases List.mem_cons.1 hv with rfl | hv
    · simp
    · have : v.name ≠ w.name := fun e => hn.1 (e ▸ List.mem_map.2 ⟨v, hv, rfl⟩)
      rw [show (v.name == w.name) = false by simpa using this]
      exact ih hn.2 hv

theorem EOK.exOK (h : EOK E) : ExOK E.exGen where
  names := h.varNames
  reqs := h.reqNames
  known := fun r hr => by
    refine ⟨h.known r hr, ?_⟩
    obtain ⟨v, hv, e⟩ := List.mem_map.1 (h.known r hr)
    rw [← e, offs_var h hv]
    rfl
  good := h.good

theorem added_eq (h : EOK E) : addedNames E.exGen.offs E.reqs = E.reqs.map Prod.fst := by
  unfold addedNames
  rw [List.filter_eq_self.2]
  intro r hr
  exact (h.exOK.known r hr).2

open Classical in
/-- What arrives in the result object. -/
theorem eread_eq (h : EOK E) (x : Nat → R) {v : UVar} (hv : v ∈ E.vs) (hr : v.name ∈ E.reqs.map Prod.fst) :
    eread E x v.name = (List.range v.size).map fun i => if Requested E v i then x (v.offset + i) else 0 := by
  obtain ⟨r, hr, hrn⟩ := List.mem_map.1 hr
  obtain ⟨vi, h1, h2⟩ := C39_partial E.exGen.size (fun n => (E.exGen.offs.lookup n).getD 0) E.exGen.offs E.reqs h.reqNames
    (fun r hr => exmem_lookup h.exOK r hr) h.good x r hr
  have hl : E.exGen.store.info.lookup v.name = some vi := by rw [← hrn]; exact h1
  unfold eread
  rw [hl]
  dsimp only
  rw [size_var h hv]
  apply List.map_congr_left
  intro i hi
  rw [List.mem_range] at hi
  have hmem : (v.name, vi) ∈ E.exGen.store.info := by
    have : ∀ l : List (String × VarInfo), l.lookup v.name = some vi → (v.name, vi) ∈ l := by
      intro l
      induction l with
      | nil => simp
      | cons e l ih =>
        rw [List.lookup_cons]
        cases hb : v.name == e.1 with
        | false => intro h; exact List.mem_cons_of_mem _ (ih h)
        | true =>
          intro h
          simp only [Option.some.injEq] at h
          obtain ⟨e1, e2⟩ := e
          simp only [beq_iff_eq] at hb
          subst hb; subst h
          exact List.mem_cons_self ..
    exact this _ hl
  have hb := exPos_bound h.exOK _ hmem
  have hz : ∀ p < E.exGen.nSol, E.exGen.solX x p = x (E.exGen.store.outInds.getD p 0) := by
    intro p hp
    unfold ExGen.nSol at hp
    simp [ExGen.solX, List.getElem?_eq_getElem hp, List.getD]
  have hsz : E.exGen.size r.1 = v.size := by rw [hrn]; exact size_var h hv
  have e := h2 i (by rw [hsz]; exact hi)
  rw [hsz] at e
  rw [userPrim_congr v.size vi (E.exGen.solX x) (fun k => x (E.exGen.store.outInds.getD k 0)) (by
      intro hs k hk
      apply hz
      have hb' := infoAt_inds h.exOK _ hmem k
      have hlen : vi.indices = [k] := by
        have hin := (exmem_store h.exOK).1
        rw [hin, List.mem_reverse] at hmem
        obtain ⟨b, hb1, hb2⟩ := List.mem_map.1 hmem
        simp only [Prod.mk.injEq] at hb2
        have hbr : b.1 ∈ E.exGen.reqs := by rw [← bases_fst E.exGen.size 0 E.exGen.reqs]; exact List.mem_map_of_mem hb1
        have ok := exmem_ok h.exOK b.1 hbr
        have h1 : (reqInds E.exGen.size b.1).length = 1 := ok.one.2 (by rw [hb2.1, size_var h hv]; exact hs)
        rw [← hb2.2] at hk ⊢
        simp only [infoAt, if_pos h1] at hk ⊢
        simpa using hk
      exact hb _ (hb' hlen))
    (by
      intro p hp
      apply hz
      have := hb p (by simpa [size_var h hv] using hp)
      exact this) i]
  have e' : userPrim v.size vi (fun k => x (E.exGen.store.outInds.getD k 0)) i
      = wanted E.exGen.size (fun n => (E.exGen.offs.lookup n).getD 0) x r i := e
  rw [e']
  have hreq : Requested E v i ↔ (r.2 = [] ∨ i ∈ r.2) := by
    constructor
    · rintro ⟨r', hr', hn', hc⟩
      have : r' = r := by
        have hnd := h.reqNames
        exact List.inj_on_of_nodup_map hnd hr' hr (by rw [hn', hrn])
      rwa [this] at hc
    · intro hc; exact ⟨r, hr, hrn, hc⟩
  unfold wanted
  by_cases hc : r.2 = [] ∨ i ∈ r.2
  · rw [if_pos hc, if_pos (hreq.2 hc), hrn]; dsimp only; rw [offs_var h hv]; rfl
  · rw [if_neg hc, if_neg fun hh => hc (hreq.1 hh)]; rfl

end

/-! ### the canonical problem -/

section
variable [Field R] [LinearOrder R] [IsStrictOrderedRing R] {E : EProb R}

theorem mem_vector_length (h : EOK E) (sent : String → List Nat → R) : (vector E.prob sent).length = totalSize E.prob.ps := by
  unfold vector totalSize Prob.ps
  rw [List.length_flatMap, List.map_map]
  congr 1
  apply List.map_congr_left
  intro p _
  simp [slotVec, slots_eq, TParam.toU]

/-- Rows of `C_qu`. -/
theorem row_eq (id : CId) (hid : id.isUpper = false) (m : RawMap R) (N : Nat) (hm : E.maps id = some m) (hr : m.mapping.rows = N)
    (θ : List R) (hc : m.mapping.cols = θ.length + 1) (i : Nat) (hi : i < N) :
    (((dataAt E.prob θ id).getD [])[i]?).getD 0
      = ∑ c ∈ range (θ.length + 1), (m.final id.isUpper).at i c * fn (θ ++ [1]) c := by
  have hm' : E.prob.maps id = some m := hm
  unfold dataAt
  rw [hm']
  simp only [Option.map_some, Option.getD_some, hid, Bool.false_eq_true, if_false]
  rw [List.getElem?_map, List.getElem?_range (by omega)]
  simp only [Option.map_some, Option.getD_some]
  apply sum_congr rfl
  intro c hcc
  rw [mem_range] at hcc
  unfold RawMap.final
  rw [if_neg (by simp)]
  unfold RawMap.signed
  rw [ofDense_at _ _ _ _ _ (by omega) (by omega)]

theorem C_eq (h : EOK E) (θ : List R) (hθ : θ.length = totalSize E.prob.ps) (i : Nat) (hi : i < E.n + E.m) :
    ∑ c ∈ range (totalSize E.prob.ps + 1), E.C i c * fn (θ ++ [1]) c
      = if i < E.n then (problemAt E θ).q i else (problemAt E θ).u (i - E.n) := by
  obtain ⟨mq, hq, hqr⟩ := h.q
  obtain ⟨mu, hu, hur⟩ := h.u
  by_cases hin : i < E.n
  · rw [if_pos hin]
    show _ = (((dataAt E.prob θ .q).getD [])[i]?).getD 0
    rw [row_eq .q rfl mq E.n hq hqr θ (by rw [hθ]; exact h.wf.cols _ _ hq) i hin, hθ]
    simp only [EProb.C, if_pos hin, hq]
  · rw [if_neg hin]
    show _ = (((dataAt E.prob θ .u).getD [])[i - E.n]?).getD 0
    rw [row_eq .u rfl mu E.m hu hur θ (by rw [hθ]; exact h.wf.cols _ _ hu) (i - E.n) (by omega), hθ]
    simp only [EProb.C, if_neg hin, hu]

/-- Parameters within the declared bounds are in the box. -/
theorem in_box (h : EOK E) {b : Bounds R} (hb : paramBounds (totalSize E.prob.ps + 1) E.big E.pcons = .ok b) {θ : List R}
    (hθ : θ.length = totalSize E.prob.ps) (ha : Admissible E θ) :
    InBox (totalSize E.prob.ps + 1) b (fn (θ ++ [1])) := by
  intro c hc
  by_cases hlt : c < θ.length
  · have hget : (θ ++ [1])[c]? = some θ[c] := by
      rw [List.getElem?_append_left hlt, List.getElem?_eq_getElem hlt]
    have hfn : fn (θ ++ [1]) c = θ[c] := by simp [fn, List.getD, hget]
    rw [hfn]
    obtain ⟨a1, a2, a3⟩ := ha c θ[c] (List.getElem?_eq_getElem hlt)
    exact fold_in E.pcons _ b c _ hb (by dsimp only; rw [if_neg (by omega)]; exact a1)
      (by dsimp only; rw [if_neg (by omega)]; exact a2) a3
  · have hce : c = θ.length := by omega
    have hfn : fn (θ ++ [1]) c = 1 := by simp [fn, List.getD, hce]
    rw [hfn]
    have : c = totalSize E.prob.ps := by omega
    exact fold_in E.pcons _ b c _ hb (by dsimp only; rw [if_pos (by omega)]) (by dsimp only; rw [if_pos (by omega)])
      (by
        intro d hd _
        obtain ⟨s1, s2⟩ := h.slices d hd
        rw [this]
        exact ⟨fun v hv => (by rw [s1] at hv; cases hv), fun v hv => (by rw [s2] at hv; cases hv)⟩)

end
end Verif.Lemmas.ExPipe
