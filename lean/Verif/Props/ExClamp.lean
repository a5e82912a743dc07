import Verif.Spec.ExClamp
import Verif.Props.ExPipe
/-!
C69, parameter values out of bounds.
-/
namespace Verif.Props
open Verif.Model Verif.Model.Pipeline Verif.Model.Saved Verif.Model.Flatten Verif.Model.Explicit Verif.Model.ExPipe
open Verif.Spec.Flatten Verif.Spec Verif.Spec.Pipeline Verif.Spec.Explicit Verif.Spec.ExPipe
open Verif.Lemmas Verif.Lemmas.Flatten Verif.Lemmas.Pipeline Verif.Lemmas.Explicit Verif.Lemmas.ExPipe Finset

section
variable {R : Type} [Field R] [LinearOrder R] [IsStrictOrderedRing R] {E : EProb R}

omit [Field R] [LinearOrder R] [IsStrictOrderedRing R] in
theorem given_cons (f : PCon R → Nat → Option R) (c : PCon R) (cs : List (PCon R)) (k : Nat) (d : R) :
    (given f (c :: cs) k).getD d = (given f cs k).getD (if c.hasVars = false ∧ c.hasParams = true then (f c k).getD d else d) := by
  unfold given
  rw [List.filter_cons]
  by_cases h : c.hasVars = false ∧ c.hasParams = true
  · rw [if_pos (by simp [h.1, h.2]), if_pos h, List.filterMap_cons]
    cases hf : f c k with
    | none => rfl
    | some v =>
      rw [List.getLast?_cons]
      cases (List.filterMap (fun c => f c k) (List.filter (fun c => !c.hasVars && c.hasParams) cs)).getLast? <;> rfl
  · rw [if_neg (by simpa using h), if_neg h]

omit [LinearOrder R] [IsStrictOrderedRing R] in
theorem bounds_fold (cons : List (PCon R)) (k : Nat) : ∀ (b0 b : Bounds R), cons.foldlM boundStep b0 = .ok b →
    b.lower k = (given lowerAt cons k).getD (b0.lower k) ∧ b.upper k = (given upperAt cons k).getD (b0.upper k) := by
  induction cons with
  | nil => intro b0 b h; cases h; exact ⟨rfl, rfl⟩
  | cons c cs ih =>
    intro b0 b h
    rw [List.foldlM_cons] at h
    rw [given_cons, given_cons]
    cases hs : boundStep b0 c with
    | error e => rw [hs] at h; cases h
    | ok b1 =>
      rw [hs] at h
      obtain ⟨i1, i2⟩ := ih b1 b h
      rw [i1, i2]
      unfold boundStep at hs
      by_cases hc : c.hasVars = false ∧ c.hasParams = true
      · rw [if_pos hc] at hs
        rw [if_pos hc, if_pos hc]
        unfold lowerAt upperAt
        cases hl : c.lhs <;> cases hr : c.rhs <;> rw [hl, hr] at hs <;> cases hs <;> dsimp only [setSlice] <;>
          constructor <;> first | rfl | (congr 1; split <;> rfl)
      · rw [if_neg hc] at hs
        cases hs
        rw [if_neg hc, if_neg hc]
        exact ⟨rfl, rfl⟩

/-- The bounds written into the code are the ones given last. -/
theorem bounds_given {b : Bounds R} (hb : paramBounds (totalSize E.prob.ps + 1) E.big E.pcons = .ok b) (k : Nat)
    (hk : k < totalSize E.prob.ps) : b.lower k = lowest E k ∧ b.upper k = highest E k := by
  have := bounds_fold E.pcons k _ b hb
  dsimp only at this
  rw [if_neg (by omega), if_neg (by omega)] at this
  exact this

omit [Field R] [IsStrictOrderedRing R] in
theorem clamp_eq (b : Bounds R) (k : Nat) (v : R) : clamp b k v = min (b.upper k) (max (b.lower k) v) := by
  unfold clamp
  dsimp only
  by_cases h1 : v < b.lower k
  · rw [if_pos h1, max_eq_left h1.le]
    by_cases h2 : b.upper k < b.lower k
    · rw [if_pos h2, min_eq_left h2.le]
    · rw [if_neg h2, min_eq_right (not_lt.1 h2)]
  · rw [if_neg h1, max_eq_right (not_lt.1 h1)]
    by_cases h2 : b.upper k < v
    · rw [if_pos h2, min_eq_left h2.le]
    · rw [if_neg h2, min_eq_right (not_lt.1 h2)]

theorem limitVec_length (θ : List R) : (limitVec E θ).length = θ.length := by simp [limitVec]

theorem limitVec_get (θ : List R) (k : Nat) (hk : k < θ.length) :
    (limitVec E θ)[k]? = some (min (highest E k) (max (lowest E k) (fn θ k))) := by
  simp [limitVec, hk]

/-- A vector within the bounds stays as it is. -/
theorem limitVec_same (h : EOK E) {b : Bounds R} (hb : paramBounds (totalSize E.prob.ps + 1) E.big E.pcons = .ok b) {θ : List R}
    (hθ : θ.length = totalSize E.prob.ps) (ha : Admissible E θ) : limitVec E θ = θ := by
  have hbox := in_box h hb hθ ha
  apply List.ext_getElem?
  intro k
  by_cases hk : k < θ.length
  · rw [limitVec_get θ k hk, List.getElem?_eq_getElem hk]
    obtain ⟨e1, e2⟩ := bounds_given hb k (by omega)
    have := hbox k (by omega)
    have hfn : fn (θ ++ [1]) k = θ[k] := by
      unfold fn; rw [List.getD, List.getElem?_append_left hk, List.getElem?_eq_getElem hk]; rfl
    have hfn' : fn θ k = θ[k] := by unfold fn; rw [List.getD, List.getElem?_eq_getElem hk]; rfl
    rw [hfn, e1, e2] at this
    rw [hfn', max_eq_right this.1, min_eq_right this.2]
  · rw [List.getElem?_eq_none (by rw [limitVec_length]; omega), List.getElem?_eq_none (by omega)]

/-- Clamped values of the parameters. -/
def limited (E : EProb R) (n : String) (l : List R) : List R :=
  (List.range l.length).map fun i =>
    min (highest E ((baseCol E.prob.ps n).getD 0 + i)) (max (lowest E ((baseCol E.prob.ps n).getD 0 + i)) (fn l i))

theorem limited_length (n : String) (l : List R) : (limited E n l).length = l.length := by simp [limited]

/-- Moving the vector into the bounds is moving the parameters into their bounds. -/
theorem limitVec_flat (h : EOK E) (T : String → List R) (hlen : ∀ p ∈ E.prob.ps, (T p.name).length = p.size) :
    limitVec E (E.prob.ps.flatMap fun p => T p.name) = E.prob.ps.flatMap fun p => limited E p.name (T p.name) := by
  have hl := vector_length E.prob.ps T hlen
  refine vector_ext E.prob.ps (fun n => limited E n (T n)) _ (by rw [limitVec_length, hl])
    (fun p hp => by rw [limited_length]; exact hlen p hp) ?_
  intro j hj i hi
  have hg := vector_get E.prob.ps T hlen j hj i hi
  have hi' : i < (T (E.prob.ps[j]).name).length := by rw [hlen _ (List.getElem_mem hj)]; exact hi
  rw [List.getElem?_eq_getElem hi'] at hg
  have hlt := (List.getElem?_eq_some_iff.1 hg).1
  rw [limitVec_get _ _ hlt]
  have e1 : fn (E.prob.ps.flatMap fun p => T p.name) (colOf E.prob.ps j + i) = (T (E.prob.ps[j]).name)[i] := by
    simp only [fn, List.getD, hg, Option.getD_some]
  have e2 : fn (T (E.prob.ps[j]).name) i = (T (E.prob.ps[j]).name)[i] := by
    unfold fn; rw [List.getD, List.getElem?_eq_getElem hi']; rfl
  unfold limited
  rw [List.getElem?_map, List.getElem?_range hi', baseCol_eq E.prob.ps h.wf.names h.wf.sizes j hj, e1]
  simp only [Option.map_some, Option.getD_some, e2]

/-- The update calls with clamping are those of the values moved into the bounds. -/
theorem updateActs_clamp (h : EOK E) {b : Bounds R} (hb : paramBounds (totalSize E.prob.ps + 1) E.big E.pcons = .ok b)
    (L : List String) (vals : String → Option (List R)) (hval : ∀ p ∈ E.prob.ps, ∃ v, vals p.name = some v ∧ v.length = p.size) :
    (updateActs E.prob.ps L vals).map (clampAct E b) = updateActs E.prob.ps L fun n => (vals n).map (limited E n) := by
  unfold updateActs
  rw [List.map_flatMap]
  apply List.flatMap_congr
  intro p _
  split
  · rw [List.map_map]
    apply List.map_congr_left
    intro i _
    obtain ⟨v, hv, hvl⟩ := hval p.1 p.2
    obtain ⟨j, hj, hpj⟩ := List.getElem_of_mem p.2
    have hbase : baseCol E.prob.ps p.1.name = some (colOf E.prob.ps j) := by
      rw [← hpj]; exact baseCol_eq E.prob.ps h.wf.names h.wf.sizes j hj
    have hlt : colOf E.prob.ps j + i.1 < totalSize E.prob.ps := by
      have h1 := colOf_succ E.prob.ps j hj
      have h2 := colOf_mono E.prob.ps (i := j + 1) (j := E.prob.ps.length) (by omega) le_rfl
      rw [colOf_length] at h2
      have := i.2
      rw [hpj] at h1
      omega
    obtain ⟨e1, e2⟩ := bounds_given hb _ hlt
    apply Subtype.ext
    simp only [Function.comp, clampAct, hbase, Option.getD_some, hv, Option.map_some]
    have hi : i.1 < v.length := by rw [hvl]; exact i.2
    rw [clamp_eq, e1, e2]
    simp [limited, hbase, hi, fn, List.getD]
  · rfl

theorem eupdates_map (b : Bounds R) (θ0 : E.prob.Vec) (acts : List { a : UpdCall R // a.Valid E.prob.ps }) :
    ∀ m : EMem E, acts.foldl (fun m a => eupdate E θ0 b a m) m = (acts.map (clampAct E b)).foldl (fun m a => (E.gen θ0).update a m) m := by
  induction acts with
  | nil => intro m; rfl
  | cons a acts ih => intro m; rw [List.map_cons, List.foldl_cons, List.foldl_cons, ih]; rfl

/-- The method and the user agree on the state; parameters may be out of bounds. -/
structure CAgree (θ0 : E.prob.Vec) (st : ESt E) (a : UAbs R) : Prop where
  inv : EInv (E.gen θ0) st.mem
  θ : st.mem.θ.1 = limitVec E (vector E.prob a.sent)
  vals : st.tvals = a.vals

/-- After the updates of a call the vector is that of the values transferred, moved into the bounds. -/
theorem eupdates_limited (h : EOK E) {b : Bounds R} (hb : paramBounds (totalSize E.prob.ps + 1) E.big E.pcons = .ok b)
    {θ0 : E.prob.Vec} {st : ESt E} {a : UAbs R} (hag : CAgree θ0 st a) (u : Option (List String))
    (hv : ∀ p ∈ E.tps, ∃ t, a.vals p.name = some t) :
    ((updateActs E.prob.ps (u.getD (E.prob.ps.map UParam.name)) (E.prob.flat st.tvals)).foldl
      (fun m a => eupdate E θ0 b a m) st.mem).θ.1 = limitVec E (vector E.prob (a.transfer u).sent) := by
  set L := u.getD (E.prob.ps.map UParam.name) with hL
  set vals := E.prob.flat st.tvals with hvals
  have hval : ∀ p ∈ E.prob.ps, ∃ v, vals p.name = some v ∧ v.length = p.size := by
    intro q hq
    obtain ⟨p, hp, rfl⟩ := List.mem_map.1 hq
    obtain ⟨t, ht⟩ := hv p hp
    refine ⟨slotVec p t, ?_, ?_⟩
    · show E.prob.flat st.tvals p.name = _
      rw [flat_eq h.prob hp, hag.vals, ht]; rfl
    · simp [slotVec, TParam.toU, slots_eq]
  have hsl : ∀ p ∈ E.prob.ps, ((absOf E.prob a).sent p.name).length = p.size := by
    intro q hq
    obtain ⟨p, hp, rfl⟩ := List.mem_map.1 hq
    show ((absOf E.prob a).sent p.name).length = _
    rw [absOf_sent h.prob a hp]
    simp [slotVec, TParam.toU, slots_eq]
  have hθ : st.mem.θ.1 = E.prob.ps.flatMap fun p => limited E p.name ((absOf E.prob a).sent p.name) := by
    rw [hag.θ, ← limitVec_flat h _ hsl, ← absOf_vector h.prob]; rfl
  rw [eupdates_map, updateActs_clamp h hb L vals hval, updates_θ]
  refine (updates_vector E.prob.quad h.wf θ0 L (fun n => (vals n).map (limited E n)) (fun n => limited E n ((absOf E.prob a).sent n))
    st.mem.θ hθ (fun p hp => by rw [limited_length]; exact hsl p hp) (fun p hp => ?_)).trans ?_
  · obtain ⟨v, h1, h2⟩ := hval p hp
    exact ⟨limited E p.name v, by rw [h1]; rfl, by rw [limited_length, h2]⟩
  · have hvec : (E.prob.ps.flatMap fun p => if p.name ∈ L then (vals p.name).getD [] else (absOf E.prob a).sent p.name)
        = vector E.prob (a.transfer u).sent := by
      unfold vector Prob.ps
      rw [List.flatMap_map]
      apply List.flatMap_congr
      intro p hp
      obtain ⟨t, ht⟩ := hv p hp
      have hflat : vals p.name = some (slotVec p t) := by
        rw [hvals, flat_eq h.prob hp, hag.vals, ht]; rfl
      have hs := absOf_sent h.prob a hp
      show (if p.name ∈ L then (vals p.name).getD [] else (absOf E.prob a).sent p.name) = _
      rw [hflat, hs]
      have hmem : p.name ∈ E.prob.ps.map UParam.name := by
        rw [ps_names]; exact List.mem_map.2 ⟨p, hp, rfl⟩
      unfold UAbs.transfer
      dsimp only
      cases u with
      | none => simp [hL, hmem, ht]
      | some L' =>
        by_cases hm : p.name ∈ L'
        · simp [hL, hm, ht]
        · simp [hL, hm]
    rw [← hvec, limitVec_flat h (fun n => if n ∈ L then (vals n).getD [] else (absOf E.prob a).sent n)]
    · apply List.flatMap_congr
      intro p hp
      obtain ⟨v, h1, _⟩ := hval p hp
      split
      · rw [h1]; rfl
      · rfl
    · intro p hp
      obtain ⟨v, h1, h2⟩ := hval p hp
      split
      · rw [h1]; exact h2
      · exact hsl p hp

/-- If the bounds are not contradictory, a vector moved into them is in the box. -/
theorem limitVec_box (h : EOK E) {b : Bounds R} (hb : paramBounds (totalSize E.prob.ps + 1) E.big E.pcons = .ok b) {θ0 θ : List R}
    (hθ0 : θ0.length = totalSize E.prob.ps) (ha : Admissible E θ0) (hθ : θ.length = totalSize E.prob.ps) :
    InBox (totalSize E.prob.ps + 1) b (fn (limitVec E θ ++ [1])) := by
  have hbox := in_box h hb hθ0 ha
  intro c hc
  have h0 := hbox c hc
  by_cases hlt : c < θ.length
  · obtain ⟨e1, e2⟩ := bounds_given hb c (by omega)
    have hfn : fn (limitVec E θ ++ [1]) c = min (highest E c) (max (lowest E c) (fn θ c)) := by
      unfold fn
      rw [List.getD, List.getElem?_append_left (by rw [limitVec_length]; exact hlt), limitVec_get θ c hlt]
      rfl
    rw [hfn, e1, e2]
    rw [e1, e2] at h0
    exact ⟨le_min (h0.1.trans h0.2) (le_max_left _ _), min_le_left _ _⟩
  · have hce : c = totalSize E.prob.ps := by omega
    have e : ∀ l : List R, l.length = totalSize E.prob.ps → fn (l ++ [1]) c = 1 := by
      intro l hl
      simp [fn, List.getD, hce, ← hl]
    rw [e _ hθ0] at h0
    rw [e _ (by rw [limitVec_length]; exact hθ)]
    exact h0

/-- **C69, parameters out of bounds** As `C69_partial`, for all parameter values: if the values at generation are within the
declared bounds, then after every call of every history the requested entries of the variables are those of an optimal point
(with the term added to the objective) of the problem at the values last transferred, each moved to the nearest of the bounds
given last, if that problem is feasible. -/
theorem C69_limited_partial {S : Type} (E : EProb R) (h : EOK E) (a : UAbs R) (θ0 : E.prob.Vec) (hθ0 : θ0.1 = vector E.prob a.sent)
    (ha : Admissible E θ0.1) (F : EFiles R) (hg : egen E θ0 = .ok F) (hc : ECond E F) (sol : List R → Nat → R) (hsol : PdaqpOK F E.n sol)
    (clock : Nat → R) (k : Nat) (before : PObj R) (ops : List (TOp R S)) :
    ∃ rs, erun E θ0 F sol clock k ⟨a.vals, einit E θ0, before⟩ ops = some rs ∧ CFollows E clock a k before ops rs := by
  have hs : Sound (E.gen θ0) := canonGen_sound _ _ _ _ h.wf θ0
  obtain ⟨hb, _⟩ := egen_ok h hg
  suffices key : ∀ (ops : List (TOp R S)) (k : Nat) (st : ESt E) (a : UAbs R), CAgree θ0 st a →
      ∃ rs, erun E θ0 F sol clock k st ops = some rs ∧ CFollows E clock a k st.obj ops rs by
    refine key ops k ⟨a.vals, einit E θ0, before⟩ a ⟨?_, ?_, rfl⟩
    · intro c hc
      rcases hc with hc | hc
      · cases hc
      · exact hs.written c θ0 hc
    · show θ0.1 = _
      rw [← hθ0, limitVec_same h hb θ0.2 ha]
  intro ops
  induction ops with
  | nil => intro k st a _; exact ⟨[], rfl, rfl⟩
  | cons op ops ih =>
    intro k st a hag
    cases op with
    | setVal m t =>
      obtain ⟨rs, k1, k2⟩ := ih k { st with tvals := fun m' => if m' = m then some t else st.tvals m' }
        { a with vals := fun m' => if m' = m then some t else a.vals m' }
        ⟨hag.inv, hag.θ, by simp only [hag.vals]⟩
      exact ⟨rs, k1, k2⟩
    | solve u kw =>
      by_cases hgd : EGood E a u
      · obtain ⟨m, o, ret, e1, e2, e3, e4⟩ := esolve_good h hg sol (clock k) hag.inv hag.vals u kw hgd
        have hθ : m.θ.1 = limitVec E (vector E.prob (a.transfer u).sent) := by
          rw [e3]
          exact eupdates_limited h hb hag u hgd.2
        rw [hθ] at e4
        obtain ⟨rs, k1, k2⟩ := ih (k + 1) ⟨st.tvals, m, o⟩ (a.transfer u) ⟨e2, hθ, hag.vals⟩
        refine ⟨(o, .ok ret) :: rs, ?_, o, .ok ret, rs, rfl, Or.inl ⟨hgd, ⟨_, e4, fun hf => ?_⟩, k2⟩⟩
        · rw [erun, e1]
          dsimp only
          rw [k1]
        · exact explicit_optimal h hg hc hsol (by rw [limitVec_length]; exact mem_vector_length h _)
            (limitVec_box h hb θ0.2 ha (mem_vector_length h _)) hf
      · obtain ⟨e, e1⟩ := esolve_bad h F sol (clock k) hag.vals u kw hgd
        obtain ⟨rs, k1, k2⟩ := ih (k + 1) st a hag
        refine ⟨(st.obj, .error e) :: rs, ?_, st.obj, .error e, rs, rfl, Or.inr ⟨hgd, rfl, ⟨e, rfl⟩, k2⟩⟩
        rw [erun, e1]
        dsimp only
        rw [k1]

end

/-- The problem of C69's example: the values at generation are within the bounds, `a = 7` is moved to 5. -/
example : Admissible exE exEθ.1 ∧ limitVec exE [7, 2] = [5, 2] ∧
    ∃ F, egen exE exEθ = .ok F ∧ ECond exE F ∧ PdaqpOK F exE.n exESol := by
  refine ⟨?_, by decide +kernel, exE_gen⟩
  intro k x hx
  have hx : ([0, 0] : List ℚ)[k]? = some x := hx
  have hx0 : x = 0 := by
    rcases k with _ | _ | k <;> simp at hx <;> exact hx.symm
  subst hx0
  refine ⟨by decide +kernel, by decide +kernel, ?_⟩
  intro c hc _
  simp only [exE, List.mem_cons, List.not_mem_nil, or_false] at hc
  rcases hc with rfl | rfl | rfl
  · exact ⟨fun v hv => (by cases hv), fun v hv => (by cases hv)⟩
  · refine ⟨fun v hv => ?_, fun v hv => (by cases hv)⟩
    simp only [upperAt] at hv
    split at hv
    · cases hv; exact ⟨by norm_num, fun h => (by cases h)⟩
    · cases hv
  · refine ⟨fun v hv => (by cases hv), fun v hv => ?_⟩
    simp only [lowerAt] at hv
    split at hv
    · cases hv; exact ⟨by norm_num, fun h => (by cases h)⟩
    · cases hv
end Verif.Props
