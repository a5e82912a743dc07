import Verif.Spec.GradPipe
import Verif.Props.Pipeline
import Verif.Props.Uncanon
import Verif.Props.Deltas
/-! Lemmas about differentiation in Python as a whole. -/
namespace Verif.Lemmas.GradPipe
open Verif.Model Verif.Model.Pipeline Verif.Model.Flatten Verif.Model.Factor Verif.Model.Grad Verif.Model.GradPipe
open Verif.Spec Verif.Spec.Pipeline Verif.Spec.GradPipe Verif.Spec.Grad Verif.Spec.Factor Verif.Lemmas Verif.Lemmas.Pipeline
open Verif.Props Finset

variable {R S : Type}

/-! ### maps -/

theorem toCsr_getD (A : Sp R) (i : Nat) (h : i ≤ A.rows) :
    A.toCsr.indptr.getD i 0 = ((List.range i).map fun k => (A.row k).length).sum := by
  rw [List.getD, csr_indptr A i h]; rfl

theorem toCsr_valid (A : Sp R) (hA : A.WF) : Csr.Valid A.toCsr A.rows A.cols := by
  refine ⟨by simp [Sp.toCsr], ?_, ?_, by simp [Sp.toCsr], ?_⟩
  · intro i hi
    rw [toCsr_getD A i (by omega), toCsr_getD A (i + 1) (by omega), List.range_succ]
    simp
  · intro i hi
    rw [toCsr_getD A i hi]
    have : A.toCsr.data.length = ((List.range A.rows).map fun k => (A.row k).length).sum := by
      simp [Sp.toCsr, length_flatMap_range]
    rw [this]
    obtain ⟨d, hd⟩ : ∃ d, A.rows = i + d := ⟨A.rows - i, by omega⟩
    rw [hd, List.range_add]
    simp
  · intro c hc
    simp only [Sp.toCsr, List.mem_map, List.mem_flatMap] at hc
    obtain ⟨e, ⟨i, _, he⟩, rfl⟩ := hc
    exact (hA e (List.mem_filter.1 he).1).2

section
variable [CommRing R] [DecidableEq R]

theorem canonVal_length (m : RawMap R) (up : Bool) (θ : List R) (hc : m.mapping.cols = θ.length + 1) :
    ((canonVal (some m) up θ).getD []).length = (m.final up).rows := by
  rw [canonVal_eq m up θ hc]; simp

/-- One canonicalization step from the values at `θ0` gives the values at `θ`. -/
theorem canonStep_val (m : RawMap R) (up : Bool) (θ0 θ : List R) (h0 : m.mapping.cols = θ0.length + 1)
    (h : θ.length = θ0.length) :
    canonStep (mapChanges (some m) up) (m.final up).rows (csrOf (some m) up) (θ ++ [1]) ((canonVal (some m) up θ0).getD [])
      = some ((canonVal (some m) up θ).getD []) := by
  have hθ : m.mapping.cols = θ.length + 1 := by rw [h]; exact h0
  unfold canonStep csrOf
  cases hch : mapChanges (some m) up with
  | false =>
    have : ¬ 0 < (m.final up).nnzCols 0 ((m.final up).cols - 1) := by simpa [mapChanges] using hch
    rw [canonVal_const m up θ0 θ h0 h this]
    rfl
  | true =>
    dsimp only
    rw [if_pos rfl]
    obtain ⟨out, e1, e2, e3, _⟩ := canonicalizeC_ok (m.final up) (final_wf m up) (θ ++ [1])
      ((canonVal (some m) up θ0).getD []) (by rw [final_cols, hθ]; simp) (by rw [canonVal_length m up θ0 h0])
    rw [e1]
    congr 1
    rw [canonVal_eq m up θ hθ, Option.getD_some]
    apply List.ext_getElem?
    intro i
    by_cases hi : i < (m.final up).rows
    · rw [e3 i hi, final_cols]; simp [hi]
    · rw [List.getElem?_eq_none (by rw [e2, canonVal_length m up θ0 h0]; omega), List.getElem?_eq_none (by simp; omega)]

end

/-! ### one solve -/

section
variable [CommRing R] [DecidableEq R]

theorem foldl_marks {Θ V Act : Type} (g : Gen Θ V Act) (hs : Sound g) (p : CId) :
    ∀ (as : List Act) (θ : Θ), (∀ a ∈ as, p ∉ g.outdated a) →
      g.canonOf p (as.foldl (fun θ a => g.assign a θ) θ) = g.canonOf p θ := by
  intro as
  induction as with
  | nil => intro θ _; rfl
  | cons a as ih =>
    intro θ h
    rw [List.foldl_cons, ih _ fun b hb => h b (List.mem_cons_of_mem _ hb), hs.marks a p θ (h a (by simp))]

/-- After a successful call: the parameter vector is the result of the updates, and all canonical parameters that change
are up to date. -/
theorem pySolve_mem {k : Kind} {quad lp : Bool} {ps : List UParam} {maps : CId → Option (RawMap R)}
    (hw : WFInput ps (k.canonIds quad) maps) (θ0 : { θ : List R // θ.length = totalSize ps }) (sg : Stgs S)
    {toks : List Tok} {roots never order : List CId}
    (hf : StaticFacts (k.solver quad lp) (canonGen ps (k.canonIds quad) quad maps θ0).quad
      (canonGen ps (k.canonIds quad) quad maps θ0).changes roots never)
    (hperm : order.Perm roots)
    (ht : ∀ s, execText evMem (doCall (canonGen ps (k.canonIds quad) quad maps θ0) (k.solver quad lp)) toks s
        = some (run (fireOf evMem) (doCall (canonGen ps (k.canonIds quad) quad maps θ0) (k.solver quad lp))
            (norm (canonGen ps (k.canonIds quad) quad maps θ0).quad (k.solver quad lp).pus) never genFuel
            (some order) s))
    (st st' : PySt R S ps) (u : Option (List String)) (kw : List (String × S)) (obs : PyObs S (Option (List R)))
    (hi : Inv (canonGen ps (k.canonIds quad) quad maps θ0) (k.solver quad lp) st.mem)
    (h : pySolve k quad lp ps maps θ0 sg toks st u kw = some (st', .ok obs)) :
    st'.mem.θ = (updateActs ps (u.getD (ps.map UParam.name)) st.vals).foldl
        (fun θ a => (canonGen ps (k.canonIds quad) quad maps θ0).assign a θ) st.mem.θ ∧
      ∀ p, st'.mem.canon p = canonVal (maps p) p.isUpper st'.mem.θ.1 := by
  unfold pySolve at h
  dsimp only at h
  split at h
  · cases h
  · split at h
    · cases h
    · split at h
      · cases h
      · rw [runCalls_updates] at h
        have hs := canonGen_sound ps (k.canonIds quad) quad maps hw θ0
        have hi' := updates_inv _ hs (k.solver quad lp)
          (updateActs ps (u.getD (ps.map UParam.name)) st.vals) st.mem hi
        obtain ⟨m', o, h1, h2, h3, _, _⟩ := solve_ok _ hs (k.solver quad lp) roots never order hf hperm toks ht _ hi'
        rw [h1] at h
        simp only [Option.map_some, Option.some.injEq, Prod.mk.injEq] at h
        obtain ⟨rfl, _⟩ := h
        refine ⟨by rw [← updates_θ]; exact h3, fun p => ?_⟩
        apply h2.canon p
        unfold Gen.solve at h1
        split at h1
        · cases h1
        · simp only [Option.some.injEq, Prod.mk.injEq] at h1
          obtain ⟨rfl, _⟩ := h1
          simp only [Gen.resetFlags]
          split
          · exact Or.inl rfl
          · rename_i hc
            exact Or.inr (Bool.eq_false_iff.2 hc)

end

/-! ### gradients of variables -/

section
open Verif.Lemmas.Flatten Verif.Spec.Flatten

theorem field_ok (v : UVar) (a : Backward.Arr R) (h : size a.shape = size v.shape) :
    ∃ l, Backward.field ⟨0, v.name, v.shape⟩ (some a) = .ok l ∧ (a.shape = v.shape →
      ∀ [Zero R], ∀ k < size v.shape, fn l k = a.val (unpos v.shape k)) := by
  unfold Backward.field
  dsimp only
  by_cases h1 : size v.shape = 1
  · rw [if_pos h1, if_pos (by omega)]
    refine ⟨_, rfl, fun e _ k hk => ?_⟩
    obtain rfl : k = 0 := by omega
    have hb := (idxOf_spec v.shape 0 hk).1
    rw [unpos_eq, zeros_of_size_one _ _ h1 hb, ← e]
    simp [fn]
  · rw [if_neg h1, if_pos h]
    refine ⟨_, rfl, fun e _ k hk => ?_⟩
    obtain ⟨_, e2⟩ := flattenF_spec a.shape a.val
    obtain ⟨b1, b2⟩ := idxOf_spec v.shape k hk
    have := e2 (idxOf v.shape k) (e ▸ b1)
    rw [e, b2] at this
    rw [unpos_eq]
    simp [fn, e, this]

theorem field_err (v : UVar) (g : Option (Backward.Arr R)) (h : ∀ a, g = some a → size a.shape ≠ size v.shape) :
    ∃ e, Backward.field ⟨0, v.name, v.shape⟩ g = .error e := by
  unfold Backward.field
  cases g with
  | none =>
    dsimp only
    split
    · exact ⟨_, rfl⟩
    · exact ⟨_, rfl⟩
  | some a =>
    have := h a rfl
    dsimp only
    by_cases h1 : size v.shape = 1
    · rw [if_pos h1, if_neg (by omega)]; exact ⟨_, rfl⟩
    · rw [if_neg h1, if_neg this]; exact ⟨_, rfl⟩

theorem vdelta_ok (gr : String → Option (Backward.Arr R)) : ∀ (vs : List UVar), (vs.map UVar.name).Nodup → Fits vs gr →
    ∃ fields, vdelta vs gr = .ok fields ∧ fields.map Prod.fst = vs.map UVar.name ∧
      ∀ v ∈ vs, ∀ a, gr v.name = some a → a.shape = v.shape →
      ∀ [Zero R], ∀ k < size v.shape, fn ((fields.lookup v.name).getD []) k = a.val (unpos v.shape k) := by
  intro vs
  induction vs with
  | nil => intro _ _; exact ⟨[], rfl, rfl, fun v hv => (by cases hv)⟩
  | cons v vs ih =>
    intro hn hf
    rw [List.map_cons, List.nodup_cons] at hn
    obtain ⟨fields, h1, h3, h2⟩ := ih hn.2 fun w hw => hf w (List.mem_cons_of_mem _ hw)
    obtain ⟨a, ha, hs⟩ := hf v (by simp)
    obtain ⟨l, hl, hl'⟩ := field_ok v a hs
    refine ⟨(v.name, l) :: fields, ?_, by simp [h3], ?_⟩
    · unfold vdelta at h1 ⊢
      rw [List.mapM_cons, h1, ha, hl]
      rfl
    · intro w hw b hb hbs _ k hk
      rw [List.lookup_cons]
      rcases List.mem_cons.1 hw with rfl | hw
      · rw [ha] at hb
        cases hb
        simp only [beq_self_eq_true, Option.getD_some]
        exact hl' hbs k hk
      · have : w.name ≠ v.name := fun e => hn.1 (e ▸ List.mem_map.2 ⟨w, hw, rfl⟩)
        rw [show (w.name == v.name) = false by simpa using this]
        exact h2 w hw b hb hbs k hk

theorem vdelta_err (gr : String → Option (Backward.Arr R)) : ∀ (vs : List UVar), ¬ Fits vs gr →
    ∃ e, vdelta vs gr = .error e := by
  intro vs
  induction vs with
  | nil => intro h; exact absurd (fun v hv => (by cases hv)) h
  | cons v vs ih =>
    intro h
    unfold vdelta at ih ⊢
    rw [List.mapM_cons]
    cases hf : Backward.field ⟨0, v.name, v.shape⟩ (gr v.name) with
    | error e => exact ⟨e, rfl⟩
    | ok l =>
      have hv : ∃ a, gr v.name = some a ∧ size a.shape = size v.shape := by
        by_contra hc
        obtain ⟨e, he⟩ := field_err v (gr v.name) fun a ha hs => hc ⟨a, ha, hs⟩
        rw [he] at hf
        cases hf
      obtain ⟨e, he⟩ := ih fun hall => h fun w hw => by
        rcases List.mem_cons.1 hw with rfl | hw
        · exact hv
        · exact hall w hw
      rw [he]
      exact ⟨e, rfl⟩

end

/-! ### gradients of parameters -/

section
open Verif.Lemmas.Flatten Verif.Spec.Flatten

theorem slice_mapM (dp : List R) (b : Nat) : ∀ n, b + n ≤ dp.length →
    ((List.range n).mapM fun i => dp[b + i]?) = some ((dp.drop b).take n) := by
  intro n
  induction n with
  | zero => intro _; simp
  | succ n ih =>
    intro h
    rw [List.range_succ, List.mapM_append, ih (by omega), List.mapM_cons, List.getElem?_eq_getElem (by omega)]
    have : (dp.drop b).take (n + 1) = (dp.drop b).take n ++ [dp[b + n]] := by
      rw [List.take_succ_eq_append_getElem (by simp; omega)]
      simp
    rw [this]
    rfl

theorem assignGrads_ok (ps : List UParam) (dp : List R) : ∀ (l : List TParam) (pg : String → Option (List Nat → Option R)),
    (l.map TParam.name).Nodup → (∀ p ∈ l, ∃ b, baseCol ps p.name = some b ∧ b + slots p ≤ dp.length) →
    ∃ pg' r, assignGrads ps dp pg l = some (pg', r) ∧ (Full l → r = .ok ()) ∧ (¬ Full l → r = .error .valueError) ∧
      (Full l → ∀ p ∈ l, ∃ b f, baseCol ps p.name = some b ∧ pg' p.name = some f ∧
        ∀ idx, InBounds p.shape idx → f idx = dp[b + pos p.shape idx]?) ∧
      ∀ m, m ∉ l.map TParam.name → pg' m = pg m := by
  intro l
  induction l with
  | nil =>
    intro pg _ _
    refine ⟨pg, _, rfl, fun _ => rfl, fun h => absurd (fun p hp => (by cases hp)) h, ?_, fun _ _ => rfl⟩
    intro _ p hp; cases hp
  | cons p l ih =>
    intro pg hn hb
    rw [List.map_cons, List.nodup_cons] at hn
    obtain ⟨b, hb1, hb2⟩ := hb p (by simp)
    have hm := slice_mapM dp b (slots p) hb2
    have hlen : ((dp.drop b).take (slots p)).length = slots p := by simp; omega
    unfold assignGrads
    rw [hb1]
    dsimp only
    rw [← slots_eq, hm]
    dsimp only
    by_cases hp : slots p = size p.shape
    · obtain ⟨f, hf, hf'⟩ := reshapeF_spec p.shape ((dp.drop b).take (slots p)) (by rw [hlen, hp])
      rw [hf]
      dsimp only
      obtain ⟨pg', r, h1, h2, h3, h4, h5⟩ := ih (fun m => if m = p.name then some f else pg m) hn.2
        fun q hq => hb q (List.mem_cons_of_mem _ hq)
      refine ⟨pg', r, h1, fun h => h2 fun q hq => h q (List.mem_cons_of_mem _ hq), fun h => h3 fun hl => h fun q hq => ?_, ?_, ?_⟩
      · rcases List.mem_cons.1 hq with rfl | hq
        · exact hp
        · exact hl q hq
      · intro h q hq
        rcases List.mem_cons.1 hq with rfl | hq
        · refine ⟨b, f, hb1, ?_, fun idx hi => ?_⟩
          · rw [h5 _ hn.1, if_pos rfl]
          · have := pos_lt q.shape idx hi
            rw [hf' idx hi, List.getElem?_take_of_lt (by omega), List.getElem?_drop]
        · exact h4 (fun q hq => h q (List.mem_cons_of_mem _ hq)) q hq
      · intro m hm'
        rw [List.map_cons, List.mem_cons, not_or] at hm'
        rw [h5 m hm'.2, if_neg hm'.1]
    · have : reshapeF p.shape ((dp.drop b).take (slots p)) = none := if_neg (by rw [hlen]; exact hp)
      rw [this]
      exact ⟨pg, _, rfl, fun h => absurd (h p (by simp)) hp, fun _ => rfl, fun h => absurd (h p (by simp)) hp, fun _ _ => rfl⟩

/-- The columns of a parameter. -/
theorem baseCol_tps (P : Prob R) (hn : (P.ps.map UParam.name).Nodup) (hpos : ∀ p ∈ P.ps, 0 < p.size)
    (pre post : List TParam) (p : TParam) (h : P.tps = pre ++ p :: post) :
    baseCol P.ps p.name = some (totalSize (pre.map TParam.toU)) ∧
      totalSize (pre.map TParam.toU) + slots p ≤ totalSize P.ps := by
  have hps : P.ps = pre.map TParam.toU ++ p.toU :: post.map TParam.toU := by
    unfold Prob.ps; rw [h]; simp
  have hj : pre.length < P.ps.length := by rw [hps]; simp
  have hget : P.ps[pre.length] = p.toU := by
    simp only [hps]
    rw [List.getElem_append_right (by simp)]
    simp
  have hcol : colOf P.ps pre.length = totalSize (pre.map TParam.toU) := by
    unfold colOf totalSize
    rw [hps, List.take_left' (by simp)]
  have := baseCol_eq P.ps hn hpos pre.length hj
  rw [hget, hcol] at this
  refine ⟨this, ?_⟩
  have h1 := colOf_succ P.ps pre.length hj
  have h2 := colOf_mono P.ps (i := pre.length + 1) (j := P.ps.length) (by omega) le_rfl
  rw [colOf_length] at h2
  rw [hget, hcol] at h1
  have : p.toU.size = slots p := (slots_eq p).symm
  omega

/-- A sum over the parameter vector, parameter by parameter. -/
theorem sum_params [CommRing R] (P : Prob R) (hn : (P.ps.map UParam.name).Nodup) (hpos : ∀ p ∈ P.ps, 0 < p.size)
    (H : Nat → R) (F : String → Nat → R)
    (hF : ∀ p ∈ P.tps, ∀ b, baseCol P.ps p.name = some b → ∀ k < slots p, F p.name k = H (b + k))
    (t t' : String → List Nat → R) :
    ∑ j ∈ range (totalSize P.ps), H j * (fn (vector P t') j - fn (vector P t) j)
      = (P.tps.map fun p => ∑ k ∈ range (slots p), F p.name k * (t' p.name (slotIdx p k) - t p.name (slotIdx p k))).sum := by
  suffices key : ∀ (l pre : List TParam), P.tps = pre ++ l →
      ∑ j ∈ range (totalSize (l.map TParam.toU)), H (totalSize (pre.map TParam.toU) + j) *
        (fn (l.flatMap fun p => slotVec p (t' p.name)) j - fn (l.flatMap fun p => slotVec p (t p.name)) j)
      = (l.map fun p => ∑ k ∈ range (slots p), F p.name k * (t' p.name (slotIdx p k) - t p.name (slotIdx p k))).sum by
    have := key P.tps [] rfl
    simpa [totalSize, Prob.ps, vector] using this
  intro l
  induction l with
  | nil => intro pre _; simp [totalSize]
  | cons p l ih =>
    intro pre h
    obtain ⟨b1, _⟩ := baseCol_tps P hn hpos pre l p h
    have ih' := ih (pre ++ [p]) (by rw [h]; simp)
    have hsz : totalSize ((p :: l).map TParam.toU) = slots p + totalSize (l.map TParam.toU) := by
      simp [totalSize, slots_eq, TParam.toU]
    have hsz' : totalSize ((pre ++ [p]).map TParam.toU) = totalSize (pre.map TParam.toU) + slots p := by
      simp [totalSize, slots_eq, TParam.toU]
    rw [hsz, sum_range_add, List.map_cons, List.sum_cons, ← ih']
    have hl : ∀ s : String → List Nat → R, (slotVec p (s p.name)).length = slots p := fun s => by simp [slotVec]
    congr 1
    · apply sum_congr rfl
      intro k hk
      have hk := mem_range.1 hk
      have e : ∀ s : String → List Nat → R, fn ((p :: l).flatMap fun p => slotVec p (s p.name)) k = s p.name (slotIdx p k) := by
        intro s
        unfold fn
        rw [List.flatMap_cons, List.getD, List.getElem?_append_left (by rw [hl]; exact hk)]
        simp [slotVec, hk]
      rw [e, e, hF p (by rw [h]; simp) _ b1 k hk]
    · apply sum_congr rfl
      intro j _
      have e : ∀ s : String → List Nat → R, fn ((p :: l).flatMap fun p => slotVec p (s p.name)) (slots p + j)
          = fn (l.flatMap fun p => slotVec p (s p.name)) j := by
        intro s
        unfold fn
        rw [List.flatMap_cons, List.getD, List.getElem?_append_right (by rw [hl]; omega), hl]
        simp
      rw [e, e, hsz', Nat.add_assoc]

end
end Verif.Lemmas.GradPipe
