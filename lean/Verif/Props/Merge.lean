import Verif.Lemmas.Merge
import Verif.Props.Canon
/-!
# C25, C26: two-stage canonicalization

Exact arithmetic, over any commutative ring. The first stage is `maps1` on the user parameters `ps1`,
the second `maps2` on the parameters `ps2` of the intermediate QP.
-/
namespace Verif.Props
open Verif.Model Verif.Model.Merge Verif.Spec Verif.Spec.Merge Verif.Lemmas Verif.Lemmas.Merge

variable {R : Type} [CommRing R] [DecidableEq R]

/-- **C25** The merged canonicalization code computes, for all user parameters, what the second stage
computes from the parameters of the intermediate QP, and these are what the first stage computes from
the user parameters. -/
theorem C25_composition {ps1 : List UParam} {maps1 : CId → Option (RawMap R)}
    (h1 : WFInput ps1 ids1 maps1) {ids2 : List CId} {maps2 : CId → Option (RawMap R)}
    {ps2 : List UParam} (h2 : WFInput ps2 ids2 maps2) (hf : Fits maps1 ids2 maps2 ps2)
    (hr : Reached ps1 maps1 ps2) :
    ∃ M, merge ps1 maps1 ids2 maps2 ps2 = .ok M ∧
      ∀ θ : List R, θ.length = totalSize ps1 → ∃ θ2, IsQpVector maps1 ps2 θ θ2 ∧
        ∀ c, mergedVal M c θ = canonVal (maps2 c) c.isUpper θ2 := by
  obtain ⟨M, hM, hv, _⟩ := merge_ok h1 h2 hf hr
  exact ⟨M, hM, hv⟩

/-- The parameters of the intermediate QP are determined by the user parameters. -/
theorem C25_intermediate_unique {maps1 : CId → Option (RawMap R)} {ids2 : List CId}
    {maps2 : CId → Option (RawMap R)} {ps2 : List UParam} (hf : Fits maps1 ids2 maps2 ps2)
    (θ a b : List R) (ha : IsQpVector maps1 ps2 θ a) (hb : IsQpVector maps1 ps2 θ b) : a = b := by
  apply List.ext_getElem?
  intro k
  by_cases hk : k < totalSize ps2
  · obtain ⟨j, ⟨hj, hlo, hhi⟩, _⟩ := (C19_blocks_partition ps2 k).1 hk
    obtain ⟨c, hc, m, hm, hn, hs⟩ := hf.params ps2[j] (List.getElem_mem hj)
    have e1 := ha.block j hj c hc hn
    have e2 := hb.block j hj c hc hn
    rw [e1] at e2
    have e3 := congrArg (fun l => l[k - colOf ps2 j]?) (Option.some.inj e2)
    simp only [List.getElem?_take, List.getElem?_drop] at e3
    rw [if_pos (by omega), if_pos (by omega)] at e3
    rwa [show colOf ps2 j + (k - colOf ps2 j) = k by omega] at e3
  · rw [List.getElem?_eq_none (by rw [ha.length]; omega), List.getElem?_eq_none (by rw [hb.length]; omega)]

/-- Values of the second stage agree if its parameters agree where its map has entries. -/
theorem canonVal_agree {ps2 : List UParam} (m : RawMap R) (u : Bool) (a b : List R)
    (ha : a.length = totalSize ps2) (hb : b.length = totalSize ps2) (hm : m.mapping.cols = totalSize ps2 + 1)
    (h : ∀ (j : Nat) (hj : j < ps2.length), adjacent ps2 (some m) j = true →
      (a.drop (colOf ps2 j)).take ps2[j].size = (b.drop (colOf ps2 j)).take ps2[j].size) :
    canonVal (some m) u a = canonVal (some m) u b := by
  rw [canonVal_eq m u a (by rw [ha]; exact hm), canonVal_eq m u b (by rw [hb]; exact hm)]
  congr 1
  apply List.map_congr_left
  intro i hi
  apply mulVec_congr
  intro k hk
  by_cases hkt : k < totalSize ps2
  · obtain ⟨j, ⟨hj, hlo, hhi⟩, _⟩ := (C19_blocks_partition ps2 k).1 hkt
    cases hadj : adjacent ps2 (some m) j with
    | true =>
      right
      have e3 := congrArg (fun l => l[k - colOf ps2 j]?) (h j hj hadj)
      simp only [List.getElem?_take, List.getElem?_drop] at e3
      rw [if_pos (by omega), if_pos (by omega), show colOf ps2 j + (k - colOf ps2 j) = k by omega] at e3
      simp only [fn, List.getD]
      rw [List.getElem?_append_left (by omega), List.getElem?_append_left (by omega), e3]
    | false =>
      left
      rw [final_at m u i k (by simpa using hi) hk, at_of_not_mem, zero_mul]
      intro e he hc
      simp only [adjacent, decide_eq_false_iff_not] at hadj
      apply nnzCols_zero _ _ _ hadj e he
      rw [colOf_succ ps2 j hj, hc.2]
      omega
  · right
    have hk' : k = totalSize ps2 := by omega
    subst hk'
    simp only [fn, List.getD]
    rw [List.getElem?_append_right (by omega), List.getElem?_append_right (by omega), ha, hb]

/-- **C26** (marks) With two-stage canonicalization, a canonical parameter of the solver that an
update does not mark keeps its value, and so does every canonical parameter of the QP that is not
marked at the QP level. Needed: no user parameter enters the objective's constant or the quadratic
part (`Reached`; otherwise generation fails, see `C26_fails_constant`). -/
theorem C26_marks_partial {ps1 : List UParam} {maps1 : CId → Option (RawMap R)}
    (h1 : WFInput ps1 ids1 maps1) {ids2 : List CId} {maps2 : CId → Option (RawMap R)}
    {ps2 : List UParam} (h2 : WFInput ps2 ids2 maps2) (hf : Fits maps1 ids2 maps2 ps2)
    (hr : Reached ps1 maps1 ps2) :
    ∃ M, merge ps1 maps1 ids2 maps2 ps2 = .ok M ∧
      ∀ (name : String) (idx : Nat) (val : R), (∃ p ∈ ps1, p.name = name ∧ idx < p.size) →
      ∀ θ : List R, θ.length = totalSize ps1 →
      ∃ θ' marked qpMarked, updateC ps1 name idx val θ = some θ' ∧
        M.outdated.lookup name = some marked ∧
        (outdatedOf ps1 ids1 maps1).lookup name = some qpMarked ∧
        (∀ c, c ∉ marked → mergedVal M c θ' = mergedVal M c θ) ∧
        (∀ c, c ∉ qpMarked → canonVal (maps1 c) c.isUpper θ' = canonVal (maps1 c) c.isUpper θ) := by
  obtain ⟨M, hM, hv, hmk⟩ := merge_ok h1 h2 hf hr
  refine ⟨M, hM, fun name idx val hval θ hθ => ?_⟩
  obtain ⟨θ', qpMarked, hu, hq, hqp⟩ := C06_unmarked_parameters_are_unaffected h1 name idx val hval θ hθ
  obtain ⟨j, hj, hname, hidx⟩ := valid_index (R := R) (a := ⟨name, idx, val⟩) hval
  simp only at hname hidx
  obtain ⟨marked, hm1, hm2⟩ := hmk j hj
  rw [hname] at hm1
  refine ⟨θ', marked, qpMarked, hu, hm1, hq, fun c hc => ?_, hqp⟩
  have hθ' : θ'.length = totalSize ps1 := by
    have := (updateC_eq h1.names h1.sizes j hj idx hidx val θ hθ).2
    rw [hname, hu] at this
    cases this
    rw [List.length_set]; exact hθ
  obtain ⟨a, ha, hva⟩ := hv θ' hθ'
  obtain ⟨b, hb, hvb⟩ := hv θ hθ
  rw [hva c, hvb c]
  cases hmc : maps2 c with
  | none => rfl
  | some m =>
    apply canonVal_agree (ps2 := ps2) m _ a b ha.length hb.length (h2.cols c m hmc)
    intro k hk hadj
    obtain ⟨c1, hc1, m1, hm1', hn, _⟩ := hf.params ps2[k] (List.getElem_mem hk)
    have hc2 : c ∈ ids2 := by
      by_contra hcon
      rw [h2.other c hcon] at hmc
      cases hmc
    have hnot : c1 ∉ qpMarked := by
      intro hin
      have hlook := outdated_lookup ps1 h1.names ids1 maps1 j hj
      rw [hname, hq] at hlook
      cases hlook
      exact hc ((hm2 c).mpr ⟨c1, hc1, (List.mem_filter.mp hin).2, k, hk, hn, hc2, by rw [hmc]; exact hadj⟩)
    have e := hqp c1 hnot
    rw [ha.block k hk c1 hc1 hn, hb.block k hk c1 hc1 hn] at e
    exact Option.some.inj e

/-- The merged program satisfies the assumptions of the update logic. -/
theorem mergedGen_sound {ps1 : List UParam} {maps1 : CId → Option (RawMap R)}
    (h1 : WFInput ps1 ids1 maps1) {ids2 : List CId} {maps2 : CId → Option (RawMap R)}
    {ps2 : List UParam} (h2 : WFInput ps2 ids2 maps2) (hf : Fits maps1 ids2 maps2 ps2)
    (hr : Reached ps1 maps1 ps2) (quad : Bool) (M : Merged R) (hM : merge ps1 maps1 ids2 maps2 ps2 = .ok M)
    (θ0 : { θ : List R // θ.length = totalSize ps1 }) (rnd : List R) (hrnd : rnd.length = totalSize ps2) :
    Sound (mergedGen ps1 ids2 quad maps2 M θ0 rnd) := by
  have hv : ∀ θ : List R, θ.length = totalSize ps1 → ∃ θ2, IsQpVector maps1 ps2 θ θ2 ∧
        ∀ c, mergedVal M c θ = canonVal (maps2 c) c.isUpper θ2 := by
    obtain ⟨M', hM', hv, _⟩ := merge_ok h1 h2 hf hr
    rw [hM] at hM'
    cases hM'
    exact hv
  have hconst : ∀ c, (mergedGen ps1 ids2 quad maps2 M θ0 rnd).changes.getD c = false →
      ∀ a b : List R, a.length = totalSize ps2 → b.length = totalSize ps2 →
      canonVal (maps2 c) c.isUpper a = canonVal (maps2 c) c.isUpper b := by
    intro c hc a b ha hb
    cases hm : maps2 c with
    | none => rfl
    | some m =>
      have hid : c ∈ ids2 := by
        by_contra hid
        rw [h2.other c hid] at hm; cases hm
      have hch : mapChanges (maps2 c) c.isUpper = false := by
        simpa [mergedGen, Changes.getD, changesOf, hid] using hc
      apply canonVal_const m c.isUpper a b (by rw [ha]; exact h2.cols c m hm) (by rw [ha, hb])
      simpa [mapChanges, hm] using hch
  constructor
  · intro a c θ hc
    obtain ⟨M', hM', hmarks⟩ := C26_marks_partial h1 h2 hf hr
    rw [hM] at hM'
    cases hM'
    obtain ⟨θ', marked, _, hu, hmk, _, hkeep, _⟩ := hmarks a.1.name a.1.idx a.1.val a.2 θ.1 θ.2
    have hass : ((mergedGen ps1 ids2 quad maps2 M θ0 rnd).assign a θ).1 = θ' := by
      show ((canonGen ps1 [] quad (fun _ => none) θ0).assign a θ).1 = θ'
      obtain ⟨j, hj, hname, hidx⟩ := valid_index a.2
      rw [assign_eq quad (maps := fun _ => none) (ids := [])
        ⟨h1.names, h1.sizes, (fun c m h => nomatch h), fun _ _ => rfl⟩ θ0 a θ j hj hname hidx]
      have := (updateC_eq h1.names h1.sizes j hj a.1.idx hidx a.1.val θ.1 θ.2).2
      rw [hname, hu] at this
      exact (Option.some.inj this).symm
    show mergedVal M c ((mergedGen ps1 ids2 quad maps2 M θ0 rnd).assign a θ).1 = mergedVal M c θ.1
    rw [hass]
    apply hkeep
    have hc' : c ∉ (M.outdated.lookup a.1.name).getD [] := hc
    rw [hmk] at hc'
    exact hc'
  · intro c θ θ' hc
    show mergedVal M c θ.1 = mergedVal M c θ'.1
    obtain ⟨a, ha, hva⟩ := hv θ.1 θ.2
    obtain ⟨b, hb, hvb⟩ := hv θ'.1 θ'.2
    rw [hva, hvb]
    exact hconst c hc a b ha.length hb.length
  · intro c θ hc
    show canonVal (maps2 c) c.isUpper rnd = mergedVal M c θ.1
    obtain ⟨a, ha, hva⟩ := hv θ.1 θ.2
    rw [hva]
    exact hconst c hc rnd a hrnd ha.length

/-- **C25, end to end** For every solver, mode, pair of stages that fit, random values at generation
time and history of valid update and solve calls: every solve works on the data that the second stage
gives for the intermediate QP of the parameter values at that moment. -/
theorem C25_end_to_end (k : Kind) (quad lp : Bool) (hk : k.possible quad lp = true)
    {ps1 : List UParam} {maps1 : CId → Option (RawMap R)} (h1 : WFInput ps1 ids1 maps1)
    {maps2 : CId → Option (RawMap R)} {ps2 : List UParam} (h2 : WFInput ps2 (k.canonIds quad) maps2)
    (hf : Fits maps1 (k.canonIds quad) maps2 ps2) (hr : Reached ps1 maps1 ps2)
    (θ0 : { θ : List R // θ.length = totalSize ps1 }) (rnd : List R) (hrnd : rnd.length = totalSize ps2)
    (order : List CId → List CId) (horder : ∀ l, (order l).Perm l) (junk : CId → Option (List R))
    (history : List (Call { a : UpdCall R // a.Valid ps1 })) :
    ∃ M, merge ps1 maps1 (k.canonIds quad) maps2 ps2 = .ok M ∧
    let g := mergedGen ps1 (k.canonIds quad) quad maps2 M θ0 rnd
    ∃ toks pus' m os,
      genBlock (k.solver quad lp).pus g.quad g.changes order = .ok (toks, pus') ∧
      g.runCalls (k.solver quad lp) toks (g.initMem (k.solver quad lp) junk) history = some (m, os) ∧
      m.bad = false ∧
      List.Forall₂ (fun θ o => ∃ θ2, IsQpVector maps1 ps2 θ.1 θ2 ∧
          ∀ p ∈ (k.solver quad lp).uses, o.data p = canonVal (maps2 p) p.isUpper θ2)
        (solveParams g.assign θ0 history) os := by
  obtain ⟨M, hM, hv⟩ := C25_composition h1 h2 hf hr
  refine ⟨M, hM, ?_⟩
  intro g
  have hs : Sound g := mergedGen_sound h1 h2 hf hr quad M hM θ0 rnd hrnd
  have hg : Generated k quad lp (fun p => mapChanges (maps2 p) p.isUpper) g := ⟨hk, rfl, rfl, hs⟩
  obtain ⟨toks, pus', m, os, e1, e2, e3, e4⟩ :=
    C01_every_solve_uses_current_parameters hg order horder junk history
  refine ⟨toks, pus', m, os, e1, e2, e3, e4.imp ?_⟩
  intro θ o hfr
  obtain ⟨θ2, hq, hc⟩ := hv θ.1 θ.2
  refine ⟨θ2, hq, fun p hp => ?_⟩
  rw [hfr.1 p hp]
  exact hc p

/-- **C26** (generation) Generation of the two stages succeeds if: the quadratic part is present,
diagonal and constant; no user parameter enters the objective's constant; no stored entry of `A`
vanishes at the values the parameters have at generation time. All three are needed:
`C26_fails_constant`, `C26_fails_zero_entry`, `C26_fails_linear`. CVXPY may list the parameters of the
intermediate problem in any order. -/
theorem C26_generation_partial {ps1 : List UParam} {maps1 : CId → Option (RawMap R)}
    (h1 : WFInput ps1 ids1 maps1) (θ : List R) (hθ : θ.length = totalSize ps1)
    (hmaps : ∀ c ∈ [CId.P, .q, .A, .l, .u], ∃ m, maps1 c = some m)
    (hP : mapChanges (maps1 .P) true = false)
    (hPd : ∀ j < ps1.length, adjacent ps1 (maps1 .P) j = false ∧ adjacent ps1 (maps1 .d) j = false)
    (hA : ∀ v, canonVal (maps1 .A) true θ = some v → ∀ x ∈ v, x ≠ 0) :
    ∃ params, osqpParams maps1 true θ = .ok params ∧
      ∀ ps2 : List UParam, ps2.Perm params → ∀ (ids2 : List CId) (maps2 : CId → Option (RawMap R)),
        WFInput ps2 ids2 maps2 → (∀ c ∈ ids2, ∃ m, maps2 c = some m) →
        ∃ M, merge ps1 maps1 ids2 maps2 ps2 = .ok M := by
  obtain ⟨mP, hmP⟩ := hmaps .P (by simp)
  obtain ⟨mq, hmq⟩ := hmaps .q (by simp)
  obtain ⟨mA, hmA⟩ := hmaps .A (by simp)
  obtain ⟨ml, hml⟩ := hmaps .l (by simp)
  obtain ⟨mu, hmu⟩ := hmaps .u (by simp)
  have hval : ∀ c m, maps1 c = some m → canonVal (maps1 c) c.isUpper θ
      = some (apply (m.final c.isUpper) (fn (θ ++ [1]))) := by
    intro c m hm
    rw [hm]
    exact canonVal_apply m _ θ (by rw [hθ]; exact h1.cols c m hm)
  have hfil : (apply (mA.final true) (fn (θ ++ [1]))).filter (fun x => x ≠ 0)
      = apply (mA.final true) (fn (θ ++ [1])) := by
    rw [List.filter_eq_self]
    intro x hx
    have := hA _ (hval .A mA hmA) x hx
    simpa using this
  refine ⟨[⟨"osqp_q", (mq.final false).rows⟩, ⟨"osqp_A", (mA.final true).rows⟩,
    ⟨"osqp_l", (ml.final false).rows⟩, ⟨"osqp_u", (mu.final false).rows⟩], ?_, ?_⟩
  · unfold osqpParams
    have vq := hval .q mq hmq
    have vA := hval .A mA hmA
    have vl := hval .l ml hml
    have vu := hval .u mu hmu
    simp only [CId.isUpper] at vq vA vl vu
    have hlen : ∀ (S : Sp R) v, (apply S v).length = S.rows := by intro S v; simp [apply]
    have hP' : mapChanges (some mP) true = false := by rw [← hmP]; exact hP
    simp only [hmP, CId.isUpper, vq, vA, vl, vu, hfil, hlen, hP']
    rfl
  · intro ps2 hperm ids2 maps2 h2 hm2
    suffices h : (∀ p ∈ ps2, ∃ c ∈ [CId.P, .q, .d, .A, .l, .u], ∃ m, maps1 c = some m ∧
        p.name = "osqp_" ++ idName c ∧ p.size = (m.final c.isUpper).rows) ∧ Reached ps1 maps1 ps2 by
      obtain ⟨M, hM, _⟩ := merge_ok h1 h2 ⟨h.1, hm2⟩ h.2
      exact ⟨M, hM⟩
    constructor
    · intro p hp
      have hp' := hperm.mem_iff.mp hp
      simp only [List.mem_cons, List.not_mem_nil, or_false] at hp'
      rcases hp' with rfl | rfl | rfl | rfl
      · exact ⟨.q, by simp, mq, hmq, rfl, rfl⟩
      · exact ⟨.A, by simp, mA, hmA, rfl, rfl⟩
      · exact ⟨.l, by simp, ml, hml, rfl, rfl⟩
      · exact ⟨.u, by simp, mu, hmu, rfl, rfl⟩
    · intro j hj c hc hadj
      have hmem : ∀ s n, (⟨s, n⟩ : UParam) ∈ ([⟨"osqp_q", (mq.final false).rows⟩, ⟨"osqp_A", (mA.final true).rows⟩,
          ⟨"osqp_l", (ml.final false).rows⟩, ⟨"osqp_u", (mu.final false).rows⟩] : List UParam) →
          ∃ p ∈ ps2, p.name = s := fun s n h => ⟨_, hperm.mem_iff.mpr h, rfl⟩
      simp only [ids1, List.mem_cons, List.not_mem_nil, or_false] at hc
      rcases hc with rfl | rfl | rfl | rfl | rfl | rfl
      · rw [(hPd j hj).1] at hadj; cases hadj
      · exact hmem "osqp_q" (mq.final false).rows (by simp)
      · rw [(hPd j hj).2] at hadj; cases hadj
      · exact hmem "osqp_A" (mA.final true).rows (by simp)
      · exact hmem "osqp_l" (ml.final false).rows (by simp)
      · exact hmem "osqp_u" (mu.final false).rows (by simp)

/-! ### Where it fails -/

/-- User parameters `a` (scalar) and `b` (scalar). -/
def mgPs : List UParam := [⟨"a", 1⟩, ⟨"b", 1⟩]

/-- minimize `x² + a x + const` subject to `x = b` and `b x ≤ 3` in OSQP's form. `const` is given by
its coefficients of `a`, `b` and 1. -/
def mgMaps1 (d : List (Nat × Nat × Int)) : CId → Option (RawMap Int)
  | .P => some ⟨⟨1, 3, [(0, 2, 2)]⟩, fun _ => 1⟩
  | .q => some ⟨⟨1, 3, [(0, 0, 1)]⟩, fun _ => 1⟩
  | .d => some ⟨⟨1, 3, d⟩, fun _ => 1⟩
  | .A => some ⟨⟨2, 3, [(0, 2, 1), (1, 1, 1)]⟩, fun _ => 1⟩
  | .l => some ⟨⟨1, 3, [(0, 1, 1)]⟩, fun _ => 1⟩
  | .u => some ⟨⟨2, 3, [(0, 1, 1), (1, 2, 3)]⟩, fun _ => 1⟩
  | _ => none

/-- The parameters of the intermediate problem, in the order `osqp_A`, `osqp_q`, `osqp_l`, `osqp_u`. -/
def mgPs2 : List UParam := [⟨"osqp_A", 2⟩, ⟨"osqp_q", 1⟩, ⟨"osqp_l", 1⟩, ⟨"osqp_u", 2⟩]

/-- A second stage like ECOS's: `c = q`, `h = (u, -l)`, `G = (A, -A₀)`; no constant. -/
def mgMaps2 : CId → Option (RawMap Int)
  | .c => some ⟨⟨1, 7, [(0, 2, 1)]⟩, fun _ => 1⟩
  | .d => some ⟨⟨1, 7, []⟩, fun _ => 1⟩
  | .G => some ⟨⟨3, 7, [(0, 0, 1), (1, 1, 1), (2, 0, -1)]⟩, fun _ => 1⟩
  | .h => some ⟨⟨3, 7, [(0, 4, 1), (1, 5, 1), (2, 3, -1)]⟩, fun _ => 1⟩
  | _ => none

theorem mgWF1 (d : List (Nat × Nat × Int)) : WFInput mgPs ids1 (mgMaps1 d) := by
  refine ⟨by decide, by decide, ?_, ?_⟩
  · intro c m h
    cases c <;> simp [mgMaps1] at h <;> subst h <;> rfl
  · intro c hc
    cases c <;> simp_all [ids1, mgMaps1]

theorem mgWF2 : WFInput mgPs2 [.c, .d, .G, .h] mgMaps2 := by
  refine ⟨by decide, by decide, ?_, ?_⟩
  · intro c m h
    cases c <;> simp [mgMaps2] at h <;> subst h <;> rfl
  · intro c hc
    cases c <;> simp_all [mgMaps2]

theorem mgFits (d : List (Nat × Nat × Int)) : Fits (mgMaps1 d) [.c, .d, .G, .h] mgMaps2 mgPs2 := by
  constructor
  · intro p hp
    simp only [mgPs2, List.mem_cons, List.not_mem_nil, or_false] at hp
    rcases hp with rfl | rfl | rfl | rfl
    · exact ⟨.A, by simp, _, rfl, by decide, by decide⟩
    · exact ⟨.q, by simp, _, rfl, by decide, by decide⟩
    · exact ⟨.l, by simp, _, rfl, by decide, by decide⟩
    · exact ⟨.u, by simp, _, rfl, by decide, by decide⟩
  · intro c hc
    simp only [List.mem_cons, List.not_mem_nil, or_false] at hc
    rcases hc with rfl | rfl | rfl | rfl <;> exact ⟨_, rfl⟩

theorem mgReached : Reached mgPs (mgMaps1 [(0, 2, 5)]) mgPs2 := by
  unfold Reached
  decide

/-- Non-vacuity of C25 and C26: the hypotheses hold, and the merged values at `a = 4, b = 7`. -/
example : (match merge mgPs (mgMaps1 [(0, 2, 5)]) [.c, .d, .G, .h] mgMaps2 mgPs2 with
    | .ok M => (mergedVal M .c [4, 7], mergedVal M .G [4, 7], mergedVal M .h [4, 7],
        M.outdated.lookup "a", M.outdated.lookup "b") ==
      (some [4], some [1, 7, -1], some [7, 3, -7], some [.c], some [.G, .h])
    | .error _ => false) = true := by decide

example : osqpParams (mgMaps1 [(0, 2, 5)]) true [4, 7]
    = .ok [⟨"osqp_q", 1⟩, ⟨"osqp_A", 2⟩, ⟨"osqp_l", 1⟩, ⟨"osqp_u", 2⟩] := by decide

/-- **C25 fails for the constant of the objective**: it is not part of the intermediate problem. The
merged canonicalization gives offset 0 for all parameters, although `nonzero_d` (taken from the first
stage) says that there is one, so the reported objective value is off by the constant (here 5). -/
theorem C25_fails_constant :
    ∃ M, merge mgPs (mgMaps1 [(0, 2, 5)]) [.c, .d, .G, .h] mgMaps2 mgPs2 = .ok M ∧
      ∀ θ : List Int, θ.length = 2 → mergedVal M .d θ = some [0] ∧
        canonVal (mgMaps1 [(0, 2, 5)] .d) false θ = some [5] := by
  obtain ⟨M, hM, hv⟩ := C25_composition (mgWF1 [(0, 2, 5)]) mgWF2 (mgFits _) mgReached
  refine ⟨M, hM, fun θ hθ => ?_⟩
  obtain ⟨θ2, hq, hc⟩ := hv θ hθ
  have hl : θ2.length = 6 := hq.length
  constructor
  · rw [hc .d]
    have h0 : canonVal (mgMaps2 .d) false θ2 = canonVal (mgMaps2 .d) false [0, 0, 0, 0, 0, 0] :=
      C07_constant_parameters_are_constant mgWF2 .d (by decide) _ _ hl (by decide)
    show canonVal (mgMaps2 .d) false θ2 = _
    rw [h0]
    decide
  · have h0 : canonVal (mgMaps1 [(0, 2, 5)] .d) false θ = canonVal (mgMaps1 [(0, 2, 5)] .d) false [0, 0] :=
      C07_constant_parameters_are_constant (mgWF1 [(0, 2, 5)]) .d (by decide) _ _ hθ (by decide)
    rw [h0]
    decide

/-- **C26 fails** if a user parameter enters the constant of the objective: `KeyError: 'osqp_d'`. -/
theorem C26_fails_constant :
    merge mgPs (mgMaps1 [(0, 0, 1)]) [.c, .d, .G, .h] mgMaps2 mgPs2 = .error (.key "osqp_d") := by
  rfl

/-- **C26 fails** if an entry of the constraint matrix is zero for the values at generation time
(`b = 0`): the intermediate problem has one entry of `A` less than the first stage, the maps cannot be
multiplied. -/
theorem C26_fails_zero_entry (ids2 : List CId) (maps2 : CId → Option (RawMap Int)) :
    osqpParams (mgMaps1 [(0, 2, 5)]) true [4, 0]
      = .ok [⟨"osqp_q", 1⟩, ⟨"osqp_A", 1⟩, ⟨"osqp_l", 1⟩, ⟨"osqp_u", 2⟩] ∧
    ∀ c ∈ ids2, ∀ m, maps2 c = some m →
      m.mapping.cols = totalSize [⟨"osqp_q", 1⟩, ⟨"osqp_A", 1⟩, ⟨"osqp_l", 1⟩, ⟨"osqp_u", 2⟩] + 1 →
      ∃ e, merge mgPs (mgMaps1 [(0, 2, 5)]) ids2 maps2
        [⟨"osqp_q", 1⟩, ⟨"osqp_A", 1⟩, ⟨"osqp_l", 1⟩, ⟨"osqp_u", 2⟩] = .error e := by
  refine ⟨by decide, ?_⟩
  intro c hc m hm hcols
  obtain ⟨F, hF, hrows⟩ : ∃ F, mapFirst (mgMaps1 [(0, 2, 5)])
      [⟨"osqp_q", 1⟩, ⟨"osqp_A", 1⟩, ⟨"osqp_l", 1⟩, ⟨"osqp_u", 2⟩] 3 = .ok F ∧ F.rows = 7 :=
    ⟨_, rfl, by decide⟩
  have hbad : mergedMap maps2 F c = .error .dims := by
    unfold mergedMap matmul
    simp only [hm]
    rw [if_neg]
    · rfl
    · rw [final_cols, hcols, hrows]
      decide
  have hex : ∃ e, ids2.mapM (mergedMap maps2 F) = .error e := by
    clear hm hcols
    induction ids2 with
    | nil => simp at hc
    | cons c' l ih =>
      rw [List.mapM_cons]
      cases hc' : mergedMap maps2 F c' with
      | error e => exact ⟨e, rfl⟩
      | ok v =>
        rcases List.mem_cons.mp hc with h | h
        · subst h
          rw [hbad] at hc'
          cases hc'
        · obtain ⟨e, he⟩ := ih h
          refine ⟨e, ?_⟩
          rw [he]
          rfl
  obtain ⟨e, he⟩ := hex
  refine ⟨e, ?_⟩
  unfold merge
  have hF' : mapFirst (mgMaps1 [(0, 2, 5)])
      [⟨"osqp_q", 1⟩, ⟨"osqp_A", 1⟩, ⟨"osqp_l", 1⟩, ⟨"osqp_u", 2⟩] (totalSize mgPs + 1) = .ok F := hF
  simp only [hF', bind, Except.bind, he]

/-- **C26 fails** for problems without quadratic part: `KeyError: 'P'`. -/
theorem C26_fails_linear (maps1 : CId → Option (RawMap R)) (diagonal : Bool) (θ : List R)
    (h : maps1 .P = none) : osqpParams maps1 diagonal θ = .error (.key "P") := by
  unfold osqpParams
  simp only [mapChanges, h]
  rfl

end Verif.Props
