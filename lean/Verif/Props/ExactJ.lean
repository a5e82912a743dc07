import Verif.Props.Merge
import Verif.Props.Retrieve
/-!
# C17, C26: exact conditions

For C17 what is read for a variable of which the solver has fewer entries than CVXPY (diagonal variables); for C26 when the two
stages are merged without an exception.
-/
namespace Verif.Props
open Verif.Model Verif.Model.Merge Verif.Spec Verif.Spec.Merge Verif.Lemmas Verif.Lemmas.Merge

/-! ## C17 -/

theorem mapM_none_of {α β : Type} {f : α → Option β} {l : List α} {x : α} (hx : x ∈ l) (h : f x = none) : l.mapM f = none := by
  induction l with
  | nil => cases hx
  | cons a l ih =>
    rw [List.mapM_cons]
    rcases List.mem_cons.1 hx with rfl | hx
    · rw [h]; rfl
    · rw [ih hx]
      cases f a <;> rfl

/-- The entries of a diagonal matrix with `n` rows, column by column, of which the diagonal is at `offset` in the solution. -/
def diagonalOf {R : Type} [Zero R] (n offset : Nat) (sol : List R) : List R :=
  (List.range (n * n)).map fun k => if k % n = k / n then fn sol (offset + k % n) else 0

/-- **C17, diagonal variables.** CVXPY gives the solver the diagonal of a variable with `n` rows declared `diag`; the generated code treats it as a
full one (its entry among the variables is that of a full matrix at the same offset). For every solver and all other variables: if the solution ends before the `n²` entries that are read,
the access is outside of the array; otherwise the value is right exactly if the entries read happen to be those of the diagonal
matrix. For `n ≥ 2` this requires the second entry of the diagonal to be zero, although the value has it elsewhere. -/
theorem C17_diagonal {R : Type} [Zero R] (s : Kind) (vs : List UVar) (hnames : (vs.map UVar.name).Nodup) (hsym : ∀ v ∈ vs, SymOK v)
    (name : String) (n offset : Nat) (hv : (⟨name, [n, n], false, offset⟩ : UVar) ∈ vs) :
    ∃ pi, primInfo vs = .ok pi ∧ ∀ sol : List R,
      (sol.length < offset + n * n → 0 < n → primReadAll s.traits pi sol name = none) ∧
      (offset + n * n ≤ sol.length → (primReadAll s.traits pi sol name = some (diagonalOf n offset sol) ↔
        ∀ k < n * n, fn sol (offset + k) = if k % n = k / n then fn sol (offset + k % n) else 0)) ∧
      (2 ≤ n → primReadAll s.traits pi sol name = some (diagonalOf n offset sol) → fn sol (offset + 1) = 0) := by
  obtain ⟨pi, hpi, hread⟩ := C17_primal_values (R := R) s vs hnames hsym
  have hsz : (⟨name, [n, n], false, offset⟩ : UVar).size = n * n := by simp [UVar.size]
  have hpos : ∀ k, entryPos (⟨name, [n, n], false, offset⟩ : UVar) k = offset + k := fun k => by simp [entryPos]
  have hin : ∀ sol : List R, offset + n * n ≤ sol.length →
      primReadAll s.traits pi sol name = some ((List.range (n * n)).map fun k => fn sol (offset + k)) := by
    intro sol hl
    have := hread sol _ hv (by simpa [solverSize, hsz] using hl)
    rw [hsz] at this
    simpa only [hpos] using this
  have hout : ∀ sol : List R, sol.length < offset + n * n → 0 < n → primReadAll s.traits pi sol name = none := by
    intro sol hl h0
    have hnn : 0 < n * n := Nat.mul_pos h0 h0
    unfold primReadAll
    have hlk : pi.size.lookup name = some (n * n) := by
      have e := primInfo_eq vs hsym
      rw [hpi] at e
      cases e
      have := lookup_nodup vs UVar.name UVar.size hnames _ hv
      rw [hsz] at this
      exact this
    rw [hlk]
    simp only [Option.bind_eq_bind, Option.bind_some]
    refine mapM_none_of (x := n * n - 1) (List.mem_range.2 (by omega)) ?_
    rw [primRead_eq s.traits (traits_ok s) vs hnames hsym pi hpi sol _ hv _ (by rw [hsz]; omega), hpos]
    exact List.getElem?_eq_none (by omega)
  have hiff : ∀ sol : List R, offset + n * n ≤ sol.length → (primReadAll s.traits pi sol name = some (diagonalOf n offset sol) ↔
        ∀ k < n * n, fn sol (offset + k) = if k % n = k / n then fn sol (offset + k % n) else 0) := by
    intro sol hl
    rw [hin sol hl, Option.some_inj, diagonalOf, List.map_inj_left]
    simp only [List.mem_range]
  refine ⟨pi, hpi, fun sol => ⟨hout sol, hiff sol, fun h2 hr => ?_⟩⟩
  by_cases hl : offset + n * n ≤ sol.length
  · have := (hiff sol hl).1 hr 1 (by nlinarith)
    rw [if_neg] at this
    · exact this
    · rw [Nat.mod_eq_of_lt (by omega), Nat.div_eq_of_lt (by omega)]
      omega
  · rw [hout sol (by omega) (by omega)] at hr
    cases hr

/-- The hypotheses are met, and the value is right for a solution whose entries happen to fit. -/
example : (exVars.map UVar.name).Nodup ∧ (∀ v ∈ exVars, SymOK v) ∧ (⟨"M", [2, 2], false, 7⟩ : UVar) ∈ exVars ∧
    (∀ k < 2 * 2, fn ([1, 2, 3, 4, 5, 6, 7, 5, 0, 0, 0] : List Int) (7 + k)
      = if k % 2 = k / 2 then fn ([1, 2, 3, 4, 5, 6, 7, 5, 0, 0, 0] : List Int) (7 + k % 2) else 0) := by
  refine ⟨by decide, ?_, by decide, by decide⟩
  intro v hv
  simp only [exVars, List.mem_cons, List.not_mem_nil, or_false] at hv
  rcases hv with rfl | rfl | rfl
  · exact fun _ => ⟨3, rfl⟩
  · intro h; cases h
  · intro h; cases h

/-! ## C26 -/

variable {R : Type} [CommRing R] [DecidableEq R]

theorem vstack_rows (n : Nat) (l : List (Sp R)) : (vstack n l).rows = (l.map Sp.rows).sum := by
  induction l with
  | nil => rfl
  | cons A l ih => simp only [vstack, List.map_cons, List.sum_cons, ih]

theorem totalSize_sum (ps : List UParam) : totalSize ps = (ps.map UParam.size).sum := by
  induction ps with
  | nil => rfl
  | cons p ps ih => simp only [totalSize, List.map_cons, List.sum_cons] at ih ⊢

theorem mapM_ok_mem {ε α β : Type} {f : α → Except ε β} {l : List α} {r : List β} (h : l.mapM f = .ok r) : ∀ a ∈ l, ∃ b, f a = .ok b := by
  induction l generalizing r with
  | nil => intro a ha; cases ha
  | cons x l ih =>
    rw [List.mapM_cons] at h
    cases hx : f x with
    | error e => rw [hx] at h; cases h
    | ok b =>
      rw [hx] at h
      cases hl : l.mapM f with
      | error e => rw [hl] at h; cases h
      | ok r' =>
        intro a ha
        rcases List.mem_cons.1 ha with rfl | ha
        · exact ⟨b, hx⟩
        · exact ih hl a ha

theorem mem_of_lookup_some {κ ν : Type} [DecidableEq κ] {l : List (κ × ν)} {k : κ} {v : ν} (h : l.lookup k = some v) : (k, v) ∈ l := by
  induction l with
  | nil => cases h
  | cons e l ih =>
    obtain ⟨a, b⟩ := e
    rw [List.lookup_cons] at h
    by_cases hk : k = a
    · subst hk
      simp only [beq_self_eq_true] at h
      cases h
      exact List.mem_cons_self
    · have : (k == a) = false := by simpa using hk
      simp only [this] at h
      exact List.mem_cons_of_mem _ (ih h)

/-- The parameters of the intermediate problem, and when there are any. -/
theorem osqpParams_eq {maps1 : CId → Option (RawMap R)} {diagonal : Bool} {θ : List R} {params : List UParam}
    (h : osqpParams maps1 diagonal θ = .ok params) :
    mapChanges (maps1 .P) true = false ∧ maps1 .P ≠ none ∧ diagonal = true ∧ ∃ q A l u, canonVal (maps1 .q) false θ = some q ∧
      canonVal (maps1 .A) true θ = some A ∧ canonVal (maps1 .l) false θ = some l ∧ canonVal (maps1 .u) false θ = some u ∧
      params = [⟨"osqp_q", q.length⟩, ⟨"osqp_A", (A.filter fun x => x ≠ 0).length⟩, ⟨"osqp_l", l.length⟩, ⟨"osqp_u", u.length⟩] := by
  unfold osqpParams at h
  by_cases h1 : mapChanges (maps1 .P) true = true
  · rw [if_pos h1] at h; cases h
  rw [if_neg h1] at h
  by_cases h2 : maps1 .P = none
  · simp only [if_pos h2] at h; cases h
  simp only [if_neg h2] at h
  cases diagonal with
  | false => cases h
  | true =>
    simp only [CId.isUpper] at h
    cases hq : canonVal (maps1 .q) false θ with
    | none => rw [hq] at h; cases h
    | some q =>
    cases hA : canonVal (maps1 .A) true θ with
    | none => rw [hq, hA] at h; cases h
    | some A =>
    cases hl : canonVal (maps1 .l) false θ with
    | none => rw [hq, hA, hl] at h; cases h
    | some l =>
    cases hu : canonVal (maps1 .u) false θ with
    | none => rw [hq, hA, hl, hu] at h; cases h
    | some u =>
      rw [hq, hA, hl, hu] at h
      refine ⟨by simpa using h1, h2, rfl, q, A, l, u, rfl, rfl, rfl, rfl, ?_⟩
      cases h
      rfl

theorem canonVal_none (u : Bool) (θ : List R) : canonVal (none : Option (RawMap R)) u θ = none := rfl

/-- **C26, exactly when the stages are merged.** Once the intermediate problem exists (`osqpParams`), with its parameters in any order and
whatever the second stage makes of it: merging succeeds exactly if no user parameter enters the quadratic part or the constant of the objective and no stored
entry of `A` is zero at the values the parameters have at generation time. -/
theorem C26_merge_iff {ps1 : List UParam} {maps1 : CId → Option (RawMap R)} (h1 : WFInput ps1 ids1 maps1) (θ : List R)
    (hθ : θ.length = totalSize ps1) (diagonal : Bool) (params : List UParam) (hp : osqpParams maps1 diagonal θ = .ok params)
    (ps2 : List UParam) (hperm : ps2.Perm params) (ids2 : List CId) (maps2 : CId → Option (RawMap R)) (h2 : WFInput ps2 ids2 maps2)
    (hm2 : ∀ c ∈ ids2, ∃ m, maps2 c = some m) (hne : ids2 ≠ []) :
    (∃ M, merge ps1 maps1 ids2 maps2 ps2 = .ok M) ↔
      (∀ j < ps1.length, adjacent ps1 (maps1 .P) j = false ∧ adjacent ps1 (maps1 .d) j = false) ∧
      (∀ v, canonVal (maps1 .A) true θ = some v → ∀ x ∈ v, x ≠ 0) := by
  obtain ⟨hP, hP0, rfl, q, A, l, u, hq, hA, hl, hu, rfl⟩ := osqpParams_eq hp
  have hsome : ∀ (c : CId) (b : Bool) v, canonVal (maps1 c) b θ = some v → ∃ m, maps1 c = some m := by
    intro c b v h
    cases hm : maps1 c with
    | none => rw [hm, canonVal_none] at h; cases h
    | some m => exact ⟨m, rfl⟩
  obtain ⟨mq, hmq⟩ := hsome _ _ _ hq
  obtain ⟨mA, hmA⟩ := hsome _ _ _ hA
  obtain ⟨ml, hml⟩ := hsome _ _ _ hl
  obtain ⟨mu, hmu⟩ := hsome _ _ _ hu
  have hlen : ∀ (c : CId) (b : Bool) v m, maps1 c = some m → canonVal (maps1 c) b θ = some v → v.length = (m.final b).rows := by
    intro c b v m hm h
    rw [hm, canonVal_apply m b θ (by rw [hθ]; exact h1.cols c m hm)] at h
    cases h
    simp [apply]
  constructor
  · rintro ⟨M, hM⟩
    unfold merge at hM
    cases hF : mapFirst maps1 ps2 (totalSize ps1 + 1) with
    | error e => rw [hF] at hM; cases hM
    | ok F =>
    rw [hF] at hM
    simp only [bind, Except.bind] at hM
    cases hmm : ids2.mapM (mergedMap maps2 F) with
    | error e => rw [hmm] at hM; cases hM
    | ok maps =>
    rw [hmm] at hM
    simp only at hM
    cases ho : (outdatedOf ps1 ids1 maps1).mapM fun kv =>
        (mergedMarks (outdatedOf ps2 ids2 maps2) kv.2).map fun l => (kv.1, l) with
    | error e => rw [ho] at hM; cases hM
    | ok out =>
    constructor
    · have key : ∀ j < ps1.length, ∀ c ∈ ids1, adjacent ps1 (maps1 c) j = true → ("osqp_" ++ idName c) ∈ ps2.map UParam.name := by
        intro j hj c hc hadj
        have hmem := mem_of_lookup_some (outdated_lookup ps1 h1.names ids1 maps1 j hj)
        obtain ⟨kv', hkv⟩ := mapM_ok_mem ho _ hmem
        simp only at hkv
        cases hmk : mergedMarks (outdatedOf ps2 ids2 maps2) (ids1.filter fun c => adjacent ps1 (maps1 c) j) with
        | error e => rw [hmk] at hkv; cases hkv
        | ok l' =>
        unfold mergedMarks at hmk
        cases hls : (ids1.filter fun c => adjacent ps1 (maps1 c) j).mapM (marksOf (outdatedOf ps2 ids2 maps2)) with
        | error e => rw [hls] at hmk; cases hmk
        | ok ls =>
        obtain ⟨r, hr⟩ := mapM_ok_mem hls c (List.mem_filter.2 ⟨hc, hadj⟩)
        unfold marksOf at hr
        cases hk : (outdatedOf ps2 ids2 maps2).lookup ("osqp_" ++ idName c) with
        | none => rw [hk] at hr; cases hr
        | some r' =>
          have hmem2 := mem_of_lookup_some hk
          unfold outdatedOf at hmem2
          rw [dictOf_nodup] at hmem2
          · obtain ⟨pj, hpj, he⟩ := List.mem_map.1 hmem2
            rw [← (Prod.mk.inj he).1]
            exact List.mem_map_of_mem (List.fst_mem_of_mem_zipIdx hpj)
          · rw [List.map_map]
            have : (Prod.fst ∘ fun pj : UParam × Nat => (pj.1.name, ids2.filter fun c => adjacent ps2 (maps2 c) pj.2))
                = UParam.name ∘ Prod.fst := rfl
            rw [this, ← List.map_map, List.zipIdx_map_fst]; exact h2.names
      have hnames : ∀ s ∈ ps2.map UParam.name, s ∈ ["osqp_q", "osqp_A", "osqp_l", "osqp_u"] := by
        intro s hs
        have := (hperm.map UParam.name).mem_iff.1 hs
        simpa using this
      intro j hj
      constructor
      · rw [← Bool.not_eq_true]
        intro h
        exact absurd (hnames _ (key j hj .P (by decide) h)) (by decide)
      · rw [← Bool.not_eq_true]
        intro h
        exact absurd (hnames _ (key j hj .d (by decide) h)) (by decide)
    · -- sizes
      have hrows : F.rows = totalSize ps2 + 1 := by
        obtain ⟨c, hc⟩ := List.exists_mem_of_ne_nil _ hne
        obtain ⟨m, hm⟩ := hm2 c hc
        obtain ⟨b, hb⟩ := mapM_ok_mem hmm c hc
        unfold mergedMap matmul at hb
        simp only [hm] at hb
        by_cases hcols : (m.final c.isUpper).cols = F.rows
        · rw [← hcols, final_cols]
          exact h2.cols c m hm
        · rw [if_neg hcols] at hb
          cases hb
      unfold mapFirst at hF
      rw [sortedNames_eq ps2 h2.names h2.sizes] at hF
      let g : String → Sp R := fun s => match firstMap maps1 (drop5 s) with
        | .ok B => B
        | .error _ => ⟨0, 0, []⟩
      have hg : ∀ c ∈ ids1, ∀ m, maps1 c = some m → firstMap maps1 (drop5 ("osqp_" ++ idName c)) = .ok (m.final c.isUpper) ∧
          g ("osqp_" ++ idName c) = m.final c.isUpper := by
        intro c hc m hm
        have e : firstMap maps1 (drop5 ("osqp_" ++ idName c)) = .ok (m.final c.isUpper) := by
          rw [drop5_osqp, firstMap_eq maps1 c hc m hm]
        exact ⟨e, by simp only [g, e]⟩
      have gq := hg .q (by decide) mq hmq
      have gA := hg .A (by decide) mA hmA
      have gl := hg .l (by decide) ml hml
      have gu := hg .u (by decide) mu hmu
      have hmap : (ps2.map UParam.name).mapM (fun s => firstMap maps1 (drop5 s)) = .ok ((ps2.map UParam.name).map g) := by
        apply Verif.Lemmas.Merge.mapM_ok
        intro s hs
        have := (hperm.map UParam.name).mem_iff.1 hs
        simp only [List.map_cons, List.map_nil, List.mem_cons, List.not_mem_nil, or_false] at this
        rcases this with rfl | rfl | rfl | rfl
        · exact gq.1.trans (congrArg _ gq.2.symm)
        · exact gA.1.trans (congrArg _ gA.2.symm)
        · exact gl.1.trans (congrArg _ gl.2.symm)
        · exact gu.1.trans (congrArg _ gu.2.symm)
      rw [hmap] at hF
      simp only [bind, Except.bind] at hF
      have hFr : F.rows = ((ps2.map UParam.name).map fun s => (g s).rows).sum + 1 := by
        split at hF
        · cases hF
          rw [vstack_rows, List.map_append, List.sum_append, List.map_map]
          rfl
        · cases hF
      have e1 : ((ps2.map UParam.name).map fun s => (g s).rows).sum
          = (mq.final false).rows + (mA.final true).rows + (ml.final false).rows + (mu.final false).rows := by
        rw [((hperm.map UParam.name).map fun s => (g s).rows).sum_eq]
        have a := congrArg Sp.rows gq.2
        have b := congrArg Sp.rows gA.2
        have c := congrArg Sp.rows gl.2
        have d := congrArg Sp.rows gu.2
        simp only [List.map_cons, List.map_nil, List.sum_cons, List.sum_nil]
        simp only [CId.isUpper] at a b c d
        have e : ∀ s t, s = t → (g s).rows = (g t).rows := fun s t h => by rw [h]
        rw [e "osqp_q" ("osqp_" ++ idName .q) (by decide), e "osqp_A" ("osqp_" ++ idName .A) (by decide),
          e "osqp_l" ("osqp_" ++ idName .l) (by decide), e "osqp_u" ("osqp_" ++ idName .u) (by decide), a, b, c, d]
        omega
      have e2 : totalSize ps2 = q.length + (A.filter fun x => x ≠ 0).length + l.length + u.length := by
        rw [totalSize_sum, (hperm.map UParam.size).sum_eq]
        simp only [List.map_cons, List.map_nil, List.sum_cons, List.sum_nil]
        omega
      have lq := hlen _ _ _ _ hmq hq
      have lA := hlen _ _ _ _ hmA hA
      have ll := hlen _ _ _ _ hml hl
      have lu := hlen _ _ _ _ hmu hu
      have hfl : (A.filter fun x => x ≠ 0).length = A.length := by omega
      intro v hv x hx
      rw [hA] at hv
      cases hv
      have := List.length_filter_eq_length_iff.1 hfl x hx
      simpa using this
  · rintro ⟨ha, hz⟩
    obtain ⟨mP, hmP⟩ := Option.ne_none_iff_exists'.1 hP0
    obtain ⟨params', hp', hall⟩ := C26_generation_partial h1 θ hθ (by
      intro c hc
      simp only [List.mem_cons, List.not_mem_nil, or_false] at hc
      rcases hc with rfl | rfl | rfl | rfl | rfl
      exacts [⟨_, hmP⟩, ⟨_, hmq⟩, ⟨_, hmA⟩, ⟨_, hml⟩, ⟨_, hmu⟩]) hP ha hz
    rw [hp] at hp'
    cases hp'
    exact hall ps2 hperm ids2 maps2 h2 hm2

/-- **C26, exactly when there is an intermediate problem**: the quadratic part is present, diagonal and does not depend on parameters,
and the first stage has the other data. -/
theorem C26_params_iff (maps1 : CId → Option (RawMap R)) (diagonal : Bool) (θ : List R) :
    (∃ params, osqpParams maps1 diagonal θ = .ok params) ↔ mapChanges (maps1 .P) true = false ∧ maps1 .P ≠ none ∧ diagonal = true ∧
      ∀ c ∈ [CId.q, .A, .l, .u], (canonVal (maps1 c) c.isUpper θ).isSome = true := by
  constructor
  · rintro ⟨params, h⟩
    obtain ⟨a, b, c, q, A, l, u, hq, hA, hl, hu, -⟩ := osqpParams_eq h
    refine ⟨a, b, c, ?_⟩
    intro x hx
    simp only [List.mem_cons, List.not_mem_nil, or_false] at hx
    rcases hx with rfl | rfl | rfl | rfl <;> simp only [CId.isUpper, hq, hA, hl, hu, Option.isSome_some]
  · rintro ⟨a, b, rfl, hall⟩
    obtain ⟨q, hq⟩ := Option.isSome_iff_exists.1 (hall .q (by simp))
    obtain ⟨A, hA⟩ := Option.isSome_iff_exists.1 (hall .A (by simp))
    obtain ⟨l, hl⟩ := Option.isSome_iff_exists.1 (hall .l (by simp))
    obtain ⟨u, hu⟩ := Option.isSome_iff_exists.1 (hall .u (by simp))
    simp only [CId.isUpper] at hq hA hl hu
    refine ⟨[⟨"osqp_q", q.length⟩, ⟨"osqp_A", (A.filter fun x => x ≠ 0).length⟩, ⟨"osqp_l", l.length⟩, ⟨"osqp_u", u.length⟩], ?_⟩
    unfold osqpParams
    simp only [a, if_neg b, CId.isUpper, hq, hA, hl, hu]
    rfl

/-- The hypotheses are met for the problem of `C25_fails_constant`, with and without a zero. -/
example : osqpParams (mgMaps1 [(0, 2, 5)]) true [4, 7] = .ok [⟨"osqp_q", 1⟩, ⟨"osqp_A", 2⟩, ⟨"osqp_l", 1⟩, ⟨"osqp_u", 2⟩] ∧
    mgPs2.Perm [⟨"osqp_q", 1⟩, ⟨"osqp_A", 2⟩, ⟨"osqp_l", 1⟩, ⟨"osqp_u", 2⟩] ∧ WFInput mgPs2 [.c, .d, .G, .h] mgMaps2 ∧
    (∀ j < mgPs.length, adjacent mgPs (mgMaps1 [(0, 2, 5)] .P) j = false ∧ adjacent mgPs (mgMaps1 [(0, 2, 5)] .d) j = false) :=
  ⟨by decide, by decide, mgWF2, by decide⟩

end Verif.Props
