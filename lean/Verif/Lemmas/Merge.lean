import Verif.Spec.Merge
import Verif.Lemmas.Canon
/-!
Facts about merging two canonicalizations.
-/
namespace Verif.Lemmas.Merge
open Verif.Model Verif.Model.Merge Verif.Spec Verif.Spec.Merge Verif.Lemmas

variable {R : Type} [CommRing R]

theorem matmul_ok (A B : Sp R) (h : A.cols = B.rows) (hA : A.WF) (hB : B.WF) :
    ∃ M, matmul A B = .ok M ∧ M.rows = A.rows ∧ M.cols = B.cols ∧ M.WF ∧
      ∀ v i, mulVec M.cols M.at v i = mulVec A.cols A.at (mulVec B.cols B.at v) i := by
  unfold matmul
  rw [if_pos h]
  refine ⟨_, rfl, rfl, rfl, ?_, ?_⟩
  · intro e he
    simp only [List.mem_flatMap, List.mem_map, List.mem_filter] at he
    obtain ⟨a, ha, f, ⟨hf, _⟩, rfl⟩ := he
    exact ⟨(hA a ha).1, (hB f hf).2⟩
  · intro v i
    rw [mulVec_at _ _ v i, mulVec_at A hA]
    · have hB' : mulVec B.cols B.at v = fun k => rowDot (B.row k) v := by
        funext k; exact mulVec_at B hB v k
      rw [hB']
      unfold Sp.row rowDot
      simp only
      induction A.ents with
      | nil => rfl
      | cons a l ih =>
        rw [List.flatMap_cons, List.filter_append, List.map_append, List.sum_append, ih, List.filter_cons]
        by_cases hi : a.1 = i
        · rw [if_pos (by simpa using hi), List.map_cons, List.sum_cons]
          congr 1
          rw [List.filter_map]
          have : ((fun e : Nat × Nat × R => decide (e.1 = i)) ∘
              fun f : Nat × Nat × R => (a.1, f.2.1, a.2.2 * f.2.2)) = fun _ => true := by
            funext f; simp [hi]
          rw [this, List.filter_true, List.map_map, ← List.sum_map_mul_left]
          congr 1
          apply List.map_congr_left
          intro f _
          simp only [Function.comp]
          ring
        · rw [if_neg (by simpa using hi)]
          rw [List.filter_map]
          have : ((fun e : Nat × Nat × R => decide (e.1 = i)) ∘
              fun f : Nat × Nat × R => (a.1, f.2.1, a.2.2 * f.2.2)) = fun _ => false := by
            funext f; simp [hi]
          rw [this, List.filter_false]
          simp
    · intro e he
      simp only [List.mem_flatMap, List.mem_map, List.mem_filter] at he
      obtain ⟨a, ha, f, ⟨hf, _⟩, rfl⟩ := he
      exact ⟨(hA a ha).1, (hB f hf).2⟩

/-- All rows of a matrix times a vector. -/
def apply (A : Sp R) (v : Nat → R) : List R := (List.range A.rows).map (mulVec A.cols A.at v)

theorem vstack_wf (n : Nat) (l : List (Sp R)) (h : ∀ A ∈ l, A.WF ∧ A.cols = n) :
    (vstack n l).WF ∧ (vstack n l).cols = n := by
  induction l with
  | nil => exact ⟨by intro e he; simp [vstack] at he, rfl⟩
  | cons A l ih =>
    refine ⟨?_, rfl⟩
    obtain ⟨hA, hc⟩ := h A (by simp)
    have ih' := ih fun B hB => h B (by simp [hB])
    intro e he
    simp only [vstack, List.mem_append, List.mem_map] at he ⊢
    rcases he with he | ⟨f, hf, rfl⟩
    · have := hA e he
      exact ⟨by omega, by rw [← hc]; exact this.2⟩
    · have := ih'.1 f hf
      rw [ih'.2] at this
      exact ⟨by simp; omega, this.2⟩

theorem vstack_apply (n : Nat) (l : List (Sp R)) (h : ∀ A ∈ l, A.WF ∧ A.cols = n) (v : Nat → R) :
    apply (vstack n l) v = (l.map fun A => apply A v).flatten := by
  induction l with
  | nil => rfl
  | cons A l ih =>
    have hl : ∀ B ∈ l, B.WF ∧ B.cols = n := fun B hB => h B (by simp [hB])
    obtain ⟨hA, hc⟩ := h A (by simp)
    rw [List.map_cons, List.flatten_cons, ← ih hl]
    have hwf := vstack_wf n (A :: l) h
    have hwl := vstack_wf n l hl
    unfold apply
    have hrows : (vstack n (A :: l)).rows = A.rows + (vstack n l).rows := rfl
    rw [hrows, List.range_add, List.map_append, List.map_map]
    congr 1
    · apply List.map_congr_left
      intro i hi
      rw [mulVec_at _ hwf.1, mulVec_at A hA]
      congr 1
      unfold Sp.row
      simp only [vstack, List.filter_append]
      have hnil : ((vstack n l).ents.map fun e => (A.rows + e.1, e.2)).filter
          (fun e => decide (e.1 = i)) = [] := by
        apply List.filter_eq_nil_iff.mpr
        intro e he
        obtain ⟨f, hf, rfl⟩ := List.mem_map.mp he
        have := List.mem_range.mp hi
        simp
        omega
      rw [hnil, List.append_nil]
    · apply List.map_congr_left
      intro i hi
      simp only [Function.comp]
      rw [mulVec_at _ hwf.1, mulVec_at _ hwl.1]
      unfold Sp.row
      simp only [vstack, List.filter_append]
      have hnil : A.ents.filter (fun e => decide (e.1 = A.rows + i)) = [] := by
        apply List.filter_eq_nil_iff.mpr
        intro e he
        have := (hA e he).1
        simp
        omega
      rw [hnil, List.nil_append, List.filter_map]
      · have : ((fun e : Nat × Nat × R => decide (e.1 = A.rows + i)) ∘
            fun f : Nat × Nat × R => (A.rows + f.1, f.2)) = fun f => decide (f.1 = i) := by
          funext f; simp
        rw [this]
        unfold rowDot
        rw [List.map_map]
        rfl

theorem constantMap_wf (n m : Nat) (hm : 0 < m) (val : R) : (constantMap n m val).WF := by
  intro e he
  simp only [constantMap, List.mem_map, List.mem_range] at he ⊢
  obtain ⟨i, hi, rfl⟩ := he
  exact ⟨hi, by simp; omega⟩

theorem constantMap_apply (m : Nat) (val : R) (v : Nat → R) (hm : 0 < m) :
    apply (constantMap 1 m val) v = [val * v (m - 1)] := by
  unfold apply
  have : (constantMap 1 m val).rows = 1 := rfl
  rw [this]
  simp only [List.range_one, List.map_cons, List.map_nil]
  rw [mulVec_at _ (constantMap_wf 1 m hm val)]
  simp [Sp.row, constantMap, rowDot]

theorem canonicalizeC_apply (A : Sp R) (hA : A.WF) (params : List R) (hp : A.cols = params.length) :
    canonicalizeC A.rows A.toCsr params (List.replicate A.rows 0) = some (apply A (fn params)) := by
  obtain ⟨out, h1, h2, h3, _⟩ := canonicalizeC_ok A hA params (List.replicate A.rows 0)
    (by omega) (by simp)
  rw [h1]
  congr 1
  apply List.ext_getElem?
  intro i
  by_cases hi : i < A.rows
  · rw [h3 i hi]; simp [apply, hi]
  · rw [List.getElem?_eq_none (by rw [h2]; simp; omega), List.getElem?_eq_none (by simp [apply]; omega)]

theorem mapM_ok {ε α β : Type} (f : α → Except ε β) (g : α → β) (l : List α)
    (h : ∀ a ∈ l, f a = .ok (g a)) : l.mapM f = .ok (l.map g) := by
  induction l with
  | nil => rfl
  | cons a l ih =>
    rw [List.mapM_cons, h a (by simp), ih fun b hb => h b (by simp [hb])]
    rfl

theorem mapM_ok' {ε α β : Type} (f : α → Except ε β) (P : α → β → Prop) (l : List α)
    (h : ∀ a ∈ l, ∃ b, f a = .ok b ∧ P a b) : ∃ l', l.mapM f = .ok l' ∧ List.Forall₂ P l l' := by
  induction l with
  | nil => exact ⟨[], rfl, .nil⟩
  | cons a l ih =>
    obtain ⟨b, hb, hP⟩ := h a (by simp)
    obtain ⟨l', hl, hF⟩ := ih fun a ha => h a (by simp [ha])
    exact ⟨b :: l', by rw [List.mapM_cons, hb, hl]; rfl, .cons hP hF⟩

theorem colsFrom_ge (ps : List UParam) : ∀ (cum : Nat), ∀ e ∈ colsFrom cum ps, cum ≤ e.1 := by
  induction ps with
  | nil => intro cum e he; simp [colsFrom] at he
  | cons p ps ih =>
    intro cum e he
    rcases List.mem_cons.mp he with rfl | he
    · exact Nat.le_refl _
    · have := ih _ e he; omega

theorem colsFrom_sorted (ps : List UParam) :
    ∀ cum, (colsFrom cum ps).Pairwise fun a b => a.1 ≤ b.1 := by
  induction ps with
  | nil => intro cum; simp [colsFrom]
  | cons p ps ih =>
    intro cum
    simp only [colsFrom, List.pairwise_cons]
    refine ⟨fun e he => ?_, ih _⟩
    have := colsFrom_ge ps _ e he
    omega

theorem colsFrom_names (ps : List UParam) : ∀ cum, (colsFrom cum ps).map (fun e => e.2) = ps.map UParam.name := by
  induction ps with
  | nil => intro cum; rfl
  | cons p ps ih => intro cum; simp [colsFrom, ih]

theorem sortedNames_eq (ps : List UParam) (hn : (ps.map UParam.name).Nodup)
    (hpos : ∀ p ∈ ps, 0 < p.size) : sortedNames ps = ps.map UParam.name := by
  unfold sortedNames
  rw [colToName_eq ps hn hpos]
  have := List.Pairwise.insertionSort_eq (r := fun a b : Nat × String => a.1 ≤ b.1) (colsFrom_sorted ps 0)
  rw [this, colsFrom_names]

theorem drop5_osqp (s : String) : drop5 ("osqp_" ++ s) = s := by
  unfold drop5
  rw [String.toList_append]
  show String.ofList (("osqp_".toList ++ s.toList).drop 5) = s
  have : "osqp_".toList = ['o', 's', 'q', 'p', '_'] := by decide
  rw [this]
  simp

theorem osqp_inj (s t : String) (h : "osqp_" ++ s = "osqp_" ++ t) : s = t := by
  rw [← drop5_osqp s, h, drop5_osqp]

theorem idName_inj : ∀ c ∈ ids1, ∀ c' ∈ ids1, idName c = idName c' → c = c' := by decide

theorem find_idName : ∀ c ∈ ids1, ids1.find? (fun c' => idName c' == idName c) = some c := by decide

variable [DecidableEq R]

theorem firstMap_eq (maps1 : CId → Option (RawMap R)) (c : CId) (hc : c ∈ ids1) (m : RawMap R)
    (hm : maps1 c = some m) : firstMap maps1 (idName c) = .ok (m.final c.isUpper) := by
  unfold firstMap
  rw [find_idName c hc]
  simp only [hm]

/-- Sizes and values of the stacked blocks. -/
theorem flatten_block (ps : List UParam) (L : List (List R))
    (h : List.Forall₂ (fun (p : UParam) (v : List R) => v.length = p.size) ps L) :
    L.flatten.length = totalSize ps ∧ ∀ (j : Nat) (hj : j < ps.length) (hj' : j < L.length),
      (L.flatten.drop (colOf ps j)).take ps[j].size = L[j] := by
  induction h with
  | nil => exact ⟨rfl, fun j hj => by simp at hj⟩
  | @cons p v ps L hp hF ih =>
    constructor
    · simp [totalSize, hp, ih.1, List.flatten_cons]
    · intro j hj hj'
      cases j with
      | zero =>
        simp [colOf, List.flatten_cons, ← hp]
      | succ j =>
        have hc : colOf (p :: ps) (j + 1) = v.length + colOf ps j := by
          simp [colOf, hp]
        rw [hc, List.flatten_cons, List.drop_append]
        simp only [List.getElem_cons_succ]
        have := ih.2 j (by simpa using hj) (by simpa using hj')
        rw [← this]
        rw [List.drop_eq_nil_of_le (by omega), List.nil_append]
        congr 2
        omega

theorem canonVal_apply (m : RawMap R) (u : Bool) (θ : List R) (hc : m.mapping.cols = θ.length + 1) :
    canonVal (some m) u θ = some (apply (m.final u) (fn (θ ++ [1]))) := by
  rw [canonVal_eq m u θ hc]
  unfold apply
  rw [final_cols]

/-- A block of `map_first` belongs to a canonical parameter of the first stage. -/
def BlockOf (maps1 : CId → Option (RawMap R)) (s : String) (B : Sp R) : Prop :=
  ∃ c ∈ ids1, ∃ m, maps1 c = some m ∧ s = "osqp_" ++ idName c ∧ B = m.final c.isUpper

theorem mapFirst_ok {ps1 : List UParam} {maps1 : CId → Option (RawMap R)} (h1 : WFInput ps1 ids1 maps1)
    {ids2 : List CId} {maps2 : CId → Option (RawMap R)} {ps2 : List UParam}
    (h2 : WFInput ps2 ids2 maps2) (hf : Fits maps1 ids2 maps2 ps2) :
    ∃ F, mapFirst maps1 ps2 (totalSize ps1 + 1) = .ok F ∧ F.WF ∧ F.cols = totalSize ps1 + 1 ∧
      F.rows = totalSize ps2 + 1 ∧ ∀ θ : List R, θ.length = totalSize ps1 →
        ∃ θ2, IsQpVector maps1 ps2 θ θ2 ∧ apply F (fn (θ ++ [1])) = θ2 ++ [1] := by
  have hblocks : ∀ s ∈ sortedNames ps2, ∃ B, firstMap maps1 (drop5 s) = .ok B ∧ BlockOf maps1 s B := by
    rw [sortedNames_eq ps2 h2.names h2.sizes]
    intro s hs
    obtain ⟨p, hp, rfl⟩ := List.mem_map.mp hs
    obtain ⟨c, hc, m, hm, hn, _⟩ := hf.params p hp
    refine ⟨m.final c.isUpper, ?_, c, hc, m, hm, hn, rfl⟩
    rw [hn, drop5_osqp]
    exact firstMap_eq maps1 c hc m hm
  obtain ⟨L, hL, hF⟩ := mapM_ok' _ _ _ hblocks
  rw [sortedNames_eq ps2 h2.names h2.sizes, List.forall₂_map_left_iff] at hF
  have hcols : ∀ c m, maps1 c = some m → (m.final c.isUpper).cols = totalSize ps1 + 1 := by
    intro c m hm
    rw [final_cols]; exact h1.cols c m hm
  have hLw : ∀ B ∈ L, B.WF ∧ B.cols = totalSize ps1 + 1 := by
    intro B hB
    obtain ⟨i, hi, rfl⟩ := List.getElem_of_mem hB
    have hi' : i < ps2.length := by rw [hF.length_eq]; exact hi
    obtain ⟨c, hc, m, hm, _, hBm⟩ := hF.get hi' hi
    simp only [List.get_eq_getElem] at hBm
    rw [hBm]
    exact ⟨final_wf _ _, hcols c m hm⟩
  have hall : ∀ B ∈ L ++ [constantMap 1 (totalSize ps1 + 1) (1 : R)], B.WF ∧ B.cols = totalSize ps1 + 1 := by
    intro B hB
    rcases List.mem_append.mp hB with hB | hB
    · exact hLw B hB
    · rw [List.mem_singleton.mp hB]
      exact ⟨constantMap_wf _ _ (by omega) _, rfl⟩
  refine ⟨vstack (totalSize ps1 + 1) (L ++ [constantMap 1 (totalSize ps1 + 1) 1]), ?_, (vstack_wf _ _ hall).1,
    (vstack_wf _ _ hall).2, ?_, ?_⟩
  · unfold mapFirst
    rw [hL]
    show (if _ then _ else _) = _
    rw [if_pos]
    rw [List.all_eq_true]
    intro B hB
    simpa using (hall B hB).2
  · have hrows : ∀ (l : List (Sp R)), (vstack (totalSize ps1 + 1) l).rows = (l.map Sp.rows).sum := by
      intro l
      induction l with
      | nil => rfl
      | cons A l ih => simp [vstack, ih]
    rw [hrows, List.map_append, List.sum_append]
    have : L.map Sp.rows = ps2.map UParam.size := by
      apply List.ext_getElem
      · simp [hF.length_eq]
      · intro i hi hi'
        simp only [List.length_map] at hi hi'
        obtain ⟨c, hc, m, hm, hn, hBm⟩ := hF.get hi' hi
        obtain ⟨c', hc', m', hm', hn', hs⟩ := hf.params ps2[i] (List.getElem_mem hi')
        simp only [List.get_eq_getElem] at hBm hn
        have : c' = c := idName_inj c' hc' c hc (osqp_inj _ _ (hn'.symm.trans hn))
        subst this
        rw [hm'] at hm
        cases hm
        simp [hBm, hs]
    rw [this]
    simp [constantMap, totalSize]
  · intro θ hθ
    rw [vstack_apply _ _ hall, List.map_append, List.flatten_append]
    refine ⟨(L.map fun A => apply A (fn (θ ++ [1]))).flatten, ?_, ?_⟩
    · have hsz : List.Forall₂ (fun (p : UParam) (v : List R) => v.length = p.size) ps2
          (L.map fun A => apply A (fn (θ ++ [1]))) := by
        rw [List.forall₂_map_right_iff]
        apply List.forall₂_iff_get.mpr
        refine ⟨hF.length_eq, fun i hi hi' => ?_⟩
        obtain ⟨c, hc, m, hm, hn, hBm⟩ := hF.get hi hi'
        obtain ⟨c', hc', m', hm', hn', hs⟩ := hf.params ps2[i] (List.getElem_mem hi)
        simp only [List.get_eq_getElem] at hBm hn ⊢
        have : c' = c := idName_inj c' hc' c hc (osqp_inj _ _ (hn'.symm.trans hn))
        subst this
        rw [hm'] at hm
        cases hm
        simp [hBm, hs, apply]
      obtain ⟨hlen, hblk⟩ := flatten_block ps2 _ hsz
      refine ⟨hlen, fun j hj c hc hn => ?_⟩
      have hj' : j < L.length := by rw [← hF.length_eq]; exact hj
      rw [hblk j hj (by simpa using hj')]
      obtain ⟨c', hc', m, hm, hn', hBm⟩ := hF.get hj hj'
      simp only [List.get_eq_getElem] at hBm hn'
      have : c' = c := idName_inj c' hc' c hc (osqp_inj _ _ (hn'.symm.trans hn))
      subst this
      rw [hm, canonVal_apply m _ θ (by rw [hθ]; exact h1.cols _ m hm)]
      simp [hBm]
    · congr 1
      simp only [List.map_cons, List.map_nil, List.flatten_cons, List.flatten_nil, List.append_nil]
      rw [constantMap_apply _ _ _ (by omega)]
      simp [fn, List.getD, ← hθ]

theorem lookup_forall₂ {α β : Type} [DecidableEq α] {P : α → β → Prop} {l : List α} {l' : List (α × β)}
    (h : List.Forall₂ (fun a kv => kv.1 = a ∧ P a kv.2) l l') (a : α) :
    (a ∈ l → ∃ b, l'.lookup a = some b ∧ P a b) ∧ (a ∉ l → l'.lookup a = none) := by
  induction h with
  | nil => simp
  | @cons x kv l l' hx _ ih =>
    obtain ⟨k, v⟩ := kv
    obtain ⟨hk, hP⟩ := hx
    simp only at hk hP
    subst hk
    rw [List.lookup_cons]
    by_cases hak : a = k
    · subst hak
      simp only [beq_self_eq_true]
      exact ⟨fun _ => ⟨v, rfl, hP⟩, fun h => absurd (List.mem_cons_self) h⟩
    · simp only [beq_eq_false_iff_ne.mpr hak]
      constructor
      · intro hm
        rcases List.mem_cons.mp hm with h | h
        · exact absurd h hak
        · exact ih.1 h
      · intro hm
        exact ih.2 fun h => hm (List.mem_cons_of_mem _ h)

/-- Every canonical parameter of the first stage that a user parameter touches is a parameter of the
second problem. -/
def Reached (ps1 : List UParam) (maps1 : CId → Option (RawMap R)) (ps2 : List UParam) : Prop :=
  ∀ j < ps1.length, ∀ c ∈ ids1, adjacent ps1 (maps1 c) j = true → ∃ p ∈ ps2, p.name = "osqp_" ++ idName c

theorem mergedMarks_ok {ids2 : List CId} {maps2 : CId → Option (RawMap R)} {ps2 : List UParam}
    (h2 : WFInput ps2 ids2 maps2) (cs : List CId)
    (h : ∀ c ∈ cs, ∃ p ∈ ps2, p.name = "osqp_" ++ idName c) :
    ∃ l, mergedMarks (outdatedOf ps2 ids2 maps2) cs = .ok l ∧ ∀ c, c ∈ l ↔
      ∃ c1 ∈ cs, ∃ k, ∃ hk : k < ps2.length, ps2[k].name = "osqp_" ++ idName c1 ∧ c ∈ ids2 ∧
        adjacent ps2 (maps2 c) k = true := by
  have hl : ∀ c ∈ cs, ∃ l, marksOf (outdatedOf ps2 ids2 maps2) c = .ok l ∧
      (∀ c', c' ∈ l ↔ ∃ k, ∃ hk : k < ps2.length, ps2[k].name = "osqp_" ++ idName c ∧ c' ∈ ids2 ∧
        adjacent ps2 (maps2 c') k = true) := by
    intro c hc
    obtain ⟨p, hp, hn⟩ := h c hc
    obtain ⟨k, hk, rfl⟩ := List.getElem_of_mem hp
    unfold marksOf
    rw [← hn, outdated_lookup ps2 h2.names ids2 maps2 k hk]
    refine ⟨_, rfl, fun c' => ?_⟩
    rw [List.mem_filter]
    constructor
    · rintro ⟨h3, h4⟩
      exact ⟨k, hk, rfl, h3, h4⟩
    · rintro ⟨k', hk', hn', h3, h4⟩
      have : k' = k := by
        have hnd := h2.names
        have e : (ps2.map UParam.name)[k']'(by simpa using hk') = (ps2.map UParam.name)[k]'(by simpa using hk) := by
          simpa using hn'
        exact (List.Nodup.getElem_inj_iff hnd).mp e
      subst this
      exact ⟨h3, h4⟩
  obtain ⟨ls, hls, hF⟩ := mapM_ok' _ _ _ hl
  refine ⟨ls.flatten.dedup, ?_, fun c => ?_⟩
  · unfold mergedMarks
    rw [hls]
    rfl
  · rw [List.mem_dedup, List.mem_flatten]
    constructor
    · rintro ⟨l, hl', hcl⟩
      obtain ⟨i, hi, rfl⟩ := List.getElem_of_mem hl'
      have hi' : i < cs.length := by rw [hF.length_eq]; exact hi
      exact ⟨cs[i], List.getElem_mem hi', ((hF.get hi' hi) c).mp hcl⟩
    · rintro ⟨c1, hc1, hex⟩
      obtain ⟨i, hi, rfl⟩ := List.getElem_of_mem hc1
      have hi' : i < ls.length := by rw [← hF.length_eq]; exact hi
      exact ⟨ls[i], List.getElem_mem hi', ((hF.get hi hi') c).mpr hex⟩

/-- Merging succeeds; the merged maps compute the composition; the merged marks are the composed
relation. -/
theorem merge_ok {ps1 : List UParam} {maps1 : CId → Option (RawMap R)} (h1 : WFInput ps1 ids1 maps1)
    {ids2 : List CId} {maps2 : CId → Option (RawMap R)} {ps2 : List UParam}
    (h2 : WFInput ps2 ids2 maps2) (hf : Fits maps1 ids2 maps2 ps2) (hr : Reached ps1 maps1 ps2) :
    ∃ M, merge ps1 maps1 ids2 maps2 ps2 = .ok M ∧
      (∀ θ : List R, θ.length = totalSize ps1 → ∃ θ2, IsQpVector maps1 ps2 θ θ2 ∧
        ∀ c, mergedVal M c θ = canonVal (maps2 c) c.isUpper θ2) ∧
      ∀ (j : Nat) (hj : j < ps1.length), ∃ marked, M.outdated.lookup ps1[j].name = some marked ∧
        ∀ c, c ∈ marked ↔ ∃ c1 ∈ ids1, adjacent ps1 (maps1 c1) j = true ∧ ∃ k, ∃ hk : k < ps2.length,
          ps2[k].name = "osqp_" ++ idName c1 ∧ c ∈ ids2 ∧ adjacent ps2 (maps2 c) k = true := by
  obtain ⟨F, hF, hFw, hFc, hFr, hFv⟩ := mapFirst_ok h1 h2 hf
  have hmaps : ∀ c ∈ ids2, ∃ kv, mergedMap maps2 F c = .ok kv ∧ (kv.1 = c ∧
      ∃ m, maps2 c = some m ∧ kv.2.WF ∧ kv.2.rows = (m.final c.isUpper).rows ∧ kv.2.cols = F.cols ∧
        ∀ v i, mulVec kv.2.cols kv.2.at v i
          = mulVec (m.final c.isUpper).cols (m.final c.isUpper).at (mulVec F.cols F.at v) i) := by
    intro c hc
    obtain ⟨m, hm⟩ := hf.maps c hc
    obtain ⟨M, hM, hMr, hMc, hMw, hMv⟩ := matmul_ok (m.final c.isUpper) F
      (by rw [final_cols, h2.cols c m hm, hFr]) (final_wf _ _) hFw
    refine ⟨(c, M), ?_, rfl, m, hm, hMw, hMr, hMc, hMv⟩
    unfold mergedMap
    simp only [hm, hM]
    rfl
  obtain ⟨maps, hmaps', hFm⟩ := mapM_ok' _ _ _ hmaps
  have hout : ∀ kv ∈ outdatedOf ps1 ids1 maps1, ∃ kv', (mergedMarks (outdatedOf ps2 ids2 maps2) kv.2).map
      (fun l => (kv.1, l)) = .ok kv' ∧ (kv'.1 = kv.1 ∧ ∀ c, c ∈ kv'.2 ↔
      ∃ c1 ∈ kv.2, ∃ k, ∃ hk : k < ps2.length, ps2[k].name = "osqp_" ++ idName c1 ∧ c ∈ ids2 ∧
        adjacent ps2 (maps2 c) k = true) := by
    intro kv hkv
    have hmem : ∃ j, j < ps1.length ∧ kv.2 = ids1.filter fun c => adjacent ps1 (maps1 c) j := by
      unfold outdatedOf at hkv
      rw [dictOf_nodup] at hkv
      · obtain ⟨pj, hpj, rfl⟩ := List.mem_map.mp hkv
        have := List.mem_zipIdx hpj
        exact ⟨pj.2, by omega, rfl⟩
      · rw [List.map_map]
        have : (Prod.fst ∘ fun pj : UParam × Nat => (pj.1.name, ids1.filter fun c => adjacent ps1 (maps1 c) pj.2))
            = UParam.name ∘ Prod.fst := rfl
        rw [this, ← List.map_map, List.zipIdx_map_fst]; exact h1.names
    obtain ⟨j, hj, he⟩ := hmem
    obtain ⟨l, hl, hl'⟩ := mergedMarks_ok h2 kv.2 (by
      intro c hc
      rw [he] at hc
      obtain ⟨hc1, hc2⟩ := List.mem_filter.mp hc
      exact hr j hj c hc1 hc2)
    refine ⟨(kv.1, l), ?_, rfl, hl'⟩
    rw [hl]
    rfl
  have hlk := fun c => lookup_forall₂ (P := fun c (A : Sp R) =>
    ∃ m, maps2 c = some m ∧ A.WF ∧ A.rows = (m.final c.isUpper).rows ∧ A.cols = F.cols ∧
        ∀ v i, mulVec A.cols A.at v i
          = mulVec (m.final c.isUpper).cols (m.final c.isUpper).at (mulVec F.cols F.at v) i) hFm c
  obtain ⟨out, hout', hFo⟩ := mapM_ok' _ _ _ hout
  refine ⟨⟨maps, out⟩, ?_, ?_, ?_⟩
  · unfold merge
    simp only [hF, bind, Except.bind, hmaps', hout']
  · intro θ hθ
    obtain ⟨θ2, hq, hv⟩ := hFv θ hθ
    refine ⟨θ2, hq, fun c => ?_⟩
    unfold mergedVal
    by_cases hc : c ∈ ids2
    · obtain ⟨A, hA, m, hm, hAw, hAr, hAc, hAv⟩ := (hlk c).1 hc
      simp only [hA, Option.bind_some]
      rw [canonicalizeC_apply A hAw _ (by rw [hAc, hFc]; simp [hθ]), hm,
        canonVal_apply m _ θ2 (by rw [hq.length]; exact h2.cols c m hm)]
      congr 1
      unfold apply
      rw [hAr]
      apply List.map_congr_left
      intro i _
      rw [hAv]
      unfold mulVec
      apply Finset.sum_congr rfl
      intro k hk
      congr 1
      have hk' : k < F.rows := by
        rw [hFr, ← h2.cols c m hm, ← final_cols m c.isUpper]
        exact Finset.mem_range.mp hk
      rw [← hv]
      simp only [fn, apply, List.getD]
      rw [List.getElem?_map, List.getElem?_range hk']
      rfl
    · rw [(hlk c).2 hc, h2.other c hc]
      rfl
  · intro j hj
    have hlook := outdated_lookup ps1 h1.names ids1 maps1 j hj
    have hkeys : ∀ (l : List (String × List CId)) (l' : List (String × List CId)),
        List.Forall₂ (fun kv kv' => kv'.1 = kv.1 ∧ ∀ c, c ∈ kv'.2 ↔
          ∃ c1 ∈ kv.2, ∃ k, ∃ hk : k < ps2.length, ps2[k].name = "osqp_" ++ idName c1 ∧ c ∈ ids2 ∧
            adjacent ps2 (maps2 c) k = true) l l' → ∀ s v, l.lookup s = some v → ∃ v', l'.lookup s = some v' ∧
          ∀ c, c ∈ v' ↔ ∃ c1 ∈ v, ∃ k, ∃ hk : k < ps2.length, ps2[k].name = "osqp_" ++ idName c1 ∧ c ∈ ids2 ∧
            adjacent ps2 (maps2 c) k = true := by
      intro l l' h
      induction h with
      | nil => intro s v h; cases h
      | @cons a b l l' hab _ ih =>
        intro s v hv
        obtain ⟨a1, a2⟩ := a
        obtain ⟨b1, b2⟩ := b
        obtain ⟨h3, h4⟩ := hab
        simp only at h3 h4
        subst h3
        rw [List.lookup_cons] at hv ⊢
        by_cases hs : s = b1
        · subst hs
          simp only [beq_self_eq_true, Option.some.injEq] at hv
          subst hv
          exact ⟨b2, by simp, h4⟩
        · simp only [beq_eq_false_iff_ne.mpr hs] at hv ⊢
          exact ih s v hv
    obtain ⟨marked, hm1, hm2⟩ := hkeys _ _ hFo _ _ hlook
    refine ⟨marked, hm1, fun c => ?_⟩
    rw [hm2 c]
    constructor
    · rintro ⟨c1, hc1, hk⟩
      obtain ⟨ha, hb⟩ := List.mem_filter.mp hc1
      exact ⟨c1, ha, hb, hk⟩
    · rintro ⟨c1, ha, hb, hk⟩
      exact ⟨c1, List.mem_filter.mpr ⟨ha, hb⟩, hk⟩

end Verif.Lemmas.Merge
