import Verif.Lemmas.Index
import Verif.Props.Canon
import Mathlib.Order.Defs.LinearOrder
/-!
# C95: update functions and indices outside of the parameter

The update functions do not check their index. For in-range indices exactly the named entry changes; all other calls
change another parameter without announcing it, the constant 1 behind all affine maps, or memory outside of the array.
-/
namespace Verif.Props
open Verif.Model Verif.Model.Index Verif.Spec Verif.Spec.Index Verif.Lemmas Verif.Lemmas.Index

variable {R : Type}

/-- **C95** For all histories of calls with any indices: the array behind the update functions holds the data one gets
by letting each call change the entry at which one arrives when walking `idx` entries to the right of the first entry of
its parameter (to the left if negative), through the neighbouring parameters up to the constant; a memory error occurs
exactly if this leaves the array. -/
theorem C95_any_index [CommRing R] [DecidableEq R] {ps : List UParam} {ids : List CId}
    {maps : CId → Option (RawMap R)} (hw : WFInput ps ids maps) (us : List (Use R)) (hu : ∀ u ∈ us, Known ps u)
    (θ0 : List (List R)) (hθ : θ0.map List.length = ps.map UParam.size) :
    (Index.run ps ids maps (Index.init maps θ0.flatten) (us.map (opOf ps))).map St.vec =
      (track (ps.map UParam.size) ⟨θ0, 1⟩ us).map Data.flat :=
  run_track hw us _ ⟨θ0, 1⟩ hu hθ rfl

/-- **C95** A call leaves everything but its own parameter as it is (for all contents of the array and all values) if and
only if its index is in range. -/
theorem C95_own_iff_in_range [Nontrivial R] {ps : List UParam} (hn : (ps.map UParam.name).Nodup)
    (hpos : ∀ p ∈ ps, 0 < p.size) (j : Nat) (hj : j < ps.length) (idx : Int) :
    (∀ (vec : List R) (val : R), vec.length = totalSize ps + 1 →
      ∃ vec', updateZ ps ⟨(ps[j]).name, idx, val⟩ vec = some vec' ∧ ∀ k, ¬ Owns ps j k → vec'[k]? = vec[k]?) ↔
    0 ≤ idx ∧ idx < (ps[j]).size := by
  have hend : colOf ps j + (ps[j]).size ≤ totalSize ps := by
    have h1 := colOf_succ ps j hj
    have h2 := colOf_mono ps (i := j + 1) (j := ps.length) (by omega) (Nat.le_refl _)
    rw [colOf_length] at h2
    omega
  constructor
  · intro h
    obtain ⟨x, y, hxy⟩ := exists_pair_ne R
    obtain ⟨vec', h1, h2⟩ := h (List.replicate (totalSize ps + 1) x) y (by simp)
    rw [updateZ_eq hn hpos j hj] at h1
    unfold storeZ store at h1
    by_contra hout
    by_cases h0 : 0 ≤ ((colOf ps j : Nat) : Int) + idx
    · rw [if_pos h0] at h1
      by_cases h3 : (((colOf ps j : Nat) : Int) + idx).toNat < (List.replicate (totalSize ps + 1) x).length
      · rw [if_pos h3] at h1
        have h4 := h2 (((colOf ps j : Nat) : Int) + idx).toNat (by
          rintro ⟨_, h5, h6⟩
          exact hout ⟨by omega, by omega⟩)
        rw [← Option.some.inj h1, List.getElem?_set_self h3, List.getElem?_eq_getElem h3, List.getElem_replicate] at h4
        exact hxy (Option.some.inj h4).symm
      · rw [if_neg h3] at h1; cases h1
    · rw [if_neg h0] at h1; cases h1
  · rintro ⟨h1, h2⟩ vec val hl
    refine ⟨vec.set (((colOf ps j : Nat) : Int) + idx).toNat val, ?_, ?_⟩
    · rw [updateZ_eq hn hpos j hj]
      unfold storeZ store
      rw [if_pos (by omega), if_pos (by omega)]
    · intro k hk
      rw [List.getElem?_set_ne]
      rintro rfl
      exact hk ⟨hj, by omega, by omega⟩

/-- A call marks all canonical parameters that depend on the parameter it changes. -/
def Announced (ps : List UParam) (maps : CId → Option (RawMap R)) : Use R → Prop
  | .set j idx _ => j < ps.length ∧ ∃ j' i, target (ps.map UParam.size) j idx = .entry j' i ∧
      ∀ c, adjacent ps (maps c) j' = true → adjacent ps (maps c) j = true
  | .solve => True

theorem announced_run [CommRing R] [DecidableEq R] {ps : List UParam} {ids : List CId}
    {maps : CId → Option (RawMap R)} (hw : WFInput ps ids maps) : ∀ (us : List (Use R)) (s : St R) (d : Data R),
      (∀ u ∈ us, Announced ps maps u) → Shaped ps d → d.one = 1 → s.vec = d.flat →
      (∀ c, (mapChanges (maps c) c.isUpper = true ∧ s.flags c = true) ∨
        s.canon c = canonVal (maps c) c.isUpper d.params.flatten) →
      ∃ s' d', Index.run ps ids maps s (us.map (opOf ps)) = some s' ∧ track (ps.map UParam.size) d us = some d' ∧
        Shaped ps d' ∧ d'.one = 1 ∧ s'.vec = d'.flat ∧
        (∀ c, (mapChanges (maps c) c.isUpper = true ∧ s'.flags c = true) ∨
          s'.canon c = canonVal (maps c) c.isUpper d'.params.flatten) := by
  intro us
  induction us with
  | nil => intro s d _ hd h1 hs hc; exact ⟨s, d, rfl, rfl, hd, h1, hs, hc⟩
  | cons u us ih =>
    intro s d hu hd h1 hs hc
    have hu' := fun w hw' => hu w (List.mem_cons_of_mem _ hw')
    have hθ := hd.total
    cases u with
    | solve =>
      rw [List.map_cons]
      simp only [Index.run, track]
      show ∃ s' d', ((Index.step ps ids maps s .solve).bind fun s => Index.run ps ids maps s (us.map (opOf ps))) = some s' ∧ _
      simp only [Index.step, Option.bind_some]
      refine ih _ d hu' hd h1 (by exact hs) ?_
      intro c
      right
      by_cases hcf : mapChanges (maps c) c.isUpper = true ∧ s.flags c = true
      · simp only [hcf.1, hcf.2, Bool.and_self, if_true]
        unfold canonVal
        rw [hs]
        unfold Data.flat
        rw [h1]
        rfl
      · have h2 : (mapChanges (maps c) c.isUpper && s.flags c) = false := by
          cases h3 : mapChanges (maps c) c.isUpper <;> cases h4 : s.flags c <;> simp_all
        simp only [h2, Bool.false_eq_true, if_false]
        exact (hc c).resolve_left hcf
    | set j idx v =>
      obtain ⟨hj, j', i, ht, hdep⟩ : Announced ps maps (.set j idx v) := hu _ List.mem_cons_self
      obtain ⟨hj', hi', -⟩ := target_entry j hj idx j' i ht
      rw [List.map_cons]
      simp only [Index.run, track]
      rw [step_set hw s d hd hs j hj, ht]
      simp only [Target.write, Option.map_some, Option.bind_some]
      apply ih _ (d.setEntry j' i v) hu' (hd.setEntry _ _ _) h1 rfl
      intro c
      obtain ⟨hlt, hset⟩ := setEntry_flatten hd j' i hj' hi' v
      simp only
      rcases hc c with ⟨ha, hb⟩ | ha
      · left; exact ⟨ha, by rw [hb, Bool.or_true]⟩
      · cases hm : maps c with
        | none => right; rw [ha, hm]; rfl
        | some m =>
          have hcols := hw.cols c m hm
          by_cases hadj : adjacent ps (maps c) j = true
          · by_cases hch : mapChanges (maps c) c.isUpper = true
            · left
              rw [← hm]
              refine ⟨hch, ?_⟩
              have hid : c ∈ ids := by
                by_contra hid
                rw [hw.other c hid] at hm; cases hm
              have : (ids.filter fun c => adjacent ps (maps c) j).contains c = true := by
                rw [List.contains_iff_mem]
                exact List.mem_filter.mpr ⟨hid, hadj⟩
              rw [this, Bool.true_or]
            · right
              rw [ha, hm]
              apply canonVal_const m c.isUpper _ _ (by rw [hθ]; exact hcols) (by rw [hset, List.length_set])
              rw [hm] at hch
              simpa [mapChanges] using hch
          · right
            rw [ha, hm, hset]
            symm
            apply canonVal_set m c.isUpper _ _ _ (by rw [hθ]; exact hcols) (by rw [hθ]; exact hlt)
            have hadj' : ¬ adjacent ps (maps c) j' = true := fun h => hadj (hdep c h)
            simp only [adjacent, hm, decide_eq_true_eq] at hadj'
            intro e he hek
            apply nnzCols_zero _ _ _ hadj' e he
            rw [colOf_succ ps j' hj']
            omega

/-- **C95** Calls whose index is out of range are harmless to the freshness of canonical data exactly as far as the
neighbour they hit is announced: for all histories in which every call marks the canonical parameters that depend on the
parameter it changes, no memory error occurs and every canonical parameter at a solve is that of the current data. -/
theorem C95_announced_calls_are_fresh [CommRing R] [DecidableEq R] {ps : List UParam} {ids : List CId}
    {maps : CId → Option (RawMap R)} (hw : WFInput ps ids maps) (us : List (Use R))
    (hu : ∀ u ∈ us, Announced ps maps u) (θ0 : List (List R)) (hθ : θ0.map List.length = ps.map UParam.size) :
    ∃ s d, Index.run ps ids maps (Index.init maps θ0.flatten) ((us ++ [Use.solve]).map (opOf ps)) = some s ∧
      track (ps.map UParam.size) ⟨θ0, 1⟩ us = some d ∧ s.vec = d.flat ∧ d.one = 1 ∧
      ∀ c, s.canon c = canonVal (maps c) c.isUpper d.params.flatten := by
  obtain ⟨s, d, h1, h2, h3, h4, h5, h6⟩ := announced_run hw us (Index.init maps θ0.flatten) ⟨θ0, 1⟩ hu hθ rfl rfl
    (fun c => Or.inr rfl)
  have happ : ∀ (us vs : List (Op R)) (s : St R),
      Index.run ps ids maps s (us ++ vs) = (Index.run ps ids maps s us).bind fun s => Index.run ps ids maps s vs := by
    intro us vs
    induction us with
    | nil => intro s; rfl
    | cons u us ih =>
      intro s
      show (Index.step ps ids maps s u).bind (fun s => Index.run ps ids maps s (us ++ vs)) = _
      simp only [Index.run]
      cases Index.step ps ids maps s u with
      | none => rfl
      | some s1 => exact ih s1
  rw [List.map_append, happ, h1]
  refine ⟨_, d, rfl, h2, h5, h4, ?_⟩
  intro c
  simp only
  by_cases hcf : mapChanges (maps c) c.isUpper = true ∧ s.flags c = true
  · simp only [hcf.1, hcf.2, Bool.and_self, if_true]
    unfold canonVal
    rw [h5]
    unfold Data.flat
    rw [h4]
    rfl
  · have h7 : (mapChanges (maps c) c.isUpper && s.flags c) = false := by
      cases h8 : mapChanges (maps c) c.isUpper <;> cases h9 : s.flags c <;> simp_all
    simp only [h7, Bool.false_eq_true, if_false]
    exact (h6 c).resolve_left hcf

/-- **C95** In-range calls are announced. -/
theorem C95_in_range_is_announced [Zero R] {ps : List UParam} (maps : CId → Option (RawMap R)) (u : Use R)
    (h : InRange (ps.map UParam.size) u) : Announced ps maps u := by
  cases u with
  | solve => trivial
  | set j idx v =>
    obtain ⟨s, hs, h1, h2⟩ := h
    obtain ⟨hj, hs'⟩ := List.getElem?_eq_some_iff.mp hs
    have hj' : j < ps.length := by simpa using hj
    have hsz : (ps[j]).size = s := by simpa using hs'
    refine ⟨hj', j, idx.toNat, ?_, fun c h => h⟩
    have := target_own j hj' idx.toNat (by omega)
    rwa [show ((idx.toNat : Nat) : Int) = idx by omega] at this

/-- **C95** Once the constant has been overwritten by `v`, no in-range call restores it: for all later histories of
in-range calls, every canonical parameter that is recomputed at the next solve has its constant part multiplied by `v`. -/
theorem C95_constant_stays_wrong [CommRing R] [DecidableEq R] {ps : List UParam} {ids : List CId}
    {maps : CId → Option (RawMap R)} (hw : WFInput ps ids maps) (us : List (Use R))
    (hu : ∀ u ∈ us, InRange (ps.map UParam.size) u) (s : St R) (d : Data R) (hd : Shaped ps d) (hs : s.vec = d.flat) :
    ∃ s' d' s'', Index.run ps ids maps s (us.map (opOf ps)) = some s' ∧
      track (ps.map UParam.size) d us = some d' ∧ s'.vec = d'.flat ∧ d'.one = d.one ∧
      Index.step ps ids maps s' .solve = some s'' ∧
      ∀ c m, maps c = some m → mapChanges (maps c) c.isUpper = true → s'.flags c = true →
        s''.canon c = some ((if c.isUpper then nonzeroRows m.signed else List.range m.mapping.rows).map fun r =>
          ∑ j ∈ Finset.range (totalSize ps), (m.mapping.at r j * m.sign r) * fn d'.params.flatten j
            + (m.mapping.at r (totalSize ps) * m.sign r) * d.one) := by
  have hrun : ∀ (us : List (Use R)) (s : St R) (d : Data R), (∀ u ∈ us, InRange (ps.map UParam.size) u) → Shaped ps d →
      s.vec = d.flat → ∃ s' d', Index.run ps ids maps s (us.map (opOf ps)) = some s' ∧
        track (ps.map UParam.size) d us = some d' ∧ s'.vec = d'.flat ∧ d'.one = d.one ∧ Shaped ps d' := by
    intro us
    induction us with
    | nil => intro s d _ hd hs; exact ⟨s, d, rfl, rfl, hs, rfl, hd⟩
    | cons u us ih =>
      intro s d hu hd hs
      have hu' := fun w hw' => hu w (List.mem_cons_of_mem _ hw')
      cases u with
      | solve =>
        rw [List.map_cons]
        simp only [Index.run, track]
        show ∃ s' d', ((Index.step ps ids maps s .solve).bind fun s => Index.run ps ids maps s (us.map (opOf ps))) = some s' ∧ _
        simp only [Index.step, Option.bind_some]
        exact ih _ d hu' hd hs
      | set j idx v =>
        obtain ⟨hj, j', i, ht, -⟩ := C95_in_range_is_announced maps _ (hu _ List.mem_cons_self)
        rw [List.map_cons]
        simp only [Index.run, track]
        rw [step_set hw s d hd hs j hj, ht]
        simp only [Target.write, Option.map_some, Option.bind_some]
        exact ih _ (d.setEntry j' i v) hu' (hd.setEntry _ _ _) rfl
  obtain ⟨s', d', h1, h2, h3, h4, h5⟩ := hrun us s d hu hd hs
  refine ⟨s', d', _, h1, h2, h3, h4, rfl, ?_⟩
  intro c m hm hch hf
  have ht := h5.total
  simp only [hch, hf, Bool.and_self, if_true]
  rw [hm, Option.bind_some, h3]
  unfold Data.flat
  rw [canonVec_rows m c.isUpper _ _ (by rw [ht]; exact hw.cols c m hm), ht, h4]

/-- **C95** In explicit mode an update never leaves the box of the bounds at the position it hits, and never changes the
constant, whatever the index; it is a memory error exactly if the walk leaves the array. -/
theorem C95_explicit_keeps_bounds [LinearOrder R] [One R] {ps : List UParam} (hn : (ps.map UParam.name).Nodup)
    (hpos : ∀ p ∈ ps, 0 < p.size) (lower upper : List R) (hl : lower.length = totalSize ps + 1)
    (hu : upper.length = totalSize ps + 1) (hlu : ∀ (k : Nat) lo up, lower[k]? = some lo → upper[k]? = some up → lo ≤ up)
    (h1 : lower[totalSize ps]? = some 1) (h2 : upper[totalSize ps]? = some 1)
    (d : Data R) (hd : Shaped ps d)
    (hbox : ∀ (k : Nat) lo up x, lower[k]? = some lo → upper[k]? = some up → d.flat[k]? = some x → lo ≤ x ∧ x ≤ up)
    (j : Nat) (hj : j < ps.length) (idx : Int) (val : R) :
    match target (ps.map UParam.size) j idx with
    | .outside => updateEx ps lower upper ⟨(ps[j]).name, idx, val⟩ d.flat = none
    | .one => updateEx ps lower upper ⟨(ps[j]).name, idx, val⟩ d.flat = some d.flat
    | .entry j' i => ∃ v, updateEx ps lower upper ⟨(ps[j]).name, idx, val⟩ d.flat = some (d.setEntry j' i v).flat ∧
        (∀ (k : Nat) lo up x, lower[k]? = some lo → upper[k]? = some up → (d.setEntry j' i v).flat[k]? = some x →
          lo ≤ x ∧ x ≤ up) := by
  have hlen : d.flat.length = totalSize ps + 1 := by unfold Data.flat; rw [List.length_append, hd.total]; rfl
  have hst := fun v => storeZ_target hd j hj idx v
  have hex : ∀ a, updateEx ps lower upper ⟨(ps[j]).name, idx, a⟩ d.flat =
      (readZ lower (colOf ps j + idx)).bind fun lo => (readZ upper (colOf ps j + idx)).bind fun up =>
        storeZ d.flat (colOf ps j + idx)
          (if up < (if a < lo then lo else a) then up else (if a < lo then lo else a)) := by
    intro a
    unfold updateEx
    simp only [baseCol_eq ps hn hpos j hj]
    rfl
  rw [hex]
  cases ht : target (ps.map UParam.size) j idx with
  | outside =>
    simp only [ht, Target.write, Option.map_none] at hst
    simp only [hst]
    cases readZ lower (colOf ps j + idx) with
    | none => rfl
    | some lo => cases readZ upper (colOf ps j + idx) <;> rfl
  | one =>
    have hk := target_one j hj idx ht
    simp only
    have hr : ∀ l : List R, l[totalSize ps]? = some 1 → readZ l (colOf ps j + idx) = some 1 := by
      intro l h
      unfold readZ
      rw [hk, if_pos (by omega)]
      exact h
    rw [hr lower h1, hr upper h2]
    simp only [Option.bind_some, hst, ht, Target.write, Option.map_some]
    have hv : (if (1 : R) < (if val < 1 then 1 else val) then (1 : R) else (if val < 1 then 1 else val)) = 1 := by
      rcases lt_or_ge val 1 with h | h
      · rw [if_pos h, if_neg (lt_irrefl _)]
      · rw [if_neg (not_lt.mpr h)]
        by_cases h' : 1 < val
        · rw [if_pos h']
        · rw [if_neg h']; exact le_antisymm (not_lt.mp h') h
    rw [hv]
    congr 1
    have hone : d.one = 1 := by
      have := hbox (totalSize ps) 1 1 d.one h1 h2 (by
        unfold Data.flat
        rw [List.getElem?_append_right (by rw [hd.total]), hd.total]
        simp)
      exact le_antisymm this.2 this.1
    cases d with
    | mk params one => simp only at hone; subst hone; rfl
  | entry j' i =>
    obtain ⟨hj', hi', hpos'⟩ := target_entry j hj idx j' i ht
    obtain ⟨hlt, hset⟩ := setEntry_flatten hd j' i hj' hi' val
    simp only
    have hr : ∀ l : List R, (hl : l.length = totalSize ps + 1) → readZ l (colOf ps j + idx) = some (l[colOf ps j' + i]'(by omega)) := by
      intro l h
      unfold readZ
      rw [hpos', if_pos (by omega), show (((colOf ps j' : Nat) : Int) + (i : Int)).toNat = colOf ps j' + i by omega,
        List.getElem?_eq_getElem]
    rw [hr lower hl, hr upper hu]
    simp only [Option.bind_some, hst, ht, Target.write, Option.map_some]
    refine ⟨_, rfl, ?_⟩
    intro k lo up x hlo hup hx
    generalize hv : (if upper[colOf ps j' + i] < (if val < lower[colOf ps j' + i] then lower[colOf ps j' + i] else val)
      then upper[colOf ps j' + i] else (if val < lower[colOf ps j' + i] then lower[colOf ps j' + i] else val)) = v at hx
    unfold Data.flat at hx
    rw [(setEntry_flatten hd j' i hj' hi' v).2] at hx
    have hx' : (d.flat.set (colOf ps j' + i) v)[k]? = some x := by
      unfold Data.flat
      rw [List.set_append_left _ _ (by rw [hd.total]; exact hlt)]
      exact hx
    by_cases hk : k = colOf ps j' + i
    · subst hk
      rw [List.getElem?_set_self (by omega)] at hx'
      have hxv := Option.some.inj hx'
      rw [List.getElem?_eq_getElem (by omega)] at hlo hup
      have hlo' := Option.some.inj hlo
      have hup' := Option.some.inj hup
      have hle := hlu (colOf ps j' + i) lo up (by rw [List.getElem?_eq_getElem (by omega), hlo'])
        (by rw [List.getElem?_eq_getElem (by omega), hup'])
      rw [← hxv, ← hv, hlo', hup']
      rcases lt_or_ge val lo with h | h
      · rw [if_pos h, if_neg (not_lt.mpr hle)]
        exact ⟨le_refl _, hle⟩
      · rw [if_neg (not_lt.mpr h)]
        by_cases h' : up < val
        · rw [if_pos h']; exact ⟨hle, le_refl _⟩
        · rw [if_neg h']; exact ⟨h, not_lt.mp h'⟩
    · rw [List.getElem?_set_ne (Ne.symm hk)] at hx'
      exact hbox k lo up x hlo hup hx'

/-! ### Where the property fails -/

/-- Parameters `a` and `b` with two entries each; `q = (a₀ + 1, a₁)`, `A = (b₀ + b₁)`. -/
def ixPs : List UParam := [⟨"a", 2⟩, ⟨"b", 2⟩]

def ixMaps : CId → Option (RawMap Int)
  | .q => some ⟨⟨2, 5, [(0, 0, 1), (1, 1, 1), (0, 4, 1)]⟩, fun _ => 1⟩
  | .A => some ⟨⟨1, 5, [(0, 2, 1), (0, 3, 1)]⟩, fun _ => 1⟩
  | _ => none

theorem ixWF : WFInput ixPs (Kind.osqp.canonIds true) ixMaps := by
  refine ⟨by decide, by decide, ?_, ?_⟩
  · intro c m h
    cases c <;> simp [ixMaps] at h <;> subst h <;> rfl
  · intro c hc
    cases c <;> simp_all [Kind.canonIds, ixMaps]

def ixRun (us : List (Use Int)) : Option (List Int × Option (List Int) × Option (List Int)) :=
  (Index.run ixPs (Kind.osqp.canonIds true) ixMaps (Index.init ixMaps [1, 2, 3, 4]) (us.map (opOf ixPs))).map
    fun s => (s.vec, s.canon .q, s.canon .A)

/-- **C95** fails: after a solve, `cpg_update_a(2, 10)` changes entry 0 of `b`, but the next solve still uses the matrix
of the old `b`; it changes only when another entry of `b` is set to the value it has. `cpg_update_b(2, 7)` makes the
constant 7, so that the next recomputation of `q` gives `a₀ + 7`. `cpg_update_b(-1, 10)` changes the last entry of `a`,
`cpg_update_a(-1, 0)` and `cpg_update_b(3, 0)` write outside of the array. -/
theorem C95_fails :
    ixRun [.solve, .set 0 2 10, .solve] = some ([1, 2, 10, 4, 1], some [2, 2], some [7]) ∧
    ixRun [.solve, .set 0 2 10, .solve, .set 1 1 4, .solve] = some ([1, 2, 10, 4, 1], some [2, 2], some [14]) ∧
    ixRun [.set 1 2 7, .solve, .set 0 0 5, .solve] = some ([5, 2, 3, 4, 7], some [12, 2], some [7]) ∧
    ixRun [.set 1 (-1) 10, .solve] = some ([1, 10, 3, 4, 1], some [2, 10], some [7]) ∧
    ixRun [.set 0 (-1) 0] = none ∧ ixRun [.set 1 3 0] = none := by
  refine ⟨?_, ?_, ?_, ?_, ?_, ?_⟩ <;> decide +kernel

example : target [2, 2] 0 2 = .entry 1 0 ∧ target [2, 2] 1 (-1) = .entry 0 1 ∧ target [2, 2] 1 2 = .one ∧
    target [2, 2] 0 (-1) = .outside ∧ target [2, 2] 1 3 = .outside ∧ target [2, 2] 1 1 = .entry 1 1 := by decide

/-- A non-trivial history for `C95_announced_calls_are_fresh`: the parameters of `exPs` mark the same canonical
parameters, so `cpg_update_a(2, 9)`, which changes `s`, is announced. -/
example : ∀ u ∈ [Use.solve, .set 0 2 (9 : Int), .solve, .set 1 0 4], Announced exPs exMaps u := by
  intro u hu
  simp only [List.mem_cons, List.not_mem_nil, or_false] at hu
  rcases hu with rfl | rfl | rfl | rfl
  · trivial
  · refine ⟨by decide, 1, 0, by decide, ?_⟩
    intro c; cases c <;> first | decide | (intro h; simp [adjacent, exMaps] at h)
  · trivial
  · refine ⟨by decide, 1, 0, by decide, ?_⟩
    intro c; cases c <;> first | decide | (intro h; simp [adjacent, exMaps] at h)

example : ∀ u ∈ [Use.set 0 1 (9 : Int), .solve, .set 1 0 4], InRange (ixPs.map UParam.size) u := by
  intro u hu
  simp only [List.mem_cons, List.not_mem_nil, or_false] at hu
  rcases hu with rfl | rfl | rfl
  · exact ⟨2, rfl, by decide, by decide⟩
  · trivial
  · exact ⟨2, rfl, by decide, by decide⟩

/-- Explicit mode: `cpg_update_b(2, 7)` keeps the constant, `cpg_update_a(2, 10)` puts `b₀` to its upper bound. -/
example : updateEx ixPs [0, 0, 0, 0, 1] [5, 5, 6, 6, 1] ⟨"b", 2, 7⟩ [1, 2, 3, 4, (1 : Int)] = some [1, 2, 3, 4, 1] ∧
    updateEx ixPs [0, 0, 0, 0, 1] [5, 5, 6, 6, 1] ⟨"a", 2, 10⟩ [1, 2, 3, 4, (1 : Int)] = some [1, 2, 6, 4, 1] := by decide

end Verif.Props
