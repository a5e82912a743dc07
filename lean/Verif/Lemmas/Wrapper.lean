import Verif.Spec.Wrapper
import Verif.Props.Canon
/-!
Helper lemmas for the Python wrapper.
-/
namespace Verif.Lemmas
open Verif.Model Verif.Spec

variable {R S : Type}

/-! ### Settings -/

theorem setKwargs_none (sg : Stgs S) (hd : "default_settings" ∉ sg.enabled) :
    ∀ (kw : List (String × S)) (store : String → S),
      ((setKwargs sg store kw).2 = none ↔ ∀ kv ∈ kw, sg.translated kv.1 ∈ sg.enabled ∧
        sg.accepts (sg.translated kv.1) kv.2 = true) := by
  intro kw
  induction kw with
  | nil => intro store; simp [setKwargs]
  | cons kv kw ih =>
    intro store
    obtain ⟨key, v⟩ := kv
    simp only [setKwargs, List.forall_mem_cons]
    by_cases h1 : sg.translated key = "default_settings"
    · rw [if_pos h1]
      constructor
      · intro h; cases h
      · rintro ⟨⟨h, _⟩, _⟩
        rw [h1] at h; exact absurd h hd
    · rw [if_neg h1]
      by_cases h2 : sg.translated key ∈ sg.enabled
      · by_cases h3 : sg.accepts (sg.translated key) v = true
        · simp [h2, h3, ih]
        · simp [h2, h3]
      · simp [h2]

theorem setKwargs_store (sg : Stgs S) :
    ∀ (kw : List (String × S)) (store : String → S), (setKwargs sg store kw).2 = none →
      ∀ n, (setKwargs sg store kw).1 n =
        match (kw.filter fun kv => sg.translated kv.1 == n).getLast? with
        | some kv => kv.2
        | none => store n := by
  intro kw
  induction kw with
  | nil => intro store _ n; rfl
  | cons kv kw ih =>
    intro store h n
    obtain ⟨key, v⟩ := kv
    simp only [setKwargs] at h ⊢
    by_cases h1 : sg.translated key = "default_settings"
    · rw [if_pos h1] at h; cases h
    rw [if_neg h1] at h ⊢
    by_cases h2 : (!sg.enabled.contains (sg.translated key)) = true
    · rw [if_pos h2] at h; cases h
    rw [if_neg h2] at h ⊢
    by_cases h3 : (!sg.accepts (sg.translated key) v) = true
    · rw [if_pos h3] at h; cases h
    rw [if_neg h3] at h ⊢
    rw [ih _ h n]
    by_cases hn : sg.translated key = n
    · have hf : ((key, v) :: kw).filter (fun kv => sg.translated kv.1 == n)
          = (key, v) :: kw.filter (fun kv => sg.translated kv.1 == n) := by
        simp [List.filter_cons, hn]
      rw [hf, List.getLast?_cons]
      cases hl : (kw.filter fun kv => sg.translated kv.1 == n).getLast? with
      | none => simp [hn]
      | some kv' => simp
    · have hf : ((key, v) :: kw).filter (fun kv => sg.translated kv.1 == n)
          = kw.filter (fun kv => sg.translated kv.1 == n) := by
        simp [List.filter_cons, hn]
      rw [hf]
      cases hl : (kw.filter fun kv => sg.translated kv.1 == n).getLast? with
      | none => simp [Ne.symm hn]
      | some kv' => simp

theorem resetStore_enabled (k : Kind) (sg : Stgs S) (store : String → S) (n : String)
    (hn : n ∈ sg.enabled) : resetStore k sg store n = sg.default n := by
  unfold resetStore
  split
  · rfl
  · simp [hn]

theorem store_settingFor (k : Kind) (sg : Stgs S) (kw : List (String × S)) (store : String → S)
    (h : (setKwargs sg (resetStore k sg store) kw).2 = none) (n : String) (hn : n ∈ sg.enabled) :
    (setKwargs sg (resetStore k sg store) kw).1 n = settingFor sg kw n := by
  rw [setKwargs_store sg kw _ h n, resetStore_enabled k sg store n hn]
  rfl

/-! ### Parameter values -/

theorem readVals_none (vals : String → Option (List R)) (ps : List UParam) :
    readVals vals ps = none ↔ HaveValues ps vals := by
  induction ps with
  | nil => simp [readVals, HaveValues]
  | cons p ps ih =>
    unfold readVals HaveValues
    simp only [List.forall_mem_cons]
    cases h : vals p.name with
    | none => simp
    | some v => simpa [HaveValues] using ih

theorem vector_get (ps : List UParam) (sent : String → List R)
    (hlen : ∀ p ∈ ps, (sent p.name).length = p.size) (j : Nat) (hj : j < ps.length) (i : Nat)
    (hi : i < (ps[j]).size) :
    (ps.flatMap fun p => sent p.name)[colOf ps j + i]? = (sent (ps[j]).name)[i]? := by
  induction ps generalizing j with
  | nil => simp at hj
  | cons p ps ih =>
    have hp : (sent p.name).length = p.size := hlen p (by simp)
    rw [List.flatMap_cons]
    cases j with
    | zero =>
      simp only [colOf, List.take_zero, List.map_nil, List.sum_nil, Nat.zero_add,
        List.getElem_cons_zero] at hi ⊢
      rw [List.getElem?_append_left (by omega)]
    | succ j =>
      have hcol : colOf (p :: ps) (j + 1) = p.size + colOf ps j := by simp [colOf]
      simp only [List.getElem_cons_succ] at hi ⊢
      rw [hcol, List.getElem?_append_right (by omega)]
      rw [← ih (fun q hq => hlen q (by simp [hq])) j (by simpa using hj) hi]
      congr 1
      omega

theorem vector_length (ps : List UParam) (sent : String → List R)
    (hlen : ∀ p ∈ ps, (sent p.name).length = p.size) :
    (ps.flatMap fun p => sent p.name).length = totalSize ps := by
  induction ps with
  | nil => rfl
  | cons p ps ih =>
    rw [List.flatMap_cons, List.length_append, ih (fun q hq => hlen q (by simp [hq])),
      hlen p (by simp)]
    simp [totalSize]

/-- A parameter vector is determined by its blocks. -/
theorem vector_ext (ps : List UParam) (sent : String → List R) (θ : List R)
    (hθ : θ.length = totalSize ps) (hlen : ∀ p ∈ ps, (sent p.name).length = p.size)
    (h : ∀ j (hj : j < ps.length) i, i < (ps[j]).size → θ[colOf ps j + i]? = (sent (ps[j]).name)[i]?) :
    θ = ps.flatMap fun p => sent p.name := by
  apply List.ext_getElem?
  intro c
  by_cases hc : c < totalSize ps
  · obtain ⟨j, ⟨hj, h1, h2⟩, _⟩ := (Props.C19_blocks_partition ps c).1 hc
    have h3 := h j hj (c - colOf ps j) (by omega)
    have h4 := vector_get ps sent hlen j hj (c - colOf ps j) (by omega)
    have hce : colOf ps j + (c - colOf ps j) = c := by omega
    rw [hce] at h3 h4
    rw [h3, h4]
  · rw [List.getElem?_eq_none (by omega), List.getElem?_eq_none (by rw [vector_length ps sent hlen]; omega)]

/-! ### The update calls -/

section
variable [CommRing R] [DecidableEq R]

theorem name_index {ps : List UParam} (hn : (ps.map UParam.name).Nodup) {i j : Nat}
    (hi : i < ps.length) (hj : j < ps.length) (h : (ps[i]).name = (ps[j]).name) : i = j := by
  have := (List.Nodup.getElem_inj_iff hn (i := i) (j := j) (hi := by simpa using hi)
    (hj := by simpa using hj)).mp (by simpa using h)
  exact this

theorem updates_get {ps : List UParam} {ids : List CId} (quad : Bool)
    {maps : CId → Option (RawMap R)} (hw : WFInput ps ids maps)
    (θ0 : { θ : List R // θ.length = totalSize ps }) (T : String → List R) :
    ∀ (as : List { a : UpdCall R // a.Valid ps }) (θ : { θ : List R // θ.length = totalSize ps }),
      (∀ a ∈ as, (T a.1.name)[a.1.idx]? = some a.1.val) →
      ∀ j (hj : j < ps.length) i, i < (ps[j]).size →
        (θ.1[colOf ps j + i]? = (T (ps[j]).name)[i]? ∨
          ∃ a ∈ as, a.1.name = (ps[j]).name ∧ a.1.idx = i) →
        (as.foldl (fun θ a => (canonGen ps ids quad maps θ0).assign a θ) θ).1[colOf ps j + i]?
          = (T (ps[j]).name)[i]? := by
  intro as
  induction as with
  | nil =>
    intro θ _ j hj i hi h
    rcases h with h | ⟨a, ha, _⟩
    · exact h
    · simp at ha
  | cons a as ih =>
    intro θ hT j hj i hi h
    rw [List.foldl_cons]
    apply ih _ (fun b hb => hT b (by simp [hb])) j hj i hi
    obtain ⟨j', hj', hname, hidx⟩ := valid_index a.2
    rw [assign_eq quad hw θ0 a θ j' hj' hname hidx]
    have hlt := (updateC_eq hw.names hw.sizes j' hj' a.1.idx hidx a.1.val θ.1 θ.2).1
    by_cases hpos : colOf ps j' + a.1.idx = colOf ps j + i
    · left
      have hjj : j = j' := by
        obtain ⟨j0, _, huniq⟩ := (Props.C19_blocks_partition ps (colOf ps j + i)).1 (by omega)
        rw [huniq j ⟨hj, by omega, by omega⟩, huniq j' ⟨hj', by omega, by omega⟩]
      subst hjj
      have hii : a.1.idx = i := by omega
      rw [hpos, List.getElem?_set_self (by rw [θ.2]; omega)]
      have := hT a (by simp)
      rw [← hname, hii] at this
      exact this.symm
    · rw [List.getElem?_set_ne hpos]
      rcases h with h | ⟨b, hb, hb1, hb2⟩
      · exact Or.inl h
      · rcases List.mem_cons.mp hb with rfl | hb
        · exfalso
          apply hpos
          have : j' = j := name_index hw.names hj' hj (by rw [hname, hb1])
          subst this
          omega
        · exact Or.inr ⟨b, hb, hb1, hb2⟩

/-- After the update calls the parameter vector holds the transferred values. -/
theorem updates_vector {ps : List UParam} {ids : List CId} (quad : Bool)
    {maps : CId → Option (RawMap R)} (hw : WFInput ps ids maps)
    (θ0 : { θ : List R // θ.length = totalSize ps }) (L : List String)
    (vals : String → Option (List R)) (sent : String → List R)
    (θ : { θ : List R // θ.length = totalSize ps })
    (hθ : θ.1 = ps.flatMap fun p => sent p.name)
    (hlen : ∀ p ∈ ps, (sent p.name).length = p.size)
    (hval : ∀ p ∈ ps, ∃ v, vals p.name = some v ∧ v.length = p.size) :
    ((updateActs ps L vals).foldl (fun θ a => (canonGen ps ids quad maps θ0).assign a θ) θ).1
      = ps.flatMap fun p => if p.name ∈ L then (vals p.name).getD [] else sent p.name := by
  set T : String → List R := fun n => if n ∈ L then (vals n).getD [] else sent n with hTdef
  have hTlen : ∀ p ∈ ps, (T p.name).length = p.size := by
    intro p hp
    simp only [hTdef]
    split
    · obtain ⟨v, hv, hl⟩ := hval p hp
      rw [hv]; exact hl
    · exact hlen p hp
  apply vector_ext ps T _ (Subtype.prop (p := fun θ : List R => θ.length = totalSize ps) _) hTlen
  intro j hj i hi
  apply updates_get quad hw θ0 T _ _ ?_ j hj i hi
  · by_cases hL : (ps[j]).name ∈ L
    · right
      refine ⟨⟨⟨(ps[j]).name, i, (((vals (ps[j]).name).getD [])[i]?).getD 0⟩, ps[j],
        List.getElem_mem hj, rfl, hi⟩, ?_, rfl, rfl⟩
      unfold updateActs
      rw [List.mem_flatMap]
      refine ⟨⟨ps[j], List.getElem_mem hj⟩, List.mem_attach _ _, ?_⟩
      rw [if_pos (by simpa using hL)]
      rw [List.mem_map]
      exact ⟨⟨i, hi⟩, List.mem_finRange _, rfl⟩
    · left
      rw [hθ, vector_get ps sent hlen j hj i hi]
      simp [hTdef, hL]
  · intro a ha
    unfold updateActs at ha
    rw [List.mem_flatMap] at ha
    obtain ⟨p, _, ha⟩ := ha
    split at ha
    · rename_i hL
      rw [List.mem_map] at ha
      obtain ⟨i', _, rfl⟩ := ha
      obtain ⟨v, hv, hl⟩ := hval p.1 p.2
      have hL' : p.1.name ∈ L := by simpa using hL
      have hlt : i'.1 < v.length := by rw [hl]; exact i'.2
      simp [hTdef, hL', hv, hlt]
    · simp at ha

/-- Running update calls followed by a solve. -/
theorem runCalls_updates {Θ V Act : Type} (g : Gen Θ V Act) (sv : Solver) (toks : List Tok) :
    ∀ (as : List Act) (m : Mem Θ V),
      g.runCalls sv toks m (as.map Call.update ++ [Call.solve])
        = (g.solve sv toks (as.foldl (fun m a => g.update a m) m)).map fun r => (r.1, [r.2]) := by
  intro as
  induction as with
  | nil =>
    intro m
    simp only [List.map_nil, List.nil_append, Gen.runCalls, List.foldl_nil]
    cases g.solve sv toks m <;> rfl
  | cons a as ih => intro m; exact ih _

theorem updates_θ {Θ V Act : Type} (g : Gen Θ V Act) :
    ∀ (as : List Act) (m : Mem Θ V),
      (as.foldl (fun m a => g.update a m) m).θ = as.foldl (fun θ a => g.assign a θ) m.θ := by
  intro as
  induction as with
  | nil => intro m; rfl
  | cons a as ih => intro m; exact ih _

theorem updates_inv {Θ V Act : Type} (g : Gen Θ V Act) (hs : Sound g) (sv : Solver) :
    ∀ (as : List Act) (m : Mem Θ V), Inv g sv m → Inv g sv (as.foldl (fun m a => g.update a m) m) := by
  intro as
  induction as with
  | nil => intro m h; exact h
  | cons a as ih => intro m h; exact ih _ (inv_update g hs sv a m h)

end

end Verif.Lemmas
