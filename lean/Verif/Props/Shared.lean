import Verif.Lemmas.Shared
/-!
# C22, C23: generations in one process do not influence each other
-/
namespace Verif.Props
open Verif.Model Verif.Model.Text Verif.Model.Dispatch Verif.Model.Shared Verif.Spec.Shared Verif.Lemmas.Shared

theorem configure_comm (a b : List Txt) (l : List (Txt × Bool)) :
    configure a (configure b l) = configure b (configure a l) := by
  unfold configure
  rw [List.map_map, List.map_map]
  apply List.map_congr_left
  rintro ⟨n, x⟩ _
  show (n, (x || b.contains n) || a.contains n) = (n, (x || a.contains n) || b.contains n)
  rw [Bool.or_assoc, Bool.or_comm (b.contains n), ← Bool.or_assoc]

theorem configure_absorb (a b : List Txt) (l : List (Txt × Bool))
    (h : ∀ n ∈ a, n ∈ b ∨ (n, false) ∉ l) : configure a (configure b l) = configure b l := by
  unfold configure
  rw [List.map_map]
  apply List.map_congr_left
  rintro ⟨n, x⟩ hm
  show (n, (x || b.contains n) || a.contains n) = (n, x || b.contains n)
  cases ha : a.contains n with
  | false => rw [Bool.or_false]
  | true =>
    rcases h n (by simpa using ha) with hb | hb
    · have : b.contains n = true := by simpa using hb
      rw [this]; simp
    · cases x with
      | true => simp
      | false => exact absurd hm hb

/-- The classes are, for call `c`, as in a fresh process. -/
structure AsFresh (s : Classes) (c : Call) : Prop where
  reach : Reach s
  ptrs : s.ptrs c.iface = ptrs0 c.iface
  stgs : configure c.enable (s.stgs c.iface) = configure c.enable (settings0 c.iface)
  pus : c.iface = .scs → c.quad = true → s.pusScs = (scs true).pus

theorem asFresh_other {s : Classes} {c : Call} (h : AsFresh s c) (e : Call) (hv : Valid e)
    (hne : e.iface ≠ c.iface) : AsFresh (gen s e).1 c := by
  have hr := h.reach.gen e hv
  have hE := gen_fst s h.reach e hv
  have hcfgS : (configured s e).stgs c.iface = s.stgs c.iface := put_other _ _ _ _ (Ne.symm hne)
  have haft : ∀ s : Classes, (after s e).ptrs = s.ptrs ∧ (after s e).stgs = s.stgs := by
    intro s; unfold after; split <;> exact ⟨rfl, rfl⟩
  have hscs : c.iface = .scs → ∀ s : Classes, (after s e).pusScs = s.pusScs := by
    intro hc s
    unfold after
    rw [if_neg]
    intro hx
    exact hne (hx.1.trans hc.symm)
  refine ⟨hr, ?_, ?_, ?_⟩
  · rw [hE]
    split
    · exact h.ptrs
    · split
      · exact h.ptrs
      · split
        · split
          · exact (put_other _ _ _ _ (Ne.symm hne)).trans h.ptrs
          · exact h.ptrs
        · split
          · exact h.ptrs
          · rw [(haft _).1]; exact h.ptrs
  · have : (gen s e).1.stgs c.iface = s.stgs c.iface := by
      rw [hE]
      split
      · rfl
      · split
        · exact hcfgS
        · split
          · split
            · exact hcfgS
            · exact hcfgS
          · split
            · exact hcfgS
            · rw [(haft _).2]; exact hcfgS
    rw [this]; exact h.stgs
  · intro hc hq
    rw [hE]
    split
    · exact h.pus hc hq
    · split
      · exact h.pus hc hq
      · split
        · split
          · exact h.pus hc hq
          · exact h.pus hc hq
        · split
          · exact h.pus hc hq
          · rw [hscs hc]; exact h.pus hc hq

theorem asFresh_step {s : Classes} {c : Call} (h : AsFresh s c) (e : Call) (hv : Valid e)
    (hh : Harmless e c) : AsFresh (gen s e).1 c := by
  have hr := h.reach.gen e hv
  have hE := gen_fst s h.reach e hv
  rcases hh with hne | hf | ⟨hset, hptr, hpus⟩
  · exact asFresh_other h e hv hne
  · -- failed early
    rw [hE, if_pos hf]
    exact h
  · by_cases hi : e.iface = c.iface
    swap
    · exact asFresh_other h e hv hi
    have hcfgS : configure c.enable ((configured s e).stgs c.iface)
        = configure c.enable (settings0 c.iface) := by
      have : (configured s e).stgs c.iface = configure e.enable (s.stgs c.iface) := by
        unfold configured
        rw [hi]
        exact put_same _ _ _
      rw [this, configure_comm, h.stgs]
      exact configure_absorb _ _ _ hset
    have hnp : ¬ (e.twoStage = true ∧ e.fails = some .inWorkspace) := hptr
    have haft : ∀ s : Classes, (after s e).ptrs = s.ptrs ∧ (after s e).stgs = s.stgs := by
      intro s; unfold after; split <;> exact ⟨rfl, rfl⟩
    by_cases h1 : e.fails = some .beforeInterface
    · rw [hE, if_pos h1]; exact h
    rw [if_neg h1] at hE
    by_cases h2 : e.fails = some .beforeWriting
    · rw [if_pos h2] at hE
      rw [hE] at hr ⊢
      exact ⟨hr, h.ptrs, hcfgS, h.pus⟩
    rw [if_neg h2] at hE
    by_cases h3 : e.fails = some .inWorkspace
    · rw [if_pos h3, if_neg (fun ht => hnp ⟨ht, h3⟩)] at hE
      rw [hE] at hr ⊢
      exact ⟨hr, h.ptrs, hcfgS, h.pus⟩
    rw [if_neg h3] at hE
    by_cases h4 : e.fails = some .beforeUpdate
    · rw [if_pos h4] at hE
      rw [hE] at hr ⊢
      exact ⟨hr, h.ptrs, hcfgS, h.pus⟩
    rw [if_neg h4] at hE
    rw [hE] at hr ⊢
    refine ⟨hr, ?_, ?_, ?_⟩
    · rw [(haft _).1]; exact h.ptrs
    · rw [(haft _).2]; exact hcfgS
    · intro hc hq
      have hreach : Reaches e := by
        unfold Reaches
        cases hf : e.fails with
        | none => exact Or.inl rfl
        | some p => cases p <;> simp_all
      rcases hpus hc hq with hq' | hq'
      · have : after (configured s e) e = configured s e := by
          unfold after; rw [if_neg (fun hx => by rw [hq'] at hx; cases hx.2)]
        rw [this]; exact h.pus hc hq
      · exact absurd hreach hq'

theorem asFresh_history (c : Call) (hist : List Call) (hv : ∀ h ∈ hist, Valid h)
    (hh : ∀ h ∈ hist, Harmless h c) : AsFresh (history fresh hist) c := by
  induction hist using List.reverseRecOn with
  | nil => exact ⟨Reach.fresh, rfl, rfl, fun _ _ => rfl⟩
  | append_singleton hist e ih =>
    unfold history
    rw [List.foldl_append]
    exact asFresh_step (ih (fun x hx => hv x (by simp [hx])) fun x hx => hh x (by simp [hx])) e
      (hv e (by simp)) (hh e (by simp))

/-- **C22** (missing: the three ways in which an earlier call does interfere, see `Harmless` and
`C22_fails_quadratic`, `C22_fails_settings`, `C23_fails_pointers`) After any history of successful and failed
calls for any solvers, a call of `generate_code` generates the code that it generates in a fresh process. -/
theorem C22_partial (c : Call) (hc : Valid c) (hist : List Call) (hv : ∀ h ∈ hist, Valid h)
    (hh : ∀ h ∈ hist, Harmless h c) : (gen (history fresh hist) c).2 = (gen fresh c).2 := by
  have hA := asFresh_history c hist hv hh
  obtain ⟨t, h1, hf⟩ := gen_snd _ hA.reach c hc
  obtain ⟨t', h1', hf'⟩ := gen_snd fresh Reach.fresh c hc
  have ht := hf hA.pus
  have ht' := hf' fun _ _ => rfl
  rw [ht] at ht'
  have htt : t = t' := by
    have := Except.ok.inj ht'
    exact (Prod.mk.inj this).1
  have hptr0 : fresh.ptrs c.iface = ptrs0 c.iface := rfl
  have hst0 : fresh.stgs c.iface = settings0 c.iface := rfl
  rw [h1, h1', hA.ptrs, hA.stgs, hptr0, hst0, htt]

/-- Nothing is raised while the update block is written, after any history. -/
theorem C22_block_ok (hist : List Call) (hv : ∀ h ∈ hist, Valid h) (c : Call) (hc : Valid c) :
    ∃ toks s, block (history fresh hist) c = .ok (toks, s) := by
  obtain ⟨t, h, _⟩ := block_spec _ (Reach.history fresh Reach.fresh hist hv) c hc
  exact ⟨t, _, h⟩

/-! ### C23 -/

theorem stgs_history (hist : List Call) (hv : ∀ h ∈ hist, Valid h) (i : Iface) :
    ∃ e, (history fresh hist).stgs i = configure e (settings0 i) := by
  induction hist using List.reverseRecOn with
  | nil =>
    refine ⟨[], ?_⟩
    show settings0 i = (settings0 i).map fun s => (s.1, s.2 || ([] : List Txt).contains s.1)
    rw [List.map_congr_left (g := id) (by rintro ⟨n, x⟩ _; simp)]
    rw [List.map_id]
  | append_singleton hist c ih =>
    obtain ⟨e, he⟩ := ih fun x hx => hv x (by simp [hx])
    have hR := Reach.history fresh Reach.fresh hist fun x hx => hv x (by simp [hx])
    have hE := gen_fst _ hR c (hv c (by simp))
    have hh : history fresh (hist ++ [c]) = (gen (history fresh hist) c).1 := by
      unfold history; rw [List.foldl_append]; rfl
    have haft : ∀ s : Classes, (after s c).stgs = s.stgs := by
      intro s; unfold after; split <;> rfl
    have hcfg : ∃ e, (configured (history fresh hist) c).stgs i = configure e (settings0 i) := by
      unfold configured put
      by_cases hi : i = c.iface
      · refine ⟨c.enable ++ e, ?_⟩
        subst hi
        simp only [if_true]
        rw [he]
        unfold configure
        rw [List.map_map]
        apply List.map_congr_left
        rintro ⟨n, x⟩ _
        show (n, (x || e.contains n) || c.enable.contains n) = (n, x || (c.enable ++ e).contains n)
        rw [Bool.or_assoc, Bool.or_comm (e.contains n)]
        simp
      · exact ⟨e, by simp only [if_neg hi]; exact he⟩
    rw [hh, hE]
    split
    · exact ⟨e, he⟩
    · split
      · exact hcfg
      · split
        · split
          · exact hcfg
          · exact hcfg
        · split
          · exact hcfg
          · rw [haft]; exact hcfg

theorem clean_step (hist : List Call) (hv : ∀ h ∈ hist, Valid h) (f : Call) (hf : Valid f) (hc : Clean f) :
    (gen (history fresh hist) f).1 = history fresh hist := by
  have hR := Reach.history fresh Reach.fresh hist hv
  have hE := gen_fst _ hR f hf
  rw [hE]
  rcases hc with h | ⟨hset, hptr, hpus⟩
  · rw [if_pos h]
  have hcfg : configured (history fresh hist) f = history fresh hist := by
    obtain ⟨e, he⟩ := stgs_history hist hv f.iface
    unfold configured
    rw [he, configure_absorb f.enable e _ (fun n hn => Or.inr (hset n hn)), ← he, put_self]
  rw [hcfg]
  by_cases h1 : f.fails = some .beforeInterface
  · rw [if_pos h1]
  rw [if_neg h1]
  by_cases h2 : f.fails = some .beforeWriting
  · rw [if_pos h2]
  rw [if_neg h2]
  by_cases h3 : f.fails = some .inWorkspace
  · rw [if_pos h3, if_neg (fun ht => hptr ⟨ht, h3⟩)]
  rw [if_neg h3]
  by_cases h4 : f.fails = some .beforeUpdate
  · rw [if_pos h4]
  rw [if_neg h4]
  have hreach : Reaches f := by
    unfold Reaches
    cases hf : f.fails with
    | none => exact Or.inl rfl
    | some p => cases p <;> simp_all
  unfold after
  rw [if_neg]
  rintro ⟨hi, hq⟩
  rcases hpus hi with h | h
  · rw [hq] at h; cases h
  · exact h hreach

/-- **C23** (missing: calls that are not `Clean`) A failing call that is clean, at any place in any history,
has no influence on any later call: the classes, hence all later outcomes, are as if it had not been made. -/
theorem C23_partial (before later : List Call) (f : Call) (hb : ∀ h ∈ before, Valid h) (hf : Valid f)
    (hc : Clean f) (c : Call) :
    gen (history fresh (before ++ f :: later)) c = gen (history fresh (before ++ later)) c := by
  have h := clean_step before hb f hf hc
  unfold history at h ⊢
  rw [List.foldl_append, List.foldl_cons, List.foldl_append, h]

/-! ### where earlier calls interfere -/

/-- `p_id_to_changes` of an SCS problem where only the given parameter changes. -/
def scsChanges (quad : Bool) (p : CId) : Changes := changesOf (Kind.scs.canonIds quad) fun x => x == p

/-- An SCS problem with linear objective. -/
def shLin : Call := Call.mk .scs false false false (scsChanges false .b) id [] [] false none
/-- An SCS problem with a quadratic objective that depends on a parameter. -/
def shQuad : Call := Call.mk .scs false true false (scsChanges true .P) id [] [] false none
/-- OSQP with and without an additional setting. -/
def shPolish : Call := Call.mk .osqp false true false (changesOf (Kind.osqp.canonIds true) fun x => x == .q) id
  ["polishing".toList] [] false none
def shPlain : Call := Call.mk .osqp false true false (changesOf (Kind.osqp.canonIds true) fun x => x == .q) id
  [] [] false none
/-- A two-stage call for SCS that fails while the workspace is written. -/
def shBroken : Call := Call.mk .scs true true false (scsChanges true .b) id [] [] true (some .inWorkspace)

theorem valid_scs (two quad : Bool) (p : CId) (e : List Txt) (pf : Txt) (r : Bool) (f : Option Point) :
    Valid (Call.mk .scs two quad false (scsChanges quad p) id e pf r f) := by
  refine ⟨fun k hk => ?_, fun l => List.Perm.refl l⟩
  cases hk
  exact ⟨rfl, _, rfl⟩

/-- The update block of a successful call. -/
def blockOf (r : Except Shared.Err Out) : Option (List Tok) :=
  match r with
  | .ok o => some o.block
  | .error _ => none

/-- Settings, workspace pointers and solve pointers of a successful call. -/
def restOf (r : Except Shared.Err Out) : Option (List Txt × (Txt × Txt) × (Txt × Txt)) :=
  match r with
  | .ok o => some (o.settings, o.wsPtrs, o.solvePtrs)
  | .error _ => none

/-- **C22 fails for SCS**: after generating code for a problem with linear objective, the code generated
for a quadratic one no longer hands a changed `P` to the solver: the branch is missing from `cpg_solve`. -/
theorem C22_fails_quadratic :
    blockOf (gen fresh shQuad).2 = some [.ifOpen [.extra .notInit], .call .init, .close, .elseOpen,
      .ifOpen [.flag .P, .oror, .flag .A], .call .PA, .close, .close] ∧
    blockOf (gen (history fresh [shLin]) shQuad).2 = some [.ifOpen [.extra .notInit], .call .init, .close] := by
  decide +kernel

/-- **C22 fails for settings**: a setting enabled in one call stays enabled in later calls that do not ask
for it. -/
theorem C22_fails_settings :
    (restOf (gen fresh shPlain).2).map (fun x => x.1.contains "polishing".toList) = some false ∧
    (restOf (gen (history fresh [shPolish]) shPlain).2).map (fun x => x.1.contains "polishing".toList)
      = some true := by
  decide +kernel

/-- **C23 fails while the workspace is written in two-stage mode**: later code for the same solver reads
the solution from arrays that do not exist there. -/
theorem C23_fails_pointers :
    (restOf (gen fresh shQuad).2).map (fun x => x.2) =
      some (("scs_x".toList, "scs_{dual_var_name}".toList), ("scs_x".toList, "scs_{dual_var_name}".toList)) ∧
    (restOf (gen (history fresh [shBroken]) shQuad).2).map (fun x => x.2) =
      some (("gradient_sol_x".toList, "gradient_sol_y".toList), ("gradient_sol_x".toList, "gradient_sol_y".toList)) := by
  decide +kernel

/-- Non-vacuity: a quadratic SCS problem after OSQP with extra settings, a failed SCS call, and an SCS
problem with quadratic objective. -/
example : ∀ h ∈ [shPolish, { shLin with fails := some .beforeUpdate }, { shQuad with enable := ["verbose".toList] }],
    Harmless h shQuad := by
  intro h hh
  rcases List.mem_cons.mp hh with rfl | hh
  · exact Or.inl (by decide)
  rcases List.mem_cons.mp hh with rfl | hh
  · refine Or.inr (Or.inr ⟨fun n hn => (nomatch hn), fun hx => (nomatch hx.1), fun _ _ => Or.inr fun hx => ?_⟩)
    rcases hx with hx | hx <;> cases hx
  · have := List.mem_singleton.mp hh
    subst this
    refine Or.inr (Or.inr ⟨fun n hn => Or.inr ?_, fun hx => (nomatch hx.1), fun _ _ => Or.inl rfl⟩)
    have := List.mem_singleton.mp hn
    subst this
    decide

/-- Non-vacuity: a two-stage call that fails when the folder is set up is clean. -/
example : Clean { shBroken with fails := some .beforeWriting } :=
  Or.inr ⟨fun n hn => (nomatch hn), fun hx => (nomatch hx.2), fun _ => Or.inl rfl⟩

end Verif.Props
