import Verif.Props.ExactE
/-!
# C22: when earlier calls change the update block, for all histories
-/
namespace Verif.Props
open Verif.Model Verif.Model.Text Verif.Model.Dispatch Verif.Model.Shared Verif.Spec.Shared
open Verif.Lemmas
open Verif.Lemmas.Shared (scsDropped Reach res after configured)

/-- The call removes `P` from the update structure of the class: SCS, no quadratic objective, and it gets as far as the update block. -/
def Strips (h : Call) : Prop := h.iface = .scs ∧ h.quad = false ∧ Reaches h

theorem history_reach (hist : List Call) (hv : ∀ h ∈ hist, Valid h) : Reach (history fresh hist) ∧
    ((history fresh hist).pusScs = scsDropped ↔ ∃ h ∈ hist, Strips h) := by
  induction hist using List.reverseRecOn with
  | nil =>
    refine ⟨⟨rfl, .inl rfl⟩, ?_⟩
    simp only [List.not_mem_nil, false_and, exists_false, iff_false]
    exact fun h => absurd h (by decide +kernel)
  | append_singleton hist c ih =>
    obtain ⟨hR, hi⟩ := ih fun h hh => hv h (by simp [hh])
    have hc := hv c (by simp)
    rw [history_snoc]
    have e := Verif.Lemmas.Shared.gen_fst _ hR c hc
    have hpus : (gen (history fresh hist) c).1.pusOsqp = (history fresh hist).pusOsqp ∧
        (Strips c → (gen (history fresh hist) c).1.pusScs = scsDropped) ∧
        (¬ Strips c → (gen (history fresh hist) c).1.pusScs = (history fresh hist).pusScs) := by
      rw [e]
      cases hf : c.fails with
      | none =>
        simp only [reduceCtorEq, if_false]
        unfold after configured
        by_cases hs : c.iface = .scs ∧ c.quad = false
        · rw [if_pos hs]
          exact ⟨rfl, fun _ => rfl, fun h => absurd ⟨hs.1, hs.2, .inl hf⟩ h⟩
        · rw [if_neg hs]
          exact ⟨rfl, fun h => absurd ⟨h.1, h.2.1⟩ hs, fun _ => rfl⟩
      | some p =>
        have hn : p ≠ .afterUpdate → ¬ Strips c := by
          rintro hp ⟨_, _, h | h⟩
          · rw [hf] at h; cases h
          · rw [hf] at h; cases h; exact hp rfl
        cases p with
        | beforeInterface => simpa using fun h => absurd h (hn (by decide))
        | beforeWriting => simp; exact ⟨rfl, fun h => absurd h (hn (by decide)), fun _ => rfl⟩
        | inWorkspace =>
          simp
          split <;> exact ⟨rfl, fun h => absurd h (hn (by decide)), fun _ => rfl⟩
        | beforeUpdate => simp; exact ⟨rfl, fun h => absurd h (hn (by decide)), fun _ => rfl⟩
        | afterUpdate =>
          simp
          unfold after configured
          by_cases hs : c.iface = .scs ∧ c.quad = false
          · rw [if_pos hs]
            exact ⟨rfl, fun _ => rfl, fun h => absurd ⟨hs.1, hs.2, .inr hf⟩ h⟩
          · rw [if_neg hs]
            exact ⟨rfl, fun h => absurd ⟨h.1, h.2.1⟩ hs, fun _ => rfl⟩
    obtain ⟨p1, p2, p3⟩ := hpus
    by_cases hs : Strips c
    · exact ⟨⟨by rw [p1]; exact hR.osqp, .inr (p2 hs)⟩, fun _ => ⟨c, by simp, hs⟩, fun _ => p2 hs⟩
    · refine ⟨⟨by rw [p1]; exact hR.osqp, by rw [p3 hs]; exact hR.scs⟩, ?_⟩
      rw [p3 hs, hi]
      constructor
      · rintro ⟨h, hh, hx⟩; exact ⟨h, by simp [hh], hx⟩
      · rintro ⟨h, hh, hx⟩
        rcases List.mem_append.1 hh with hh | hh
        · exact ⟨h, hh, hx⟩
        · rw [List.mem_singleton.1 hh] at hx; exact absurd hx hs

/-- For a quadratic objective, the structure without `P` gives the same text exactly if neither `P` nor `A` can change. -/
theorem scs_block_differs (b : CId → Bool) :
    ((res (genBlock (scs true).pus true (changesOf (Kind.scs.canonIds true) b) id)).map Prod.fst
      = (res (genBlock scsDropped true (changesOf (Kind.scs.canonIds true) b) id)).map Prod.fst) ↔
    changesOf (Kind.scs.canonIds true) b .P = some false ∧ changesOf (Kind.scs.canonIds true) b .A = some false := by
  refine forall_changes .scs true (fun ch =>
    ((res (genBlock (scs true).pus true ch id)).map Prod.fst = (res (genBlock scsDropped true ch id)).map Prod.fst) ↔ ch .P = some false ∧ ch .A = some false) ?_ b
  decide +kernel

theorem writeSolve_block (s : Classes) (c : Call) (ws : Txt × Txt) (out : Out) (h : (writeSolve s c ws).2 = .ok out) :
    ∃ s', block s c = .ok (out.block, s') := by
  unfold writeSolve at h
  split at h
  · cases h
  · split at h
    · cases h
    · rename_i toks s' hb
      split at h
      · cases h
      · cases h; exact ⟨s', hb⟩

theorem gen_block (s : Classes) (c : Call) (out : Out) (h : (gen s c).2 = .ok out) :
    ∃ s1 s2, s1.pusScs = s.pusScs ∧ s1.pusOsqp = s.pusOsqp ∧ block s1 c = .ok (out.block, s2) := by
  unfold gen at h
  split at h
  · cases h
  · simp only at h
    split at h
    · cases h
    · unfold write at h
      split at h
      · simp only at h
        split at h
        · cases h
        · obtain ⟨s', h'⟩ := writeSolve_block _ _ _ _ h
          refine ⟨_, s', ?_, ?_, h'⟩ <;> rfl
      · split at h
        · cases h
        · obtain ⟨s', h'⟩ := writeSolve_block _ _ _ _ h
          refine ⟨_, s', ?_, ?_, h'⟩ <;> rfl

/-- **C22 (block, iff)** After any history of calls, the update block of `cpg_solve` is the one that a fresh process writes, exactly unless
this is a call for SCS with quadratic objective whose quadratic or constraint matrix can change and an earlier call for SCS without
quadratic objective got as far as the update block. -/
theorem C22_block_iff (hist : List Call) (hv : ∀ h ∈ hist, Valid h) (c : Call) (hc : Valid c) (out out0 : Out)
    (ho : (gen (history fresh hist) c).2 = .ok out) (h0 : (gen fresh c).2 = .ok out0) :
    out.block = out0.block ↔ ¬ (c.iface = .scs ∧ c.quad = true ∧ (c.changes .P = some true ∨ c.changes .A = some true) ∧
      ∃ h ∈ hist, Strips h) := by
  obtain ⟨hR, hi⟩ := history_reach hist hv
  obtain ⟨s1, s2, e1, e2, hb⟩ := gen_block _ _ _ ho
  obtain ⟨t1, t2, f1, f2, hb0⟩ := gen_block _ _ _ h0
  have R1 : Reach s1 := ⟨by rw [e2]; exact hR.osqp, by rw [e1]; exact hR.scs⟩
  have T1 : Reach t1 := ⟨by rw [f2]; rfl, .inl (by rw [f1]; rfl)⟩
  obtain ⟨toks, k1, k2⟩ := Verif.Lemmas.Shared.block_spec s1 R1 c hc
  obtain ⟨toks0, l1, l2⟩ := Verif.Lemmas.Shared.block_spec t1 T1 c hc
  rw [hb] at k1
  rw [hb0] at l1
  cases k1
  cases l1
  have l3 := l2 fun _ _ => by rw [f1]; rfl
  by_cases hq : c.iface = .scs ∧ c.quad = true
  · obtain ⟨hsc, hqu⟩ := hq
    by_cases hx : ∃ h ∈ hist, Strips h
    · obtain ⟨hp, b, hch⟩ := hc.keys .scs (by rw [hsc]; rfl)
      have hon := Verif.Lemmas.Shared.scs_only c.quad b
      rw [hqu] at hch hon
      rw [← hch] at hon
      have hred : ∀ (s s' : Classes) (t : List Tok), block s c = .ok (t, s') →
          (res (genBlock s.pusScs true c.changes c.order)).map Prod.fst = some t := by
        intro s s' t h
        unfold block pusOf at h
        rw [if_neg (by rw [hsc]; decide)] at h
        simp only [hsc, hqu] at h
        cases hg : genBlock s.pusScs true c.changes c.order with
        | error e => rw [hg] at h; cases h
        | ok r => rw [hg] at h; cases h; rfl
      have a1 := hred _ _ _ hb
      have a0 := hred _ _ _ hb0
      rw [e1, hi.mpr hx, Verif.Lemmas.Shared.scs_order hon.2 true c.order hc.perm] at a1
      have hf1 : t1.pusScs = (scs true).pus := by rw [f1]; rfl
      rw [hf1, Verif.Lemmas.Shared.scs_order hon.1 true c.order hc.perm] at a0
      have key := scs_block_differs b
      rw [← hch, a1, a0] at key
      have hP : c.changes .P = some (b .P) := by rw [hch]; rfl
      have hA : c.changes .A = some (b .A) := by rw [hch]; rfl
      constructor
      · rintro h ⟨-, -, h3, -⟩
        have := key.mp (by rw [h])
        rcases h3 with h3 | h3
        · rw [this.1] at h3; cases h3
        · rw [this.2] at h3; cases h3
      · intro h
        have h4 : ¬ (c.changes .P = some true ∨ c.changes .A = some true) := fun h4 => h ⟨hsc, hqu, h4, hx⟩
        have := key.mpr (by
          rw [hP, hA] at h4 ⊢
          cases hbp : b .P <;> cases hba : b .A <;> simp_all)
        exact (Option.some.inj this).symm
    · refine ⟨fun _ h => hx h.2.2.2, fun _ => ?_⟩
      have hs : s1.pusScs = (scs true).pus := by
        rw [e1]
        rcases hR.scs with h | h
        · exact h
        · exact absurd (hi.mp h) hx
      have k3 := k2 fun _ _ => hs
      rw [l3] at k3
      exact (Prod.mk.inj (Except.ok.inj k3)).1.symm
  · refine ⟨fun _ h => hq ⟨h.1, h.2.1⟩, fun _ => ?_⟩
    have k3 := k2 fun a b => absurd ⟨a, b⟩ hq
    rw [l3] at k3
    exact (Prod.mk.inj (Except.ok.inj k3)).1.symm

/-- Both sides occur: a quadratic problem for SCS after a linear one and after itself. -/
example : Strips shLin ∧ ¬ Strips shQuad ∧ shQuad.iface = .scs ∧ shQuad.quad = true ∧ shQuad.changes .P = some true :=
  ⟨⟨rfl, rfl, .inl rfl⟩, fun h => absurd h.2.1 (by decide), rfl, rfl, rfl⟩

end Verif.Props
