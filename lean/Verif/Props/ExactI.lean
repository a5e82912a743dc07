import Verif.Props.ExactG
/-!
# C23: the exact traces of one call in the later ones
-/
namespace Verif.Props
open Verif.Model Verif.Model.Text Verif.Model.Dispatch Verif.Model.Shared Verif.Spec.Shared
open Verif.Lemmas
open Verif.Lemmas.Shared (scsDropped Reach res after configured)

theorem blocks_same {s t s' t' : Classes} {c : Call} {b b' : List Tok} (h : block s c = .ok (b, s')) (h' : block t c = .ok (b', t'))
    (ho : s.pusOsqp = t.pusOsqp) (hs : s.pusScs = t.pusScs) : b = b' := by
  have hp : pusOf s c = pusOf t c := by
    unfold pusOf
    cases c.iface <;> simp [ho, hs]
  unfold block at h h'
  rw [hp] at h
  by_cases hi : c.iface = .pdaqp
  · rw [if_pos hi] at h h'
    cases h; cases h'; rfl
  · rw [if_neg hi] at h h'
    cases hg : genBlock (pusOf t c) c.quad c.changes c.order with
    | error e => rw [hg] at h; cases h
    | ok r =>
      rw [hg] at h h'
      cases h; cases h'; rfl

/-- The text for SCS with a quadratic objective depends on whether `P` was removed exactly if `P` or `A` can change; other texts do not. -/
theorem blocks_eq_iff {s t s' t' : Classes} (R : Reach s) (T : Reach t) {c : Call} (hc : Valid c) {b b' : List Tok}
    (h : block s c = .ok (b, s')) (h' : block t c = .ok (b', t')) (hs : s.pusScs = scsDropped) (ht : t.pusScs = (scs true).pus) :
    b = b' ↔ ¬ (c.iface = .scs ∧ c.quad = true ∧ (c.changes .P = some true ∨ c.changes .A = some true)) := by
  obtain ⟨toks, k1, k2⟩ := Verif.Lemmas.Shared.block_spec s R c hc
  obtain ⟨toks0, l1, l2⟩ := Verif.Lemmas.Shared.block_spec t T c hc
  rw [h] at k1
  rw [h'] at l1
  cases k1
  cases l1
  have l3 := l2 fun _ _ => ht
  by_cases hq : c.iface = .scs ∧ c.quad = true
  · obtain ⟨hsc, hqu⟩ := hq
    obtain ⟨hp, f, hch⟩ := hc.keys .scs (by rw [hsc]; rfl)
    have hon := Verif.Lemmas.Shared.scs_only c.quad f
    rw [hqu] at hch hon
    rw [← hch] at hon
    have hred : ∀ (s s' : Classes) (t : List Tok), block s c = .ok (t, s') →
        (res (genBlock s.pusScs true c.changes c.order)).map Prod.fst = some t := by
      intro s s' t h
      unfold block pusOf at h
      rw [if_neg (by rw [hsc]; decide)] at h
      simp only [hsc, hqu] at h
      cases hg : genBlock s.pusScs true c.changes c.order with
      | error e => rw [hg] at h; cases h
      | ok r => rw [hg] at h; cases h; rfl
    have a1 := hred _ _ _ h
    have a0 := hred _ _ _ h'
    rw [hs, Verif.Lemmas.Shared.scs_order hon.2 true c.order hc.perm] at a1
    rw [ht, Verif.Lemmas.Shared.scs_order hon.1 true c.order hc.perm] at a0
    have key := scs_block_differs f
    rw [← hch, a1, a0] at key
    have hP : c.changes .P = some (f .P) := by rw [hch]; rfl
    have hA : c.changes .A = some (f .A) := by rw [hch]; rfl
    constructor
    · rintro h ⟨-, -, h3⟩
      have := key.mp (by rw [h])
      rcases h3 with h3 | h3
      · rw [this.1] at h3; cases h3
      · rw [this.2] at h3; cases h3
    · intro h
      have h4 : ¬ (c.changes .P = some true ∨ c.changes .A = some true) := fun h4 => h ⟨hsc, hqu, h4⟩
      have := key.mpr (by
        rw [hP, hA] at h4 ⊢
        cases hbp : f .P <;> cases hba : f .A <;> simp_all)
      exact (Option.some.inj this).symm
  · refine ⟨fun _ h => hq ⟨h.1, h.2.1⟩, fun _ => ?_⟩
    have k3 := k2 fun a b => absurd ⟨a, b⟩ hq
    rw [l3] at k3
    exact (Prod.mk.inj (Except.ok.inj k3)).1.symm

/-- **C23, exactly.** Compare a later successful call with the same call in a process in which `f`, successful or not, was not made.
Settings: those that `f` enabled for this interface are added, if `f` got as far as creating it. Pointers: unchanged unless `f` stopped while the
workspace of two-stage mode was written; then they are those of `f`, unless another such call follows. Update block: it differs exactly if this is
a call for SCS with quadratic objective in which `P` or `A` can change, and `f` is the only call for SCS without quadratic objective that got as
far as the update block. -/
theorem C23_exact (before later : List Call) (f c : Call) (hb : ∀ h ∈ before, Valid h) (hf : Valid f) (hl : ∀ h ∈ later, Valid h) (hc : Valid c)
    (out out' : Out) (ho : (gen (history fresh (before ++ f :: later)) c).2 = .ok out) (ho' : (gen (history fresh (before ++ later)) c).2 = .ok out') :
    (∀ n, n ∈ out.settings ↔ n ∈ out'.settings ∨
      (f.iface = c.iface ∧ f.fails ≠ some .beforeInterface ∧ n ∈ f.enable ∧ ∃ b, (n, b) ∈ settings0 c.iface)) ∧
    (stopped c.iface f = false → out.solvePtrs = out'.solvePtrs) ∧
    (stopped c.iface f = true → later.any (stopped c.iface) = false → out.solvePtrs.2 = "gradient_".toList ++ f.pfx ++ "sol_y".toList) ∧
    (out.block = out'.block ↔ ¬ (c.iface = .scs ∧ c.quad = true ∧ (c.changes .P = some true ∨ c.changes .A = some true) ∧ Strips f ∧
      ∀ h ∈ before ++ later, ¬ Strips h)) := by
  refine ⟨?_, ?_, ?_, ?_⟩
  · intro n
    rw [C22_settings_exact _ c out ho n, C22_settings_exact _ c out' ho' n]
    unfold Offered
    constructor
    · rintro ⟨b, h1, h2 | h2 | ⟨h, hh, h3⟩⟩
      · exact .inl ⟨b, h1, .inl h2⟩
      · exact .inl ⟨b, h1, .inr (.inl h2)⟩
      · rcases List.mem_append.1 hh with hh | hh
        · exact .inl ⟨b, h1, .inr (.inr ⟨h, List.mem_append_left _ hh, h3⟩)⟩
        · rcases List.mem_cons.1 hh with rfl | hh
          · exact .inr ⟨h3.1, h3.2.1, h3.2.2, b, h1⟩
          · exact .inl ⟨b, h1, .inr (.inr ⟨h, List.mem_append_right _ hh, h3⟩)⟩
    · rintro (⟨b, h1, h2 | h2 | ⟨h, hh, h3⟩⟩ | ⟨h1, h2, h3, b, h4⟩)
      · exact ⟨b, h1, .inl h2⟩
      · exact ⟨b, h1, .inr (.inl h2)⟩
      · refine ⟨b, h1, .inr (.inr ⟨h, ?_, h3⟩)⟩
        rcases List.mem_append.1 hh with hh | hh
        · exact List.mem_append_left _ hh
        · exact List.mem_append_right _ (List.mem_cons_of_mem _ hh)
      · exact ⟨b, h4, .inr (.inr ⟨f, by simp, h1, h2, h3⟩)⟩
  · intro hs
    rw [C22_pointers_exact _ c out ho, C22_pointers_exact _ c out' ho']
    simp only [List.filter_append, List.filter_cons, hs, Bool.false_and, Bool.false_eq_true, if_false]
  · intro hs hla
    rw [C22_pointers_exact _ c out ho]
    have : (before ++ f :: later).filter (stopped c.iface) = before.filter (stopped c.iface) ++ [f] := by
      rw [List.filter_append, List.filter_cons, if_pos hs]
      have h0 : later.filter (stopped c.iface) = [] := by
        rw [List.filter_eq_nil_iff]
        intro h hh he
        rw [List.any_eq_false] at hla
        exact hla h hh he
      rw [h0]
    simp only [this, List.getLast?_append, List.getLast?_singleton, Option.some_or]
  · have hv : ∀ h ∈ before ++ f :: later, Valid h := by
      intro h hh
      rcases List.mem_append.1 hh with hh | hh
      · exact hb h hh
      · rcases List.mem_cons.1 hh with rfl | hh
        · exact hf
        · exact hl h hh
    have hv' : ∀ h ∈ before ++ later, Valid h := by
      intro h hh
      rcases List.mem_append.1 hh with hh | hh
      · exact hb h hh
      · exact hl h hh
    obtain ⟨R, hi⟩ := history_reach _ hv
    obtain ⟨R', hi'⟩ := history_reach _ hv'
    obtain ⟨s1, s2, e1, e2, hb1⟩ := gen_block _ _ _ ho
    obtain ⟨t1, t2, f1, f2, hb2⟩ := gen_block _ _ _ ho'
    have hos : s1.pusOsqp = t1.pusOsqp := by rw [e2, f2, R.osqp, R'.osqp]
    have R1 : Reach s1 := ⟨by rw [e2]; exact R.osqp, by rw [e1]; exact R.scs⟩
    have T1 : Reach t1 := ⟨by rw [f2]; exact R'.osqp, by rw [f1]; exact R'.scs⟩
    have hnest : (∃ h ∈ before ++ f :: later, Strips h) ↔ Strips f ∨ ∃ h ∈ before ++ later, Strips h := by
      simp only [List.mem_append, List.mem_cons]
      constructor
      · rintro ⟨h, hh | rfl | hh, hx⟩
        · exact .inr ⟨h, .inl hh, hx⟩
        · exact .inl hx
        · exact .inr ⟨h, .inr hh, hx⟩
      · rintro (hx | ⟨h, hh | hh, hx⟩)
        · exact ⟨f, .inr (.inl rfl), hx⟩
        · exact ⟨h, .inl hh, hx⟩
        · exact ⟨h, .inr (.inr hh), hx⟩
    by_cases hx : ∃ h ∈ before ++ later, Strips h
    · have : s1.pusScs = t1.pusScs := by rw [e1, f1, hi.mpr (hnest.mpr (.inr hx)), hi'.mpr hx]
      refine iff_of_true (blocks_same hb1 hb2 hos this) ?_
      rintro ⟨-, -, -, -, h⟩
      obtain ⟨g, hg, hs⟩ := hx
      exact h g hg hs
    · have ht : t1.pusScs = (scs true).pus := by
        rw [f1]
        rcases R'.scs with h | h
        · exact h
        · exact absurd (hi'.mp h) hx
      by_cases hs : Strips f
      · have hsd : s1.pusScs = scsDropped := by rw [e1]; exact hi.mpr (hnest.mpr (.inl hs))
        rw [blocks_eq_iff R1 T1 hc hb1 hb2 hsd ht]
        refine not_congr ⟨fun ⟨a, b, d⟩ => ⟨a, b, d, hs, fun h hh hst => hx ⟨h, hh, hst⟩⟩, fun ⟨a, b, d, _⟩ => ⟨a, b, d⟩⟩
      · have hse : s1.pusScs = t1.pusScs := by
          rw [ht, e1]
          rcases R.scs with h | h
          · exact h
          · exact absurd (hnest.mp (hi.mp h)) (by rintro (h | h); exacts [hs h, hx h])
        exact iff_of_true (blocks_same hb1 hb2 hos hse) fun h => hs h.2.2.2.1

/-- **C23, outcomes.** No call, successful or failing, makes a later one raise: after every history a call raises exactly the exception that it
brings itself. -/
theorem C23_outcome (hist : List Call) (hv : ∀ h ∈ hist, Valid h) (c : Call) (hc : Valid c) :
    (∀ e, (gen (history fresh hist) c).2 = .error e ↔ ∃ p, c.fails = some p ∧ e = .failed p) ∧
    ((∃ out, (gen (history fresh hist) c).2 = .ok out) ↔ c.fails = none) := by
  obtain ⟨toks, h, -⟩ := Verif.Lemmas.Shared.gen_snd _ (history_reach hist hv).1 c hc
  cases hf : c.fails with
  | none =>
    rw [hf] at h
    refine ⟨fun e => ⟨fun he => ?_, fun ⟨p, hp, _⟩ => by cases hp⟩, fun _ => rfl, fun _ => ⟨_, h⟩⟩
    rw [h] at he
    cases he
  | some p =>
    rw [hf] at h
    refine ⟨fun e => ⟨fun he => ?_, fun ⟨q, hq, he⟩ => ?_⟩, fun ⟨out, ho⟩ => ?_, fun hn => by cases hn⟩
    · rw [h] at he
      exact ⟨p, rfl, (Except.error.inj he).symm⟩
    · cases hq
      rw [h, he]
    · rw [h] at ho
      cases ho

/-- The hypotheses are met by a failing call between two successful ones, and by the call that stops. -/
example : (∃ out, (gen (history fresh ([shPolish] ++ { shLin with fails := some .afterUpdate } :: [])) shQuad).2 = .ok out) ∧
    (∃ out, (gen (history fresh ([shPolish] ++ [])) shQuad).2 = .ok out) ∧
    Strips { shLin with fails := some .afterUpdate } ∧ stopped .scs shBroken = true ∧ (∀ h ∈ [shPolish] ++ [], ¬ Strips h) := by
  refine ⟨⟨_, rfl⟩, ⟨_, rfl⟩, ⟨rfl, rfl, .inr rfl⟩, by decide, ?_⟩
  intro h hh
  rw [List.append_nil, List.mem_singleton] at hh
  rw [hh]
  exact fun h => absurd h.1 (by decide)

end Verif.Props
