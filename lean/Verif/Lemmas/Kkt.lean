import Verif.Model.Gradient
import Verif.Spec.Gradient
import Verif.Lemmas.GradFactor
namespace Verif.Lemmas.Grad
open Verif.Model.Factor Verif.Model.Grad Verif.Spec.Factor Verif.Spec.Grad Verif.Lemmas.Factor Finset

variable {R : Type} [Field R] [DecidableEq R]

omit [DecidableEq R] in
theorem ColValid.mono_le {N : Nat} {M : CscL R} (h : ColValid N M) {a b : Nat} (hab : a ≤ b)
    (hb : b ≤ N) : M.p a ≤ M.p b := by
  induction b with
  | zero => obtain rfl : a = 0 := by omega
            exact Nat.le_refl _
  | succ b ih =>
    rcases Nat.lt_or_ge a (b + 1) with h' | h'
    · exact Nat.le_trans (ih (by omega) (by omega)) (h.mono b (by omega))
    · obtain rfl : a = b + 1 := by omega
      exact Nat.le_refl _

omit [DecidableEq R] in
theorem ColValid.same {N : Nat} {M M' : CscL R} (h : ColValid N M) (hS : SamePat M M') : ColValid N M' := by
  constructor
  · intro c hc; rw [hS.p]; exact h.mono c hc
  · intro c hc k k' h1 h2 h3
    rw [hS.p] at h1 h3
    rw [hS.i]
    exact h.inj c hc k k' h1 h2 h3

omit [DecidableEq R] in
theorem ColValid.slot {N : Nat} {M : CscL R} (h : ColValid N M) {c k k' : Nat} (hc : c < N)
    (h1 : M.p c ≤ k) (h2 : k < M.p (c + 1)) (h1' : M.p c ≤ k') (h2' : k' < M.p (c + 1))
    (he : M.i k = M.i k') : k = k' := by
  rcases Nat.lt_trichotomy k k' with hlt | heq | hgt
  · exact absurd he (h.inj c hc k k' h1 hlt h2')
  · exact heq
  · exact absurd he.symm (h.inj c hc k' k h1' hgt h2)

omit [DecidableEq R] in
theorem ColValid.col {N : Nat} {M : CscL R} (h : ColValid N M) {c c' k : Nat} (hc : c < N) (hc' : c' < N)
    (h1 : M.p c ≤ k) (h2 : k < M.p (c + 1)) (h1' : M.p c' ≤ k) (h2' : k < M.p (c' + 1)) : c = c' := by
  rcases Nat.lt_trichotomy c c' with hlt | heq | hgt
  · have := ColValid.mono_le h (show c + 1 ≤ c' by omega) (by omega); omega
  · exact heq
  · have := ColValid.mono_le h (show c' + 1 ≤ c by omega) (by omega); omega

omit [DecidableEq R] in
theorem ColValid.ent {N : Nat} {M : CscL R} (h : ColValid N M) {c k : Nat} (hc : c < N)
    (h1 : M.p c ≤ k) (h2 : k < M.p (c + 1)) : ent M (M.i k) c = M.x k := by
  unfold Verif.Spec.Factor.ent
  rw [sum_eq_single k, if_pos rfl]
  · intro k' hk' hne
    have := mem_Ico.1 hk'
    rw [if_neg]
    intro he
    exact hne (ColValid.slot h hc this.1 this.2 h1 h2 he)
  · intro hk
    exact absurd (mem_Ico.2 ⟨h1, h2⟩) hk

theorem setFirst_at (i : Nat → Nat) (t : Nat) (v : R) (ks : List Nat) (x : Nat → R) (k0 : Nat)
    (hk : k0 ∈ ks) (ht : i k0 = t) (hu : ∀ k ∈ ks, i k = t → k = k0) :
    setFirst i t v ks x = upd x k0 v := by
  induction ks with
  | nil => cases hk
  | cons k ks ih =>
    unfold setFirst
    by_cases h : i k = t
    · rw [if_pos h, hu k (List.mem_cons_self ..) h]
    · rw [if_neg h]
      rcases List.mem_cons.1 hk with h' | h'
      · exact absurd (h' ▸ ht) h
      · exact ih h' (fun k hk => hu k (List.mem_cons_of_mem _ hk))

theorem setFirst_none (i : Nat → Nat) (t : Nat) (v : R) (ks : List Nat) (x : Nat → R)
    (hu : ∀ k ∈ ks, i k ≠ t) : setFirst i t v ks x = x := by
  induction ks with
  | nil => rfl
  | cons k ks ih =>
    unfold setFirst
    rw [if_neg (hu k (List.mem_cons_self ..))]
    exact ih (fun k hk => hu k (List.mem_cons_of_mem _ hk))

theorem setEntry_samePat (M : CscL R) (line t : Nat) (v : R) : SamePat M (setEntry M line t v) :=
  ⟨rfl, rfl, rfl⟩

/-- Writing at a stored position. -/
theorem setEntry_ent {N : Nat} {M : CscL R} (h : ColValid N M) {line t : Nat} (hl : line < N)
    (ho : Occupied M t line) (v : R) {r c : Nat} (hc : c < N) :
    ent (setEntry M line t v) r c = if r = t ∧ c = line then v else ent M r c := by
  obtain ⟨k0, h1, h2, h3⟩ := (occupied_iff M t line).1 ho
  have hx : (setEntry M line t v).x = upd M.x k0 v := by
    unfold setEntry
    exact setFirst_at _ _ _ _ _ k0 (mem_loop.2 ⟨h1, h2⟩) h3 (fun k hk he => by
      have := mem_loop.1 hk
      exact ColValid.slot h hl this.1 this.2 h1 h2 (he.trans h3.symm))
  by_cases hrc : r = t ∧ c = line
  · rw [if_pos hrc, hrc.1, hrc.2, ← h3]
    have := ColValid.ent (ColValid.same h (setEntry_samePat M line t v)) hl (k := k0) h1 h2
    rw [hx] at this
    have e2 : (setEntry M line t v).i k0 = M.i k0 := rfl
    rw [e2] at this
    rw [h3] at this ⊢
    refine Eq.trans this ?_
    simp [upd]
  · rw [if_neg hrc]
    unfold ent
    rw [hx]
    apply sum_congr rfl
    intro k hk
    have hk' : M.p c ≤ k ∧ k < M.p (c + 1) := mem_Ico.1 hk
    change (if M.i k = r then upd M.x k0 v k else 0) = if M.i k = r then M.x k else 0
    by_cases he : M.i k = r
    · rw [if_pos he, if_pos he]
      unfold upd
      rw [if_neg]
      intro hkk
      subst hkk
      exact hrc ⟨he.symm.trans h3, ColValid.col h hc hl hk'.1 hk'.2 h1 h2⟩
    · rw [if_neg he, if_neg he]

/-- A sequence of writes (line, position in the line, value). -/
def wr (M : CscL R) (ws : List (Nat × Nat × R)) : CscL R :=
  ws.foldl (fun M w => setEntry M w.1 w.2.1 w.2.2) M

theorem wr_spec {N : Nat} (ws : List (Nat × Nat × R)) (M : CscL R) (h : ColValid N M)
    (ho : ∀ w ∈ ws, w.1 < N ∧ Occupied M w.2.1 w.1)
    (hd : ws.Pairwise (fun w w' => (w.1, w.2.1) ≠ (w'.1, w'.2.1))) :
    SamePat M (wr M ws) ∧ (∀ w ∈ ws, ent (wr M ws) w.2.1 w.1 = w.2.2) ∧
    ∀ r c, c < N → (∀ w ∈ ws, (w.1, w.2.1) ≠ (c, r)) → ent (wr M ws) r c = ent M r c := by
  induction ws generalizing M with
  | nil => exact ⟨SamePat.refl M, fun w hw => absurd hw (List.not_mem_nil), fun r c _ _ => rfl⟩
  | cons w ws ih =>
    have hp := setEntry_samePat M w.1 w.2.1 w.2.2
    obtain ⟨hw1, hw2⟩ := ho w (List.mem_cons_self ..)
    obtain ⟨d1, d2⟩ := List.pairwise_cons.1 hd
    obtain ⟨i1, i2, i3⟩ := ih (setEntry M w.1 w.2.1 w.2.2) (ColValid.same h hp)
      (fun w' hw' => by
        obtain ⟨a, b⟩ := ho w' (List.mem_cons_of_mem _ hw')
        exact ⟨a, (hp.occ _ _).2 b⟩) d2
    refine ⟨hp.trans i1, ?_, ?_⟩
    · intro w' hw'
      rcases List.mem_cons.1 hw' with rfl | hm
      · have := i3 w'.2.1 w'.1 hw1 (fun w2 h2 he => d1 w2 h2 he.symm)
        refine this.trans ?_
        rw [setEntry_ent h hw1 hw2 _ hw1, if_pos ⟨rfl, rfl⟩]
      · exact i2 w' hm
    · intro r c hc hne
      have := i3 r c hc (fun w2 h2 => hne w2 (List.mem_cons_of_mem _ h2))
      refine this.trans ?_
      rw [setEntry_ent h hw1 hw2 _ hc, if_neg]
      rintro ⟨rfl, rfl⟩
      exact hne w (List.mem_cons_self ..) rfl

/-- All stored entries: (column, slot). -/
def pairs (n : Nat) (M : CscL R) : List (Nat × Nat) :=
  (loop 0 n).flatMap (fun c => (loop (M.p c) (M.p (c + 1))).map (fun k => (c, k)))

theorem mem_pairs {n : Nat} {M : CscL R} {e : Nat × Nat} :
    e ∈ pairs n M ↔ e.1 < n ∧ M.p e.1 ≤ e.2 ∧ e.2 < M.p (e.1 + 1) := by
  unfold pairs
  constructor
  · intro h
    obtain ⟨c, hc, h⟩ := List.mem_flatMap.1 h
    obtain ⟨k, hk, rfl⟩ := List.mem_map.1 h
    have := mem_loop.1 hc
    have := mem_loop.1 hk
    simp only
    omega
  · rintro ⟨h1, h2, h3⟩
    refine List.mem_flatMap.2 ⟨e.1, mem_loop.2 ⟨Nat.zero_le _, h1⟩, ?_⟩
    exact List.mem_map.2 ⟨e.2, mem_loop.2 ⟨h2, h3⟩, rfl⟩

theorem loop_pairwise (a b : Nat) : (loop a b).Pairwise (· < ·) := by
  unfold loop; exact List.pairwise_lt_range'

theorem pairs_pairwise {n : Nat} {M : CscL R} (h : ColValid n M) :
    (pairs n M).Pairwise (fun e e' => (e.1, M.i e.2) ≠ (e'.1, M.i e'.2)) := by
  unfold pairs
  rw [List.pairwise_flatMap]
  constructor
  · intro c hc
    have hc' := (mem_loop.1 hc).2
    rw [List.pairwise_map]
    refine List.Pairwise.imp_of_mem ?_ (loop_pairwise _ _)
    intro k k' hk hk' hlt heq
    have e1 := mem_loop.1 hk
    have e2 := mem_loop.1 hk'
    exact h.inj c hc' k k' e1.1 hlt e2.2 (Prod.mk.inj heq).2
  · refine List.Pairwise.imp ?_ (loop_pairwise _ _)
    intro c c' hlt e he e' he' heq
    obtain ⟨k, _, rfl⟩ := List.mem_map.1 he
    obtain ⟨k', _, rfl⟩ := List.mem_map.1 he'
    have := (Prod.mk.inj heq).1
    simp only at this
    omega

theorem nested_fold {S : Type} (n : Nat) (M : CscL R) (f : Nat → S → Nat → S) (s : S) :
    (loop 0 n).foldl (fun s c => (loop (M.p c) (M.p (c + 1))).foldl (f c) s) s =
      (pairs n M).foldl (fun s e => f e.1 s e.2) s := by
  unfold pairs
  rw [List.foldl_flatMap]
  congr 1
  funext s c
  rw [List.foldl_map]

theorem pToK_eq (eps : R) (n : Nat) (P : CscL R) (s : Kkt R) :
    pToK eps n P s =
      { K := wr s.K ((pairs n P).map (fun e => (e.1, P.i e.2, if P.i e.2 = e.1 then P.x e.2 + eps else P.x e.2)))
        Kt := wr s.Kt ((pairs n P).map (fun e => (P.i e.2, e.1, P.x e.2))) } := by
  unfold pToK
  rw [nested_fold n P (fun c => pEntry eps P c)]
  generalize pairs n P = es
  induction es generalizing s with
  | nil => rfl
  | cons e es ih =>
    rw [List.foldl_cons, ih]
    rfl

theorem aToK_eq (n : Nat) (A : CscL R) (s : Kkt R) :
    aToK n A s =
      { K := wr s.K ((pairs n A).map (fun e => (n + A.i e.2, e.1, A.x e.2)))
        Kt := wr s.Kt ((pairs n A).flatMap (fun e => [(e.1, n + A.i e.2, A.x e.2),
          (n + A.i e.2, e.1, A.x e.2)])) } := by
  unfold aToK
  rw [nested_fold n A (fun c => aEntry n A c)]
  generalize pairs n A = es
  induction es generalizing s with
  | nil => rfl
  | cons e es ih =>
    rw [List.foldl_cons, ih]
    rfl

theorem SamePattern.toSame {M M' : CscL R} (h : SamePattern M M') : 
    ∀ r c, Occupied M' r c ↔ Occupied M r c := by
  intro r c
  rw [occupied_iff, occupied_iff, h.1, h.2]

omit [DecidableEq R] in
theorem SamePattern.col {n : Nat} {M M' : CscL R} (h : SamePattern M M') (hv : ColValid n M) : ColValid n M' := by
  constructor
  · intro c hc; rw [h.1]; exact hv.mono c hc
  · intro c hc k k' h1 h2 h3
    rw [h.1] at h1 h3
    rw [h.2]
    exact hv.inj c hc k k' h1 h2 h3

/-- Refreshing `P`. -/
theorem pToK_spec {eps : R} {n N : Nat} {P A P' : CscL R} {s : Kkt R}
    (hS : HasSlots n N P A s.K s.Kt) (hP : SamePattern P P')
    (h : IsKkt eps n N (ent P) (ent A) s.K s.Kt) :
    SamePat s.K (pToK eps n P' s).K ∧ SamePat s.Kt (pToK eps n P' s).Kt ∧
    IsKkt eps n N (ent P') (ent A) (pToK eps n P' s).K (pToK eps n P' s).Kt := by
  have hV' := SamePattern.col hP hS.vP
  have hocc := SamePattern.toSame hP
  have hpos : ∀ e ∈ pairs n P', e.1 < n ∧ Occupied P' (P'.i e.2) e.1 := by
    intro e he
    obtain ⟨a, b, c⟩ := mem_pairs.1 he
    exact ⟨a, (occupied_iff _ _ _).2 ⟨e.2, b, c, rfl⟩⟩
  have hnN := hS.nN
  obtain ⟨k1, k2, k3⟩ := wr_spec ((pairs n P').map
      (fun e => (e.1, P'.i e.2, if P'.i e.2 = e.1 then P'.x e.2 + eps else P'.x e.2))) s.K hS.vK (by
    intro w hw
    obtain ⟨e, he, rfl⟩ := List.mem_map.1 hw
    obtain ⟨a, b⟩ := hpos e he
    exact ⟨by simp only; omega, (hS.PK _ _ a ((hocc _ _).1 b)).1⟩) (by
    rw [List.pairwise_map]
    exact pairs_pairwise hV')
  obtain ⟨t1, t2, t3⟩ := wr_spec ((pairs n P').map (fun e => (P'.i e.2, e.1, P'.x e.2))) s.Kt hS.vKt (by
    intro w hw
    obtain ⟨e, he, rfl⟩ := List.mem_map.1 hw
    obtain ⟨a, b⟩ := hpos e he
    have hr := hS.Prow _ _ a ((hocc _ _).1 b)
    exact ⟨by simp only; omega, (hS.PK _ _ a ((hocc _ _).1 b)).2⟩) (by
    rw [List.pairwise_map]
    refine (pairs_pairwise hV').imp (fun hne he => hne ?_)
    obtain ⟨e1, e2⟩ := Prod.mk.inj he
    exact Prod.ext e2 e1)
  rw [pToK_eq]
  refine ⟨k1, t1, ?_, ?_⟩
  · intro r hr c hc
    simp only
    by_cases ho : c < n ∧ Occupied P' r c
    · obtain ⟨hcn, ho⟩ := ho
      obtain ⟨k, g1, g2, g3⟩ := (occupied_iff _ _ _).1 ho
      have hrn := hS.Prow _ _ hcn ((hocc _ _).1 ho)
      have hm : (c, k) ∈ pairs n P' := mem_pairs.2 ⟨hcn, g1, g2⟩
      have := k2 _ (List.mem_map.2 ⟨_, hm, rfl⟩)
      simp only [g3] at this
      rw [this, if_neg (show ¬ (n ≤ r ∧ c < n) by omega)]
      unfold kkt
      rw [if_pos hrn, if_pos hcn, ← g3, ColValid.ent hV' hcn g1 g2]
      by_cases hrc : P'.i k = c
      · rw [if_pos hrc, if_pos hrc]
      · rw [if_neg hrc, if_neg hrc, add_zero]
    · rw [k3 r c hc, h.reg r hr c hc]
      · by_cases hb : n ≤ r ∧ c < n
        · rw [if_pos hb, if_pos hb]
        · rw [if_neg hb, if_neg hb]
          unfold kkt
          by_cases hrn : r < n
          · rw [if_pos hrn, if_pos hrn]
            by_cases hcn : c < n
            · rw [if_pos hcn, if_pos hcn, ent_free (fun h' => ho ⟨hcn, h'⟩),
                ent_free (fun h' => ho ⟨hcn, (hocc _ _).2 h'⟩)]
            · rw [if_neg hcn, if_neg hcn]
          · rw [if_neg hrn, if_neg hrn]
      · intro w hw he
        obtain ⟨e, hm, rfl⟩ := List.mem_map.1 hw
        obtain ⟨a, b⟩ := hpos e hm
        obtain ⟨e1, e2⟩ := Prod.mk.inj he
        simp only at e1 e2
        rw [e1, e2] at b
        exact ho ⟨by omega, b⟩
  · intro r hr c hc
    simp only
    by_cases ho : c < n ∧ Occupied P' r c
    · obtain ⟨hcn, ho⟩ := ho
      obtain ⟨k, g1, g2, g3⟩ := (occupied_iff _ _ _).1 ho
      have hrn := hS.Prow _ _ hcn ((hocc _ _).1 ho)
      have hm : (c, k) ∈ pairs n P' := mem_pairs.2 ⟨hcn, g1, g2⟩
      have := t2 _ (List.mem_map.2 ⟨_, hm, rfl⟩)
      simp only [g3] at this
      rw [this]
      unfold kkt
      rw [if_pos hrn, if_pos hcn, ← g3, ColValid.ent hV' hcn g1 g2]
      simp
    · rw [t3 c r hr, h.true r hr c hc]
      · unfold kkt
        by_cases hrn : r < n
        · rw [if_pos hrn, if_pos hrn]
          by_cases hcn : c < n
          · rw [if_pos hcn, if_pos hcn, ent_free (fun h' => ho ⟨hcn, h'⟩),
              ent_free (fun h' => ho ⟨hcn, (hocc _ _).2 h'⟩)]
          · rw [if_neg hcn, if_neg hcn]
        · rw [if_neg hrn, if_neg hrn]
      · intro w hw he
        obtain ⟨e, hm, rfl⟩ := List.mem_map.1 hw
        obtain ⟨a, b⟩ := hpos e hm
        obtain ⟨e1, e2⟩ := Prod.mk.inj he
        simp only at e1 e2
        rw [e1, e2] at b
        exact ho ⟨by omega, b⟩

/-- Refreshing `A`. -/
theorem aToK_spec {eps : R} {n N : Nat} {P A A' : CscL R} {s : Kkt R}
    (hS : HasSlots n N P A s.K s.Kt) (hA : SamePattern A A')
    (h : IsKkt eps n N (ent P) (ent A) s.K s.Kt) :
    SamePat s.K (aToK n A' s).K ∧ SamePat s.Kt (aToK n A' s).Kt ∧
    IsKkt eps n N (ent P) (ent A') (aToK n A' s).K (aToK n A' s).Kt := by
  have hV' := SamePattern.col hA hS.vA
  have hocc := SamePattern.toSame hA
  have hpos : ∀ e ∈ pairs n A', e.1 < n ∧ Occupied A' (A'.i e.2) e.1 := by
    intro e he
    obtain ⟨a, b, c⟩ := mem_pairs.1 he
    exact ⟨a, (occupied_iff _ _ _).2 ⟨e.2, b, c, rfl⟩⟩
  have hnN := hS.nN
  obtain ⟨k1, k2, k3⟩ := wr_spec ((pairs n A').map
      (fun e => (n + A'.i e.2, e.1, A'.x e.2))) s.K hS.vK (by
    intro w hw
    obtain ⟨e, he, rfl⟩ := List.mem_map.1 hw
    obtain ⟨a, b⟩ := hpos e he
    exact ⟨hS.Arow _ _ a ((hocc _ _).1 b), (hS.AK _ _ a ((hocc _ _).1 b)).1⟩) (by
    rw [List.pairwise_map]
    refine (pairs_pairwise hV').imp (fun hne he => hne ?_)
    obtain ⟨e1, e2⟩ := Prod.mk.inj he
    simp only at e1 e2
    exact Prod.ext e2 (by simp only; omega))
  obtain ⟨t1, t2, t3⟩ := wr_spec ((pairs n A').flatMap (fun e => [(e.1, n + A'.i e.2, A'.x e.2),
          (n + A'.i e.2, e.1, A'.x e.2)])) s.Kt hS.vKt (by
    intro w hw
    obtain ⟨e, he, hw⟩ := List.mem_flatMap.1 hw
    obtain ⟨a, b⟩ := hpos e he
    have hr := hS.Arow _ _ a ((hocc _ _).1 b)
    have hk := hS.AK _ _ a ((hocc _ _).1 b)
    rcases List.mem_cons.1 hw with rfl | hw
    · exact ⟨by simp only; omega, hk.2.1⟩
    · rw [List.mem_singleton] at hw
      subst hw
      exact ⟨hr, hk.2.2⟩) (by
    rw [List.pairwise_flatMap]
    constructor
    · intro e he
      obtain ⟨a, b⟩ := hpos e he
      refine List.pairwise_cons.2 ⟨?_, List.pairwise_singleton _ _⟩
      intro w hw he
      rw [List.mem_singleton] at hw
      subst hw
      obtain ⟨e1, e2⟩ := Prod.mk.inj he
      simp only at e1 e2
      omega
    · refine List.Pairwise.imp_of_mem ?_ (pairs_pairwise hV')
      intro e e' hm hm' hne w hw w' hw' he
      obtain ⟨a, b⟩ := hpos e hm
      obtain ⟨a', b'⟩ := hpos e' hm'
      obtain ⟨e1, e2⟩ := Prod.mk.inj he
      apply hne
      rcases List.mem_cons.1 hw with rfl | hw <;> rcases List.mem_cons.1 hw' with rfl | hw'
      · simp only at e1 e2
        exact Prod.ext e1 (by simp only; omega)
      · rw [List.mem_singleton] at hw'
        subst hw'
        simp only at e1 e2
        omega
      · rw [List.mem_singleton] at hw
        subst hw
        simp only at e1 e2
        omega
      · rw [List.mem_singleton] at hw hw'
        subst hw hw'
        simp only at e1 e2
        exact Prod.ext e2 (by simp only; omega))
  rw [aToK_eq]
  refine ⟨k1, t1, ?_, ?_⟩
  · intro r hr c hc
    simp only
    by_cases ho : r < n ∧ n ≤ c ∧ Occupied A' (c - n) r
    · obtain ⟨hrn, hcn, ho⟩ := ho
      obtain ⟨k, g1, g2, g3⟩ := (occupied_iff _ _ _).1 ho
      have hm : (r, k) ∈ pairs n A' := mem_pairs.2 ⟨hrn, g1, g2⟩
      have := k2 _ (List.mem_map.2 ⟨_, hm, rfl⟩)
      simp only [g3] at this
      rw [show n + (c - n) = c by omega] at this
      rw [this, if_neg (by omega)]
      unfold kkt
      rw [if_pos hrn, if_neg (by omega), ← g3, ColValid.ent hV' hrn g1 g2]
    · rw [k3 r c hc, h.reg r hr c hc]
      · by_cases hb : n ≤ r ∧ c < n
        · rw [if_pos hb, if_pos hb]
        · rw [if_neg hb, if_neg hb]
          unfold kkt
          by_cases hrn : r < n
          · rw [if_pos hrn, if_pos hrn]
            by_cases hcn : c < n
            · rw [if_pos hcn, if_pos hcn]
            · rw [if_neg hcn, if_neg hcn, ent_free (fun h' => ho ⟨hrn, by omega, h'⟩),
                ent_free (fun h' => ho ⟨hrn, by omega, (hocc _ _).2 h'⟩)]
          · rw [if_neg hrn, if_neg hrn, if_neg (fun h' => hb ⟨by omega, h'⟩),
              if_neg (fun h' => hb ⟨by omega, h'⟩)]
      · intro w hw he
        obtain ⟨e, hm, rfl⟩ := List.mem_map.1 hw
        obtain ⟨a, b⟩ := hpos e hm
        obtain ⟨e1, e2⟩ := Prod.mk.inj he
        simp only at e1 e2
        refine ho ⟨by omega, by omega, ?_⟩
        rw [← e2, show c - n = A'.i e.2 by omega]
        exact b
  · intro r hr c hc
    simp only
    by_cases ho : r < n ∧ n ≤ c ∧ Occupied A' (c - n) r
    · obtain ⟨hrn, hcn, ho⟩ := ho
      obtain ⟨k, g1, g2, g3⟩ := (occupied_iff _ _ _).1 ho
      have hm : (r, k) ∈ pairs n A' := mem_pairs.2 ⟨hrn, g1, g2⟩
      have := t2 _ (List.mem_flatMap.2 ⟨_, hm, List.mem_cons_self ..⟩)
      simp only [g3] at this
      rw [show n + (c - n) = c by omega] at this
      rw [this]
      unfold kkt
      rw [if_pos hrn, if_neg (by omega), ← g3, ColValid.ent hV' hrn g1 g2]
    · by_cases ho2 : c < n ∧ n ≤ r ∧ Occupied A' (r - n) c
      · obtain ⟨hcn, hrn, ho2⟩ := ho2
        obtain ⟨k, g1, g2, g3⟩ := (occupied_iff _ _ _).1 ho2
        have hm : (c, k) ∈ pairs n A' := mem_pairs.2 ⟨hcn, g1, g2⟩
        have := t2 _ (List.mem_flatMap.2 ⟨_, hm, List.mem_cons_of_mem _ (List.mem_singleton.2 rfl)⟩)
        simp only [g3] at this
        rw [show n + (r - n) = r by omega] at this
        rw [this]
        unfold kkt
        rw [if_neg (by omega), if_pos hcn, ← g3, ColValid.ent hV' hcn g1 g2]
      · rw [t3 c r hr, h.true r hr c hc]
        · unfold kkt
          by_cases hrn : r < n
          · rw [if_pos hrn, if_pos hrn]
            by_cases hcn : c < n
            · rw [if_pos hcn, if_pos hcn]
            · rw [if_neg hcn, if_neg hcn, ent_free (fun h' => ho ⟨hrn, by omega, h'⟩),
                ent_free (fun h' => ho ⟨hrn, by omega, (hocc _ _).2 h'⟩)]
          · rw [if_neg hrn, if_neg hrn]
            by_cases hcn : c < n
            · rw [if_pos hcn, if_pos hcn, ent_free (fun h' => ho2 ⟨hcn, by omega, h'⟩),
                ent_free (fun h' => ho2 ⟨hcn, by omega, (hocc _ _).2 h'⟩)]
            · rw [if_neg hcn, if_neg hcn]
        · intro w hw he
          obtain ⟨e, hm, hw⟩ := List.mem_flatMap.1 hw
          obtain ⟨a, b⟩ := hpos e hm
          obtain ⟨e1, e2⟩ := Prod.mk.inj he
          rcases List.mem_cons.1 hw with rfl | hw
          · simp only at e1 e2
            refine ho ⟨by omega, by omega, ?_⟩
            rw [← e1, show c - n = A'.i e.2 by omega]
            exact b
          · rw [List.mem_singleton] at hw
            subst hw
            simp only at e1 e2
            refine ho2 ⟨by omega, by omega, ?_⟩
            rw [← e2, show r - n = A'.i e.2 by omega]
            exact b

end Verif.Lemmas.Grad
