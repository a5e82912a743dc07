import Verif.Props.Stored
/-! C59: exactly which flags remain when variables are not stored, and when they are the right ones. -/
namespace Verif.Props
open Verif.Model Verif.Model.Stored

variable {α : Type}

/-- The positions of the flags that get lost: those of the variables that are not stored, each moved up by the number of variables before it that
are not stored. -/
def LostFlag (added ns : List String) (p : Nat) : Prop :=
  ∃ j n, ns[j]? = some n ∧ n ∉ added ∧ p = j + nDropped added (ns.take j)

/-- The same by recursion, with positions that start at `p`. -/
def lostFlags (added : List String) : Nat → List String → List Nat
  | _, [] => []
  | p, n :: ns => if n ∈ added then lostFlags added (p + 1) ns else p :: lostFlags added (p + 2) ns

theorem mem_lostFlags (added : List String) : ∀ (ns : List String) (p q : Nat),
    q ∈ lostFlags added p ns ↔ p ≤ q ∧ LostFlag added ns (q - p)
  | [], p, q => by simp [lostFlags, LostFlag]
  | n :: ns, p, q => by
    by_cases ha : n ∈ added
    · rw [lostFlags, if_pos ha, mem_lostFlags added ns (p + 1) q]
      constructor
      · rintro ⟨h, j, m, h1, h2, h3⟩
        refine ⟨by omega, j + 1, m, by simpa using h1, h2, ?_⟩
        rw [List.take_succ_cons, nDropped_in ha]; omega
      · rintro ⟨h, j, m, h1, h2, h3⟩
        cases j with
        | zero =>
          simp only [List.getElem?_cons_zero, Option.some.injEq] at h1
          exact absurd (h1 ▸ ha) h2
        | succ j =>
          rw [List.take_succ_cons, nDropped_in ha] at h3
          exact ⟨by omega, j, m, by simpa using h1, h2, by omega⟩
    · rw [lostFlags, if_neg ha, List.mem_cons, mem_lostFlags added ns (p + 2) q]
      constructor
      · rintro (rfl | ⟨h, j, m, h1, h2, h3⟩)
        · exact ⟨Nat.le_refl _, 0, n, rfl, ha, by simp [nDropped]⟩
        · refine ⟨by omega, j + 1, m, by simpa using h1, h2, ?_⟩
          rw [List.take_succ_cons, nDropped_out ha]; omega
      · rintro ⟨h, j, m, h1, h2, h3⟩
        cases j with
        | zero => left; simp [nDropped] at h3; omega
        | succ j =>
          rw [List.take_succ_cons, nDropped_out ha] at h3
          exact .inr ⟨by omega, j, m, by simpa using h1, h2, by omega⟩

/-- The flags at positions (counted from `p`) that are not lost. -/
def remainingFlags (added ns : List String) (p : Nat) (l : List Bool) : List Bool :=
  ((l.zipIdx p).filter fun e => decide (e.2 ∉ lostFlags added p ns)).map Prod.fst

theorem lostFlags_ge {added : List String} {p q : Nat} {ns : List String} (h : q ∈ lostFlags added p ns) : p ≤ q :=
  ((mem_lostFlags added ns p q).1 h).1

theorem remainingFlags_in {added : List String} {n : String} (h : n ∈ added) (ns : List String) (p : Nat) (x : Bool) (l : List Bool) :
    remainingFlags added (n :: ns) p (x :: l) = x :: remainingFlags added ns (p + 1) l := by
  have hp : p ∉ lostFlags added (p + 1) ns := fun hq => by have := lostFlags_ge hq; omega
  unfold remainingFlags
  rw [lostFlags, if_pos h, List.zipIdx_cons, List.filter_cons_of_pos (by simpa using hp), List.map_cons]

theorem remainingFlags_out {added : List String} {n : String} (h : n ∉ added) (ns : List String) (p : Nat) (x y : Bool) (l : List Bool) :
    remainingFlags added (n :: ns) p (x :: y :: l) = y :: remainingFlags added ns (p + 2) l := by
  have hp : p + 1 ∉ lostFlags added (p + 2) ns := fun hq => by have := lostFlags_ge hq; omega
  unfold remainingFlags
  rw [lostFlags, if_neg h, List.zipIdx_cons, List.filter_cons_of_neg (by simp), List.zipIdx_cons,
    List.filter_cons_of_pos (by simpa using hp), List.map_cons]
  congr 2
  apply List.filter_congr
  intro e he
  have : p + 2 ≤ e.2 := (List.mem_zipIdx he).1
  rw [decide_eq_decide, List.mem_cons, not_or]
  exact ⟨fun h => h.2, fun h => ⟨by omega, h⟩⟩

theorem remainingFlags_last {added : List String} {n : String} (h : n ∉ added) (ns : List String) (p : Nat) (x : Bool) :
    remainingFlags added (n :: ns) p [x] = [] := by
  unfold remainingFlags
  rw [lostFlags, if_neg h, List.zipIdx_cons, List.filter_cons_of_neg (by simp)]
  rfl

theorem drop_flags (added : List String) : ∀ (ns : List String) (b p : Nat) (s s' : Info α),
    (ns.zipIdx b).foldlM (dropStep added) s = .ok s' →
      s'.sym = s.sym.take b ++ remainingFlags added ns p (s.sym.drop b)
  | [], b, p, s, s', h => by
    cases h
    have : remainingFlags added [] p (s.sym.drop b) = s.sym.drop b := by
      unfold remainingFlags
      rw [List.filter_eq_self.2 (by simp [lostFlags]), List.zipIdx_map_fst]
    rw [this, List.take_append_drop]
  | n :: ns, b, p, s, s', h => by
    rw [List.zipIdx_cons, List.foldlM_cons] at h
    by_cases ha : n ∈ added
    · have hs : dropStep added s (n, b) = .ok s := by
        unfold dropStep; rw [if_pos (by simpa using ha)]
      rw [hs] at h
      have ih := drop_flags added ns (b + 1) (p + 1) s s' h
      rw [ih]
      cases hd : s.sym.drop b with
      | nil =>
        have hl : s.sym.length ≤ b := List.drop_eq_nil_iff.1 hd
        rw [List.drop_eq_nil_iff.2 (by omega : s.sym.length ≤ b + 1), List.take_of_length_le (by omega), List.take_of_length_le hl]
        simp [remainingFlags]
      | cons x l =>
        have hb : s.sym.drop (b + 1) = l := by rw [← List.tail_drop, hd]; rfl
        have hx : s.sym.take (b + 1) = s.sym.take b ++ [x] := by
          have h0 : s.sym[b]? = some x := by rw [← List.head?_drop, hd]; rfl
          rw [List.take_add_one, h0]; rfl
        rw [hb, hx, remainingFlags_in ha, List.append_assoc]; rfl
    · cases hk : dictDel s.dict n with
      | error e =>
        have hs : dropStep added s (n, b) = .error e := by
          unfold dropStep; rw [if_neg (by simpa using ha)]; simp only [hk]
        rw [hs] at h; cases h
      | ok d =>
        by_cases hb : b < s.sym.length
        · have hs : dropStep added s (n, b) = .ok ⟨d, s.sym.eraseIdx b, true⟩ := by
            unfold dropStep listDel; rw [if_neg (by simpa using ha)]; simp only [hk, if_pos hb]
          rw [hs] at h
          have ih := drop_flags added ns (b + 1) (p + 2) _ s' h
          rw [ih]
          dsimp only
          obtain ⟨x, l, hd⟩ : ∃ x l, s.sym.drop b = x :: l := ⟨_, _, List.drop_eq_getElem_cons hb⟩
          have he : s.sym.eraseIdx b = s.sym.take b ++ l := by
            rw [List.eraseIdx_eq_take_drop_succ, ← List.tail_drop, hd]; rfl
          have hlen : (s.sym.take b).length = b := by rw [List.length_take]; omega
          rw [hd, he]
          cases l with
          | nil =>
            rw [remainingFlags_last ha, List.append_nil, List.take_of_length_le (by omega), List.drop_eq_nil_iff.2 (by omega)]
            simp [remainingFlags]
          | cons y l =>
            rw [remainingFlags_out ha]
            have h1 : (s.sym.take b ++ y :: l).take (b + 1) = s.sym.take b ++ [y] := by
              rw [List.take_append, List.take_of_length_le (by omega), hlen]; simp
            have h2 : (s.sym.take b ++ y :: l).drop (b + 1) = l := by
              rw [List.drop_append, List.drop_eq_nil_iff.2 (by omega), hlen]; simp
            rw [h1, h2, List.append_assoc]; rfl
        · have hs : dropStep added s (n, b) = .error .indexError := by
            unfold dropStep listDel; rw [if_neg (by simpa using ha)]; simp only [hk, if_neg hb]
          rw [hs] at h; cases h

/-- **C59, flags.** If generation goes on, the flags that remain are, in order, those whose position is not lost, where the position lost for a
variable that is not stored is its own moved up by the number of variables before it that are not stored. -/
theorem C59_flags (added : List String) (s s' : Info α) (h : dropUnstored added s = .ok s') :
    ∃ lost : List Nat, (∀ p, p ∈ lost ↔ LostFlag added (s.dict.map Prod.fst) p) ∧
      s'.sym = (s.sym.zipIdx.filter fun e => decide (e.2 ∉ lost)).map Prod.fst := by
  refine ⟨lostFlags added 0 (s.dict.map Prod.fst), fun p => ?_, ?_⟩
  · rw [mem_lostFlags]; simp
  · have := drop_flags added _ 0 0 s s' h
    simpa [remainingFlags] using this

/-- **C59 (iff)** Exactly the stored variables remain with their own flags exactly if there is room for the removals and the flags at positions
that are not lost happen to be those of the stored variables. -/
theorem C59_iff (added : List String) (s : Info α) (h : InfoOK s) (lost : List Nat)
    (hl : ∀ p, p ∈ lost ↔ LostFlag added (s.dict.map Prod.fst) p) :
    (∃ s', dropUnstored added s = .ok s' ∧ (s'.dict, s'.sym) = keepStored added s) ↔
      FlagRoom added 0 s.dict.length (s.dict.map Prod.fst) ∧
        (s.sym.zipIdx.filter fun e => decide (e.2 ∉ lost)).map Prod.fst =
          (((s.dict.map Prod.fst).zip s.sym).filter fun e => decide (e.1 ∈ added)).map Prod.snd := by
  have key : ∀ s', dropUnstored added s = .ok s' → s'.sym = (s.sym.zipIdx.filter fun e => decide (e.2 ∉ lost)).map Prod.fst := by
    intro s' hs'
    obtain ⟨l2, h1, h2⟩ := C59_flags added s s' hs'
    rw [h2]
    congr 1
    apply List.filter_congr
    intro e _
    rw [decide_eq_decide, h1, hl]
  constructor
  · rintro ⟨s', h1, h2⟩
    constructor
    · by_contra hr
      rw [(C59_partial added s h).2 hr] at h1; cases h1
    · rw [← key s' h1]
      exact congrArg Prod.snd h2
  · rintro ⟨hr, h2⟩
    obtain ⟨s', e1, e2, -⟩ := (C59_partial added s h).1 hr
    exact ⟨s', e1, Prod.ext e2 ((key s' e1).trans h2)⟩

/-- **C59, at most one variable is not stored.** Then generation goes on, and the stored variables remain with their own flags. -/
theorem C59_one (added : List String) (s : Info α) (h : InfoOK s) (h1 : nDropped added (s.dict.map Prod.fst) ≤ 1) :
    ∃ s', dropUnstored added s = .ok s' ∧ (s'.dict, s'.sym) = keepStored added s := by
  have none_lost : ∀ (ns : List String) (p : Nat), nDropped added ns = 0 → lostFlags added p ns = [] := by
    intro ns
    induction ns with
    | nil => intro p _; rfl
    | cons n ns ih =>
      intro p h0
      by_cases ha : n ∈ added
      · rw [nDropped_in ha] at h0
        rw [lostFlags, if_pos ha, ih _ h0]
      · rw [nDropped_out ha] at h0; omega
  have all_kept : ∀ (ns : List String) (l : List Bool), l.length = ns.length → nDropped added ns = 0 →
      ((ns.zip l).filter fun e => decide (e.1 ∈ added)).map Prod.snd = l := by
    intro ns
    induction ns with
    | nil => intro l hl _; cases l with
      | nil => rfl
      | cons => cases hl
    | cons n ns ih =>
      intro l hl h0
      cases l with
      | nil => cases hl
      | cons x l =>
        by_cases ha : n ∈ added
        · rw [nDropped_in ha] at h0
          rw [List.zip_cons_cons, List.filter_cons_of_pos (by simpa using ha), List.map_cons, ih l (by simpa using hl) h0]
        · rw [nDropped_out ha] at h0; omega
  have flags : ∀ (ns : List String) (l : List Bool) (p : Nat), l.length = ns.length → nDropped added ns ≤ 1 →
      remainingFlags added ns p l = ((ns.zip l).filter fun e => decide (e.1 ∈ added)).map Prod.snd := by
    intro ns
    induction ns with
    | nil => intro l p hl _; cases l with
      | nil => rfl
      | cons => cases hl
    | cons n ns ih =>
      intro l p hl h0
      cases l with
      | nil => cases hl
      | cons x l =>
        by_cases ha : n ∈ added
        · rw [nDropped_in ha] at h0
          rw [remainingFlags_in ha, ih l (p + 1) (by simpa using hl) h0, List.zip_cons_cons,
            List.filter_cons_of_pos (by simpa using ha), List.map_cons]
        · rw [nDropped_out ha] at h0
          have h0 : nDropped added ns = 0 := by omega
          rw [List.zip_cons_cons, List.filter_cons_of_neg (by simpa using ha), all_kept ns l (by simpa using hl) h0]
          unfold remainingFlags
          rw [lostFlags, if_neg ha, none_lost ns _ h0, List.zipIdx_cons, List.filter_cons_of_neg (by simp),
            List.filter_eq_self.2, List.zipIdx_map_fst]
          intro e he
          have : p + 1 ≤ e.2 := (List.mem_zipIdx he).1
          simp only [List.mem_singleton, decide_eq_true_eq]
          omega
  refine (C59_iff added s h (lostFlags added 0 (s.dict.map Prod.fst)) fun p => by rw [mem_lostFlags]; simp).2 ⟨?_, ?_⟩
  · intro j n hj hn
    have hlt : j < s.dict.length := by
      obtain ⟨h, _⟩ := List.getElem?_eq_some_iff.1 hj
      simpa using h
    have h2 : nDropped added ((s.dict.map Prod.fst).take j) + 1 ≤ nDropped added (s.dict.map Prod.fst) := by
      have e : s.dict.map Prod.fst = (s.dict.map Prod.fst).take j ++ (n :: (s.dict.map Prod.fst).drop (j + 1)) := by
        obtain ⟨hh, hg⟩ := List.getElem?_eq_some_iff.1 hj
        conv => lhs; rw [← List.take_append_drop j (s.dict.map Prod.fst)]
        rw [List.drop_eq_getElem_cons hh, hg]
      conv => rhs; rw [e]
      unfold nDropped
      rw [List.countP_append, List.countP_cons_of_pos (by simpa using hn)]
      omega
    omega
  · simpa [remainingFlags] using flags (s.dict.map Prod.fst) s.sym 0 (by rw [List.length_map]; exact h.flags) h1

/-- Three variables of which the second, a symmetric one, is not stored. -/
example : let s : Info Unit := ⟨[("x", ()), ("S", ()), ("z", ())], [false, true, false], false⟩
    InfoOK s ∧ nDropped ["x", "z"] (s.dict.map Prod.fst) ≤ 1 ∧
      dropUnstored ["x", "z"] s = .ok ⟨[("x", ()), ("z", ())], [false, false], true⟩ :=
  ⟨⟨by decide, by decide⟩, by decide, by rfl⟩

/-- Storing the last two of four: the flags of the first and the third are lost. -/
example : ∀ p, p ∈ [0, 2] ↔ LostFlag ["S", "z"] ["x", "y", "S", "z"] p := by
  intro p
  rw [show [0, 2] = lostFlags ["S", "z"] 0 ["x", "y", "S", "z"] from rfl, mem_lostFlags]; simp

end Verif.Props
