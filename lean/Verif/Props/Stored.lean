import Verif.Model.Stored
import Mathlib.Data.List.Induction
import Mathlib.Tactic.Common
/-! C59: choosing the variables to store in explicit mode. -/
namespace Verif.Props
open Verif.Model Verif.Model.Stored

variable {α : Type}

/-- The number of variables that are not stored. -/
def nDropped (added : List String) (ns : List String) : Nat := ns.countP fun n => decide (n ∉ added)

/-- The list of flags is long enough for all removals: a removal uses the index among all variables, in a list that is
shorter by the number of removals before. -/
def FlagRoom (added : List String) (b L : Nat) (ns : List String) : Prop :=
  ∀ j n, ns[j]? = some n → n ∉ added → b + j + nDropped added (ns.take j) < L

theorem nDropped_in {added : List String} {n : String} (h : n ∈ added) (ns : List String) :
    nDropped added (n :: ns) = nDropped added ns := by simp [nDropped, h]
theorem nDropped_out {added : List String} {n : String} (h : n ∉ added) (ns : List String) :
    nDropped added (n :: ns) = nDropped added ns + 1 := by simp [nDropped, h]

theorem room_cons_in {added : List String} {b L : Nat} {n : String} {ns : List String} (h : n ∈ added) :
    FlagRoom added b L (n :: ns) ↔ FlagRoom added (b + 1) L ns := by
  unfold FlagRoom
  constructor
  · intro hr j m hm ha
    have := hr (j + 1) m (by simpa using hm) ha
    rw [List.take_succ_cons, nDropped_in h] at this
    omega
  · intro hr j m hm ha
    cases j with
    | zero =>
      simp only [List.getElem?_cons_zero, Option.some.injEq] at hm
      exact absurd (hm ▸ h) ha
    | succ j =>
      have := hr j m (by simpa using hm) ha
      rw [List.take_succ_cons, nDropped_in h]
      omega

theorem room_cons_out {added : List String} {b L : Nat} {n : String} {ns : List String} (h : n ∉ added) :
    FlagRoom added b L (n :: ns) ↔ b < L ∧ FlagRoom added (b + 1) (L - 1) ns := by
  unfold FlagRoom
  constructor
  · intro hr
    refine ⟨by simpa [nDropped] using hr 0 n (by simp) h, fun j m hm ha => ?_⟩
    have := hr (j + 1) m (by simpa using hm) ha
    rw [List.take_succ_cons, nDropped_out h] at this
    omega
  · rintro ⟨h0, hr⟩ j m hm ha
    cases j with
    | zero => simpa [nDropped] using h0
    | succ j =>
      have := hr j m (by simpa using hm) ha
      rw [List.take_succ_cons, nDropped_out h]
      omega

theorem drop_fold (added : List String) : ∀ (ns : List String) (b : Nat) (s : Info α), ns.Nodup →
    (∀ n ∈ ns, n ∈ s.dict.map Prod.fst) →
    (FlagRoom added b s.sym.length ns → ∃ s', (ns.zipIdx b).foldlM (dropStep added) s = .ok s' ∧
      s'.dict = s.dict.filter (fun e => decide (e.1 ∉ ns ∨ e.1 ∈ added)) ∧
      s'.sym.length + nDropped added ns = s.sym.length ∧ s'.sym.Sublist s.sym ∧
      s'.reduced = (s.reduced || decide (0 < nDropped added ns))) ∧
    (¬ FlagRoom added b s.sym.length ns → (ns.zipIdx b).foldlM (dropStep added) s = .error .indexError)
  | [], b, s, _, _ => by
    refine ⟨fun _ => ⟨s, rfl, ?_, rfl, List.Sublist.refl _, by simp [nDropped]⟩, fun h => absurd ?_ h⟩
    · rw [List.filter_eq_self.2 fun e _ => by simp]
    · intro j n h; simp at h
  | n :: ns, b, s, hn, hd => by
    rw [List.nodup_cons] at hn
    rw [List.zipIdx_cons, List.foldlM_cons]
    by_cases ha : n ∈ added
    · have hs : dropStep added s (n, b) = .ok s := by
        unfold dropStep; rw [if_pos (by simpa using ha)]
      rw [hs, room_cons_in ha]
      obtain ⟨h1, h2⟩ := drop_fold added ns (b + 1) s hn.2 fun m hm => hd m (List.mem_cons_of_mem _ hm)
      refine ⟨fun hr => ?_, fun hr => h2 hr⟩
      obtain ⟨s', e1, e2, e3, e4, e5⟩ := h1 hr
      have hc : nDropped added (n :: ns) = nDropped added ns := nDropped_in ha ns
      refine ⟨s', e1, ?_, by rw [hc, e3], e4, by rw [hc, e5]⟩
      rw [e2]
      apply List.filter_congr
      intro e _
      simp only [List.mem_cons, not_or, decide_eq_decide]
      by_cases he : e.1 = n
      · simp [he, ha]
      · simp [he]
    · have hk : (s.dict.map Prod.fst).contains n = true := by simpa using hd n (List.mem_cons_self ..)
      rw [room_cons_out ha]
      by_cases hb : b < s.sym.length
      · have hs : dropStep added s (n, b) = .ok ⟨s.dict.filter fun e => e.1 ≠ n, s.sym.eraseIdx b, true⟩ := by
          unfold dropStep dictDel listDel
          rw [if_neg (by simpa using ha), if_pos hk, if_pos hb]
        rw [hs]
        have hl : (s.sym.eraseIdx b).length = s.sym.length - 1 := List.length_eraseIdx_of_lt hb
        obtain ⟨h1, h2⟩ := drop_fold added ns (b + 1) (⟨s.dict.filter fun e => e.1 ≠ n, s.sym.eraseIdx b, true⟩ : Info α) hn.2 (by
          intro m hm
          obtain ⟨e, he, rfl⟩ := List.mem_map.1 (hd m (List.mem_cons_of_mem _ hm))
          refine List.mem_map.2 ⟨e, List.mem_filter.2 ⟨he, ?_⟩, rfl⟩
          simp only [ne_eq, decide_eq_true_eq]
          exact fun h => hn.1 (h ▸ hm))
        have hc : nDropped added (n :: ns) = nDropped added ns + 1 := nDropped_out ha ns
        dsimp only at h1 h2
        rw [hl] at h1 h2
        refine ⟨fun hr => ?_, fun hr => h2 fun h => hr ⟨hb, h⟩⟩
        obtain ⟨s', e1, e2, e3, e4, e5⟩ := h1 hr.2
        refine ⟨s', e1, ?_, by rw [hc]; omega, e4.trans (List.eraseIdx_sublist _ _), ?_⟩
        · rw [e2, List.filter_filter]
          apply List.filter_congr
          intro e _
          by_cases he : e.1 = n
          · simp [he, ha]
          · simp [he]
        · rw [hc, e5]; simp
      · have hs : dropStep added s (n, b) = .error .indexError := by
          unfold dropStep dictDel listDel
          rw [if_neg (by simpa using ha), if_pos hk, if_neg hb]
        rw [hs]
        exact ⟨fun hr => absurd hr.1 hb, fun _ => rfl⟩

/-- What the user wants: the stored variables remain, with their flags. -/
def keepStored (added : List String) (s : Info α) : List (String × α) × List Bool :=
  (s.dict.filter (fun e => decide (e.1 ∈ added)),
    (((s.dict.map Prod.fst).zip s.sym).filter fun e => decide (e.1 ∈ added)).map Prod.snd)

/-- Different names, and a flag for each. -/
structure InfoOK (s : Info α) : Prop where
  nodup : (s.dict.map Prod.fst).Nodup
  flags : s.sym.length = s.dict.length

/-- The full claim of C59: any choice of variables to store is accepted, and exactly these remain. -/
def C59Claim : Prop :=
  ∀ (added : List String) (s : Info Unit), InfoOK s →
    ∃ s', dropUnstored added s = .ok s' ∧ (s'.dict, s'.sym) = keepStored added s

/-- C59, exactly when generation goes on: it raises `IndexError` if the index of a variable that is not stored plus the number
of those before is at least the number of variables; otherwise the dictionaries are those of the stored variables, and the
list of flags has the right length. -/
theorem C59_partial (added : List String) (s : Info α) (h : InfoOK s) :
    (FlagRoom added 0 s.dict.length (s.dict.map Prod.fst) → ∃ s', dropUnstored added s = .ok s' ∧
      s'.dict = (keepStored added s).1 ∧ s'.sym.length = s'.dict.length ∧ s'.sym.Sublist s.sym ∧
      s'.reduced = (s.reduced || decide (s'.dict.length < s.dict.length))) ∧
    (¬ FlagRoom added 0 s.dict.length (s.dict.map Prod.fst) → dropUnstored added s = .error .indexError) := by
  unfold dropUnstored
  obtain ⟨h1, h2⟩ := drop_fold added (s.dict.map Prod.fst) 0 s h.nodup fun _ h => h
  rw [h.flags] at h1 h2
  refine ⟨fun hr => ?_, h2⟩
  obtain ⟨s', e1, e2, e3, e4, e5⟩ := h1 hr
  have hd : s'.dict = (keepStored added s).1 := by
    rw [e2]
    apply List.filter_congr
    intro e he
    have : e.1 ∈ s.dict.map Prod.fst := List.mem_map_of_mem he
    simp only [this, not_true_eq_false, false_or]
  have hc : s'.dict.length + nDropped added (s.dict.map Prod.fst) = s.dict.length := by
    rw [hd]
    unfold keepStored nDropped
    dsimp only
    rw [← List.countP_eq_length_filter, List.countP_map]
    have := List.length_eq_countP_add_countP (fun e : String × α => decide (e.1 ∈ added)) (l := s.dict)
    rw [this]
    congr 1
    apply List.countP_congr
    intro e _
    simp
  refine ⟨s', e1, hd, by omega, e4, ?_⟩
  rw [e5]
  congr 1
  rw [decide_eq_decide]
  omega

/-- C59 for problems without symmetric variables: if generation goes on, the flags are right as well. -/
theorem C59_no_symmetric (added : List String) (s : Info α) (h : InfoOK s) (hs : ∀ b ∈ s.sym, b = false)
    (hr : FlagRoom added 0 s.dict.length (s.dict.map Prod.fst)) :
    ∃ s', dropUnstored added s = .ok s' ∧ (s'.dict, s'.sym) = keepStored added s := by
  obtain ⟨s', e1, e2, e3, e4, _⟩ := (C59_partial added s h).1 hr
  refine ⟨s', e1, ?_⟩
  refine Prod.ext e2 ?_
  dsimp only
  have hl : (keepStored added s).2.length = s'.sym.length := by
    rw [e3, e2]
    unfold keepStored
    dsimp only
    rw [List.length_map, ← List.countP_eq_length_filter, ← List.countP_eq_length_filter]
    have hz : ((s.dict.map Prod.fst).zip s.sym).map Prod.fst = s.dict.map Prod.fst :=
      List.map_fst_zip (by rw [List.length_map]; exact Nat.le_of_eq h.flags.symm)
    have e : ∀ {β : Type} (l : List (String × β)), l.countP (fun e => decide (e.1 ∈ added)) =
        (l.map Prod.fst).countP fun n => decide (n ∈ added) := by
      intro β l; rw [List.countP_map]; rfl
    rw [e, hz, e]
  have all : ∀ l : List Bool, (∀ b ∈ l, b = false) → l = List.replicate l.length false :=
    fun l hl => List.eq_replicate_iff.2 ⟨rfl, hl⟩
  rw [all s'.sym fun b hb => hs b (e4.subset hb), all (keepStored added s).2, hl]
  intro b hb
  unfold keepStored at hb
  obtain ⟨e, he, rfl⟩ := List.mem_map.1 hb
  exact hs _ (List.of_mem_zip (List.mem_filter.1 he).1).2

/-- C59 fails whenever more than about half of the variables are not stored, whichever they are. -/
theorem C59_fails_many (added : List String) (s : Info α) (h : InfoOK s) (hk : 0 < nDropped added (s.dict.map Prod.fst))
    (hm : s.dict.length ≤ 2 * (nDropped added (s.dict.map Prod.fst) - 1)) :
    dropUnstored added s = .error .indexError := by
  apply (C59_partial added s h).2
  have key : ∀ (ns : List String), 0 < nDropped added ns → ∃ j n, ns[j]? = some n ∧ n ∉ added ∧
      nDropped added ns ≤ j + 1 ∧ nDropped added (ns.take j) + 1 = nDropped added ns := by
    intro ns
    induction ns using List.reverseRecOn with
    | nil => intro h; simp [nDropped] at h
    | append_singleton ns n ih =>
      intro hp
      by_cases hn : n ∈ added
      · have hc : nDropped added (ns ++ [n]) = nDropped added ns := by simp [nDropped, hn]
        rw [hc] at hp ⊢
        obtain ⟨j, m, h1, h2, h3, h4⟩ := ih hp
        have hj : j < ns.length := by
          rcases Nat.lt_or_ge j ns.length with h | h
          · exact h
          · rw [List.getElem?_eq_none h] at h1; cases h1
        refine ⟨j, m, by rw [List.getElem?_append_left hj]; exact h1, h2, h3, ?_⟩
        rw [List.take_append_of_le_length (by omega)]
        exact h4
      · have hc : nDropped added (ns ++ [n]) = nDropped added ns + 1 := by simp [nDropped, hn]
        refine ⟨ns.length, n, by simp, hn, ?_, ?_⟩
        · rw [hc]
          have : nDropped added ns ≤ ns.length := List.countP_le_length
          omega
        · rw [hc, List.take_append_of_le_length (Nat.le_refl _), List.take_length]
  intro hr
  obtain ⟨j, n, h1, h2, h3, h4⟩ := key _ hk
  have := hr j n h1 h2
  omega

/-- Storing the first of three variables: an error. -/
theorem C59_fails : ¬ C59Claim := fun h => by
  obtain ⟨s', e, _⟩ := h ["x"] ⟨[("x", ()), ("y", ()), ("z", ())], [false, false, false], false⟩ ⟨by decide, by decide⟩
  exact absurd e (by rintro ⟨⟩)

/-- Storing the last two of four, the first of them symmetric: its flag is lost, and with it the function that copies the
solution (`any(variable_info.sym)`, _interface.py:119). -/
theorem C59_fails_flags : ∃ (added : List String) (s s' : Info Unit), InfoOK s ∧ dropUnstored added s = .ok s' ∧
    s'.sym.any id = false ∧ (keepStored added s).2.any id = true :=
  ⟨["S", "z"], ⟨[("x", ()), ("y", ()), ("S", ()), ("z", ())], [false, false, true, false], false⟩,
    ⟨[("S", ()), ("z", ())], [false, false], true⟩, ⟨by decide, by decide⟩, by rfl, by decide, by decide⟩

/-- Storing one of four: a case of `C59_fails_many`. -/
example : 0 < nDropped ["x"] ["w", "x", "y", "z"] ∧ 4 ≤ 2 * (nDropped ["x"] ["w", "x", "y", "z"] - 1) := by decide

/-- All variables but one stored: the condition of `C59_partial` is met. -/
example : FlagRoom ["x", "z"] 0 3 ["x", "y", "z"] := by
  intro j n h hn
  rcases j with _ | _ | _ | j
  · simp at h; subst h; simp at hn
  · simp [nDropped]
  · simp at h; subst h; simp at hn
  · simp at h

end Verif.Props
