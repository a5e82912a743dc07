import Verif.Lemmas.FilesB
import Mathlib.Tactic.Tauto
import Mathlib.Tactic.ByContra
/-! The run of `generate`, and the tree it leaves. -/
namespace Verif.Lemmas.Files
open Verif.Model.Files Verif.Spec.Files

/-- If there is nothing at `b`, there is nothing below. -/
def EmptyAt (fs : FS) (b : Path) : Prop := fs b = none → ∀ r, fs (b ++ r) = none

theorem tree_empty {fs : FS} (h : Tree fs) (b : Path) : EmptyAt fs b := by
  intro hb r
  cases r with
  | nil => rw [List.append_nil]; exact hb
  | cons a r =>
    by_contra hn
    have := h b (a :: r) (List.cons_ne_nil _ _) hn
    rw [hb] at this; cases this

theorem clean_out (fs : FS) (j : Job) (q : Path) (hq : ¬ j.base <+: q) : clean fs j q = fs q := by
  unfold clean
  split
  · split
    · unfold FS.set
      rw [if_neg fun (he : q = j.base) => hq (he ▸ List.prefix_rfl)]
      exact if_neg hq
    · exact if_neg hq
  · rfl

theorem clean_view (fs : FS) (j : Job) (h : EmptyAt fs j.base) : EmptyAt (clean fs j) j.base := by
  unfold clean
  split
  · split
    · intro hb; unfold FS.set at hb; rw [if_pos rfl] at hb; cases hb
    · exact fun _ r => if_pos (List.prefix_append _ _)
  · exact h

theorem makeBase_ok {fs fs1 : FS} {j : Job} (h : makeBase fs j = (fs1, none)) :
    j.dot = false ∧ fs j.base = none ∧ fs j.base.dropLast = some .dir ∧ fs1 = fs.set j.base .dir := by
  unfold makeBase at h
  split at h
  · split at h <;> cases h
  · next hd =>
    have hd : j.dot = false := by simpa using hd
    unfold mkdir at h
    split at h
    · cases h
    · next hn =>
      split at h
      · next hp => cases h; exact ⟨hd, hn, hp, rfl⟩
      · cases h
      · cases h

theorem makeBase_out (fs : FS) (j : Job) (q : Path) (hq : q ≠ j.base) : (makeBase fs j).1 q = fs q := by
  unfold makeBase
  split
  · split <;> rfl
  · exact mkdir_other _ _ _ hq

/-- The three ends of a call. -/
theorem generate_cases (fs : FS) (j : Job) :
    (∃ e, j.canon = some e ∧ generate fs j = (fs, some e)) ∨
    (∃ e, j.canon = none ∧ (makeBase (clean fs j) j).2 = some e ∧ generate fs j = ((makeBase (clean fs j) j).1, some e)) ∨
    (∃ fs1, j.canon = none ∧ makeBase (clean fs j) j = (fs1, none) ∧ generate fs j = execs j.base fs1 (allOps j)) := by
  unfold generate
  cases hc : j.canon with
  | some e => exact Or.inl ⟨e, rfl, rfl⟩
  | none =>
    right
    dsimp only
    rcases hm : makeBase (clean fs j) j with ⟨fs1, _ | e⟩
    · exact Or.inr ⟨fs1, rfl, rfl, rfl⟩
    · exact Or.inl ⟨e, rfl, rfl, rfl⟩

theorem view_fresh {fs fs1 : FS} {j : Job} (h : EmptyAt fs j.base) (hm : makeBase (clean fs j) j = (fs1, none)) :
    view j.base fs1 = fresh := by
  obtain ⟨_, hn, _, rfl⟩ := makeBase_ok hm
  funext r
  unfold view FS.set fresh
  by_cases hr : r = []
  · subst hr; rw [List.append_nil, if_pos rfl, if_pos rfl]
  · rw [if_neg (by simp [hr]), if_neg hr]
    exact clean_view fs j h hn r

/-- What a call that gets past the creation of the directory leaves there and raises. -/
theorem generate_started {fs : FS} {j : Job} (h : EmptyAt fs j.base) (hc : j.canon = none) (hm : (makeBase (clean fs j) j).2 = none) :
    (generate fs j).2 = (execs [] fresh (allOps j)).2 ∧ view j.base (generate fs j).1 = (execs [] fresh (allOps j)).1 := by
  rcases generate_cases fs j with ⟨e, h1, _⟩ | ⟨e, _, h1, _⟩ | ⟨fs1, _, h1, h2⟩
  · rw [hc] at h1; cases h1
  · rw [hm] at h1; cases h1
  · have hs := sim_execs j.base (allOps j) (all_proper j) fs1
    rw [view_fresh h h1] at hs
    rw [h2]
    exact ⟨hs.err, hs.view⟩

theorem generate_out (fs : FS) (j : Job) (q : Path) (hq : ¬ j.base <+: q) : (generate fs j).1 q = fs q := by
  have hm : (makeBase (clean fs j) j).1 q = fs q := by
    rw [makeBase_out _ _ _ fun he => hq (he ▸ List.prefix_rfl)]
    exact clean_out fs j q hq
  rcases generate_cases fs j with ⟨e, _, h1⟩ | ⟨e, _, _, h1⟩ | ⟨fs1, _, h1, h2⟩
  · rw [h1]
  · rw [h1]; exact hm
  · rw [h2, (sim_execs j.base (allOps j) (all_proper j) fs1).out q hq]
    rw [h1] at hm
    exact hm

theorem proper_touch {op : FOp} (h : Proper op) (n : Node) : ¬ Touch (some n) [] op := by
  intro ht
  cases op with
  | makedirs p ok => cases ht.1
  | mkdir p => exact h (Eq.symm ht)
  | copyfile s p => exact h (Eq.symm ht)
  | write p s => exact h (Eq.symm ht)
  | append p s => exact h (Eq.symm ht)
  | modify p s => exact h (Eq.symm ht)
  | rmtree p => exact h (List.prefix_nil.1 ht)
  | copytree s p => exact h (List.prefix_nil.1 ht)
  | extern s p => exact h (List.prefix_nil.1 ht)
  | copy a b => exact h.2 (Eq.symm ht)
  | move a b => exact ht.elim (fun ht => h.1 (List.prefix_nil.1 ht)) fun ht => h.2 (Eq.symm ht)

theorem generate_empty (fs : FS) (j : Job) (h : EmptyAt fs j.base) : EmptyAt (generate fs j).1 j.base := by
  rcases generate_cases fs j with ⟨e, _, h1⟩ | ⟨e, _, hm, h1⟩ | ⟨fs1, h0, h1, h2⟩
  · rw [h1]; exact h
  · rw [h1]
    have hk := clean_view fs j h
    have : (makeBase (clean fs j) j).1 = clean fs j := by
      revert hm
      unfold makeBase
      split
      · split <;> exact fun _ => rfl
      · unfold mkdir
        split
        · exact fun _ => rfl
        · split
          · intro hm; cases hm
          · exact fun _ => rfl
          · exact fun _ => rfl
    rw [this]
    exact hk
  · intro hb
    exfalso
    have hv := (generate_started h h0 (by rw [h1])).2
    have h3 : (execs [] fresh (allOps j)).1 [] = none := by
      rw [← hv]; unfold view; rw [List.append_nil]; exact hb
    rw [execs_other (allOps j) [] fresh fun op hop => proper_touch (all_proper j op hop) .dir] at h3
    cases h3

theorem apart_below {p q r : Path} (h : Apart p q) : ¬ p <+: q ++ r := by
  intro hp
  rcases List.prefix_or_prefix_of_prefix hp (List.prefix_append q r) with h1 | h1
  · exact h.1 h1
  · exact h.2 h1

/-- A call that succeeded went through all stages. -/
theorem generate_success {fs : FS} {j : Job} (h : (generate fs j).2 = none) :
    j.canon = none ∧ (makeBase (clean fs j) j).2 = none := by
  rcases generate_cases fs j with ⟨e, _, h1⟩ | ⟨e, _, _, h1⟩ | ⟨fs1, h0, h1, h2⟩
  · rw [h1] at h; cases h
  · rw [h1] at h; cases h
  · exact ⟨h0, by rw [h1]⟩

theorem two_eq (j : Job) : j.twoStage = two j := by
  unfold Job.twoStage Job.explicit two
  cases j.gradient <;> cases j.named <;> cases j.kind <;> rfl

theorem explicit_eq (j : Job) : j.explicit = isExplicit j := by
  unfold Job.explicit isExplicit
  cases j.kind <;> rfl

theorem written_iff (j : Job) (r : Path) : r ∈ writtenFirst j ∨ r = ["README.html"] ↔ IsWritten j r := by
  unfold writtenFirst
  rw [explicit_eq, two_eq]
  have he : isExplicit j = true → two j = false := by
    unfold isExplicit two
    cases j.gradient <;> cases j.named <;> cases j.kind <;> simp
  have hg : j.gradient = false → two j = false := by
    unfold two; cases j.gradient <;> simp
  revert he hg
  generalize ht : two j = b
  generalize hx : isExplicit j = x
  generalize hgg : j.gradient = g
  intro he hg
  rcases r with _ | ⟨a, _ | ⟨b', _ | ⟨c, _ | ⟨d, l⟩⟩⟩⟩
  · cases g <;> cases x <;> cases b <;> simp [IsWritten, inc, src]
  · cases g <;> cases x <;> cases b <;> simp [IsWritten, inc, src] <;> tauto
  · cases g <;> cases x <;> cases b <;> simp [IsWritten, inc, src]
  · simp only [IsWritten, ht, hx, hgg, CFile]
    by_cases ha : a = "c"
    · subst ha
      by_cases h1 : b' = "include"
      · subst h1
        cases g <;> cases x <;> cases b <;> simp at he hg <;> simp [inc, src] <;> tauto
      · by_cases h2 : b' = "src"
        · subst h2
          cases g <;> cases x <;> cases b <;> simp at he hg <;> simp [inc, src] <;> tauto
        · cases g <;> cases x <;> cases b <;> simp [inc, src, h1, h2]
    · cases g <;> cases x <;> cases b <;> simp [inc, src, ha] <;> tauto
  · cases g <;> cases x <;> cases b <;> simp [IsWritten, inc, src]

theorem written_area (j : Job) (r : Path) (h : SolverArea r) : ¬ IsWritten j r := by
  rcases h with ⟨l, rfl⟩ | ⟨l, rfl⟩
  · rcases l with _ | ⟨a, _ | ⟨b, l⟩⟩ <;> simp [IsWritten]
  · rcases l with _ | ⟨a, _ | ⟨b, l⟩⟩ <;> simp [IsWritten]

theorem written_dir (j : Job) (r : Path) (h : IsDirectory r) : ¬ IsWritten j r := by
  rcases r with _ | ⟨a, _ | ⟨b, _ | ⟨c, l⟩⟩⟩
  · simp [IsWritten]
  · rcases h with rfl | rfl <;> simp [IsWritten]
  · rcases h with ⟨rfl, rfl | rfl | rfl⟩ | ⟨rfl, rfl | rfl⟩ <;> simp [IsWritten]
  · exact absurd h (by simp [IsDirectory])

/-- The copy of the license of ECOS. -/
theorem ecos_copying {t t' : FS} {j : Job} (hk : j.kind = .ecos) (h : execs [] t (solverStage j) = (t', none)) :
    t' ["COPYING"] = j.pkg ["ecos", "COPYING"] := by
  unfold solverStage solverOps at h
  rw [hk] at h
  dsimp only at h
  rw [List.append_assoc] at h
  obtain ⟨t1, _, h⟩ := execs_append h
  obtain ⟨t2, h2, h⟩ := execs_append h
  obtain ⟨t3, h3, h2⟩ := execs_append (l1 := [_]) (l2 := [_]) h2
  have hc := copyfile_ok (execs_single h3)
  have hd := exec_other t3 ["COPYING"] _ (by simp [Touch, sc] : ¬ Touch (t3 ["COPYING"]) ["COPYING"] (.modify (sc ++ ["include", "glblopts.h"]) (j.patch (sc ++ ["include", "glblopts.h"]))))
  rw [execs_single h2] at hd
  have hd : t2 ["COPYING"] = t3 ["COPYING"] := hd
  have hA : ¬ SolverArea ["COPYING"] := by simp [SolverArea]
  have he := execs_other (if j.twoStage then osqpOps j j.extO oc else []) ["COPYING"] t2 (by
    intro op hop
    split at hop
    · refine area_touch hA (fun _ => by simp) ?_
      simp only [osqpOps, List.mem_cons, List.not_mem_nil, or_false] at hop
      rcases hop with hop | hop | hop | hop <;> rw [hop]
      · exact area_oc0
      · exact area_oc _
      · exact area_oc _
      · exact area_oc _
    · cases hop)
  rw [h] at he
  exact he.trans (hd.trans hc)

theorem all_layout {j : Job} {t : FS} (h : execs [] fresh (allOps j) = (t, none)) (r : Path) (hr : ¬ SolverArea r) : t r = layout j r := by
  classical
  unfold allOps writeStage at h
  obtain ⟨t0, h0, h⟩ := execs_append h
  obtain ⟨t1, h1, h⟩ := execs_append h
  rw [List.append_assoc] at h
  obtain ⟨t2, h2, h⟩ := execs_append h
  obtain ⟨t3, h3, h4⟩ := execs_append h
  have e0 : ∀ r, t0 r = if IsDirectory r then some .dir else none := fun r => by
    have := skeleton_at r
    rw [h0] at this
    exact this
  have e2 := execs_writes j.text (writtenFirst j) h2
  have e4 := execs_writes j.text [["README.html"]] h4
  have hwr := written_iff j r
  unfold layout
  have t0n : t0 r = none → r ≠ [] ∧ r ≠ ["c"] := by
    rw [e0]
    intro hn
    constructor <;> (rintro rfl; simp [IsDirectory] at hn)
  have e1 : r ≠ ["LICENSE"] → t1 r = if r = ["COPYING"] ∧ j.kind = .ecos then j.pkg ["ecos", "COPYING"] else t0 r := by
    intro hl
    by_cases hc : r = ["COPYING"] ∧ j.kind = .ecos
    · rw [if_pos hc, hc.1]
      exact ecos_copying hc.2 h1
    · rw [if_neg hc]
      have := execs_other (solverStage j) r t0 (solver_touch j (t0 r) r hr t0n hl fun he hk => hc ⟨he, hk⟩)
      rw [h1] at this
      exact this
  have hread : t r = if r = ["README.html"] then some (.file (j.text r)) else t3 r := by
    rw [e4 r]; simp only [List.mem_cons, List.not_mem_nil, or_false]
  by_cases hw : IsWritten j r
  · rw [if_neg fun hd => written_dir j r hd hw, if_pos hw]
    rcases hwr.2 hw with hw | hw
    · have e2r : t2 r = some (.file (j.text r)) := by rw [e2 r, if_pos hw]
      have e3 := execs_other (cmakeOps j) r t2 fun op hop => area_touch hr (by rw [e2r]; intro hh; cases hh) (cmake_area j op hop).1
      rw [h3] at e3
      rw [hread]
      split
      · rfl
      · exact e3.trans e2r
    · rw [hread, if_pos hw]
  · have hw1 : r ∉ writtenFirst j := fun hh => hw (hwr.1 (Or.inl hh))
    have hw2 : r ≠ ["README.html"] := fun hh => hw (hwr.1 (Or.inr hh))
    have hl : r ≠ ["LICENSE"] := fun hh => hw (by rw [hh]; simp [IsWritten])
    rw [if_neg hw, hread, if_neg hw2]
    have e2r : t2 r = t1 r := by rw [e2 r, if_neg hw1]
    have e1 := e1 hl
    have hn : t2 r = none → r ≠ [] ∧ r ≠ ["c"] := by
      rw [e2r, e1]
      intro hn
      constructor <;> (rintro rfl; simp [e0, IsDirectory] at hn)
    have e3 := execs_other (cmakeOps j) r t2 fun op hop => area_touch hr hn (cmake_area j op hop).1
    rw [h3] at e3
    rw [show t3 r = t1 r from e3.trans e2r, e1, e0]
    by_cases hd : IsDirectory r
    · rw [if_pos hd, if_pos hd, if_neg]
      rintro ⟨rfl, _⟩
      simp [IsDirectory] at hd
    · rw [if_neg hd, if_neg hd]

/-- The build files of the subdirectories are there. -/
theorem all_sub {j : Job} {t : FS} (h : execs [] fresh (allOps j) = (t, none)) :
    ∀ d ∈ cmakeSub j, ∃ s, t (d ++ ["CMakeLists.txt"]) = some (.file s) := by
  unfold allOps writeStage at h
  obtain ⟨t0, h0, h⟩ := execs_append h
  obtain ⟨t1, h1, h⟩ := execs_append h
  rw [List.append_assoc] at h
  obtain ⟨t2, h2, h⟩ := execs_append h
  obtain ⟨t3, h3, h4⟩ := execs_append h
  have e2 := execs_writes j.text (writtenFirst j) h2
  have e4 := execs_writes j.text [["README.html"]] h4
  have h42 : ∀ d, d = sc ∨ d = oc → t (d ++ ["CMakeLists.txt"]) = t3 (d ++ ["CMakeLists.txt"]) := by
    rintro d (rfl | rfl) <;> rw [e4, if_neg (by simp [sc, oc])]
  have h22 : t2 (sc ++ ["CMakeLists.txt"]) = t1 (sc ++ ["CMakeLists.txt"]) := by
    rw [e2, if_neg fun hh => written_area j _ (area_sc _) ((written_iff j _).1 (Or.inl hh))]
  unfold cmakeOps at h3
  obtain ⟨t4, h5, h6⟩ := execs_append h3
  have hsc : ∃ s, t3 (sc ++ ["CMakeLists.txt"]) = some (.file s) := by
    have hk : t3 (sc ++ ["CMakeLists.txt"]) = t4 (sc ++ ["CMakeLists.txt"]) := by
      have := execs_other (if j.twoStage then [FOp.modify (oc ++ ["CMakeLists.txt"]) (j.patch (oc ++ ["src"])),
        FOp.append (oc ++ ["CMakeLists.txt"]) j.cmakeO] else []) (sc ++ ["CMakeLists.txt"]) t4 (by
          intro op hop
          split at hop
          · simp only [List.mem_cons, List.not_mem_nil, or_false] at hop
            rcases hop with hop | hop <;> rw [hop] <;> simp [Touch, sc, oc]
          · cases hop)
      rw [h6] at this
      exact this
    rw [hk]
    cases hx : j.explicit with
    | false =>
      rw [hx] at h5
      exact append_ok (execs_single h5)
    | true =>
      rw [hx] at h5
      cases h5
      have hkind : j.kind = .pdaqp := by simpa [Job.explicit] using hx
      have htw : j.twoStage = false := by simp [Job.twoStage, hx]
      unfold solverStage solverOps at h1
      rw [hkind, htw] at h1
      dsimp only at h1
      rw [if_neg (show ¬ false = true by simp), List.append_nil] at h1
      obtain ⟨t5, _, h7⟩ := execs_append h1
      have h8 : put t5 (sc ++ ["CMakeLists.txt"]) _ = (t1, none) := execs_single h7
      rw [h22, put_ok h8]
      exact ⟨_, if_pos rfl⟩
  intro d hd
  unfold cmakeSub at hd
  rw [List.mem_cons] at hd
  rcases hd with rfl | hd
  · rw [h42 sc (Or.inl rfl)]; exact hsc
  · split at hd
    · next htw =>
      rw [List.mem_singleton] at hd
      subst hd
      rw [h42 oc (Or.inr rfl)]
      rw [if_pos htw] at h6
      obtain ⟨t5, _, h7⟩ := execs_append (l1 := [_]) (l2 := [_]) h6
      exact append_ok (execs_single h7)
    · cases hd

end Verif.Lemmas.Files
