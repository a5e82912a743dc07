import Verif.Model.Includes
import Verif.Spec.Includes
import Verif.Props.Files
/-! C77: headers that generated files include. -/
namespace Verif.Props
open Verif.Model.Files Verif.Model.Includes Verif.Spec.Files Verif.Spec.Includes Verif.Lemmas.Files

/-- The search path of a compiler. -/
def searchPath (l : Lang) (j : Job) : List Path := match l with
  | .c => cmakePath j
  | .cpp => setupPath j

/-- What a directory of generated code contains. -/
def codeOf (fs : FS) (j : Job) : FS := fun r => (generate fs j).1 (j.base ++ r)

/-- Files outside the directories of solvers and of depth two or more. -/
theorem isFile_code (fs : FS) (j : Job) (hfs : Tree fs) (h : (generate fs j).2 = none) (a b : String) (r : Path)
    (hr : ¬ SolverArea (a :: b :: r)) : isFile (codeOf fs j (a :: b :: r)) = decide (a :: b :: r ∈ writtenFirst j) := by
  unfold codeOf
  rw [C74_layout fs j hfs h _ hr]
  have hw := written_iff j (a :: b :: r)
  simp only [List.cons.injEq, reduceCtorEq, and_false, or_false] at hw
  unfold layout
  by_cases hd : IsDirectory (a :: b :: r)
  · rw [if_pos hd, decide_eq_false fun hm => written_dir j _ hd (hw.1 hm)]; rfl
  · rw [if_neg hd]
    by_cases hm : a :: b :: r ∈ writtenFirst j
    · rw [if_pos (hw.1 hm), decide_eq_true hm]; rfl
    · rw [if_neg fun hc => hm (hw.2 hc), if_neg (by simp), decide_eq_false hm]; rfl

/-- The part of the search path outside the directories of solvers. -/
def nearPath : Lang → List Path
  | .c => [["c", "include"]]
  | .cpp => [["c"], ["cpp", "include"]]

def ownB (p : Path) : Bool := match p.getLast? with
  | some h => h.toList.take 4 == ['c', 'p', 'g', '_']
  | none => false

def seenB : Lang → Path → Bool
  | .c, [a, b, _] => a == "c" && (b == "src" || b == "include")
  | .c, _ => false
  | .cpp, [a, b, n] => (a == "cpp" && b == "src" && n == "cpg_module.cpp") || (a == "c" && b == "include")
  | .cpp, _ => false

/-- The flags on which includes depend. -/
def flagJob (k : SKind) (g n : Bool) : Job := { exJob with kind := k, gradient := g, named := n }

def nearOk (l : Lang) (j : Job) : Bool := (includesOf j).all fun e => !seenB l e.1 || e.2.all fun p => !ownB p ||
  (((e.1.dropLast :: nearPath l).map fun d => join d p).all fun q => decide (2 ≤ q.length) && !(q.take 2 == sc || q.take 2 == oc)) &&
  (((e.1.dropLast :: nearPath l).map fun d => join d p).find? fun q => decide (q ∈ writtenFirst j)) == some (home (p.getLast?.getD ""))

theorem near_table : ∀ l k g n, nearOk l (flagJob k g n) = true := by
  intro l k g n
  cases l <;> cases k <;> cases g <;> cases n <;> decide +kernel

theorem near_eq (l : Lang) (j : Job) : nearOk l j = nearOk l (flagJob j.kind j.gradient j.named) := rfl

theorem seenB_iff (l : Lang) (f : Path) : seenB l f = true ↔ Seen l f := by
  rcases f with _ | ⟨a, _ | ⟨b, _ | ⟨n, _ | ⟨x, f⟩⟩⟩⟩ <;> cases l <;> simp [seenB, Seen, exists_or, and_or_left, and_assoc]

theorem ownB_iff (p : Path) : ownB p = true ↔ Own p := by
  unfold ownB Own
  cases p.getLast? with
  | none => simp
  | some h =>
    simp only [beq_iff_eq, Option.some.injEq, exists_eq_left', List.prefix_iff_eq_take, List.length_cons, List.length_nil, Nat.zero_add]
    exact eq_comm

theorem area_two (a b : String) (q : Path) : SolverArea (a :: b :: q) ↔ ([a, b] = sc ∨ [a, b] = oc) := by
  unfold SolverArea sc oc
  simp only [List.cons.injEq, and_true]
  constructor
  · rintro (⟨l, h1, h2, _⟩ | ⟨l, h1, h2, _⟩)
    · exact Or.inl ⟨h1, h2⟩
    · exact Or.inr ⟨h1, h2⟩
  · rintro (⟨h1, h2⟩ | ⟨h1, h2⟩)
    · exact Or.inl ⟨q, h1, h2, rfl⟩
    · exact Or.inr ⟨q, h1, h2, rfl⟩

theorem find_agree {α : Type} {p q : α → Bool} {l : List α} (h : ∀ a ∈ l, p a = q a) : l.find? p = l.find? q := by
  induction l with
  | nil => rfl
  | cons a l ih =>
    rw [List.find?_cons, List.find?_cons, h a List.mem_cons_self, ih fun b hb => h b (List.mem_cons_of_mem _ hb)]

theorem search_split (l : Lang) (j : Job) : ∃ m, searchPath l j = nearPath l ++ m := by
  cases l
  · exact ⟨cmakeSolver j.kind, rfl⟩
  · exact ⟨setupSolver j.kind, rfl⟩

/-- **C77, own headers.** After a successful call, whatever compiler sees a generated file, each header `cpg_…` that it includes is found,
and it is the one of this code. -/
theorem C77_own (fs : FS) (j : Job) (hfs : Tree fs) (h : (generate fs j).2 = none) (l : Lang) (f : Path) (ps : List Path)
    (hf : (f, ps) ∈ includesOf j) (hl : Seen l f) (p : Path) (hp : p ∈ ps) (ho : Own p) :
    ∃ n, p.getLast? = some n ∧ Verif.Model.Includes.find (codeOf fs j) (searchPath l j) f p = some (home n) ∧
      codeOf fs j (home n) = some (.file (j.text (home n))) := by
  have ht : nearOk l j = true := near_eq l j ▸ near_table l _ _ _
  unfold nearOk at ht
  rw [List.all_eq_true] at ht
  have h1 := ht _ hf
  rw [(seenB_iff l f).2 hl, Bool.not_true, Bool.false_or, List.all_eq_true] at h1
  have h2 := h1 p hp
  rw [(ownB_iff p).2 ho, Bool.not_true, Bool.false_or, Bool.and_eq_true, beq_iff_eq, List.all_eq_true] at h2
  obtain ⟨n, hn, _⟩ := ho
  obtain ⟨h3, h4⟩ := h2
  rw [hn, Option.getD_some] at h4
  have hq : ∀ q ∈ (f.dropLast :: nearPath l).map fun d => join d p, isFile (codeOf fs j q) = decide (q ∈ writtenFirst j) := by
    intro q hm
    have h5 := h3 q hm
    rcases q with _ | ⟨a, _ | ⟨b, q⟩⟩
    · simp at h5
    · simp at h5
    · refine isFile_code fs j hfs h a b q ?_
      rw [area_two]
      simp only [List.take_succ_cons, List.take_zero, Bool.and_eq_true, Bool.not_eq_true', Bool.or_eq_false_iff, beq_eq_false_iff_ne] at h5
      tauto
  have hfind : ((f.dropLast :: nearPath l).map fun d => join d p).find? (fun q => isFile (codeOf fs j q)) = some (home n) := by
    rw [← h4]
    exact find_agree hq
  refine ⟨n, hn, ?_, ?_⟩
  · obtain ⟨m, hm⟩ := search_split l j
    unfold Verif.Model.Includes.find
    rw [hm, ← List.cons_append, List.map_append, List.find?_append, hfind]
    rfl
  · have hw : home n ∈ writtenFirst j := by have := List.find?_some h4; exact of_decide_eq_true this
    have hw' := (written_iff j _).1 (Or.inl hw)
    unfold codeOf
    rw [C74_layout fs j hfs h _ fun ha => written_area j _ ha hw']
    unfold layout
    rw [if_neg fun hd => written_dir j _ hd hw', if_pos hw']

/-! ### Headers of solvers -/

/-- Files that are only changed in place stay. -/
theorem keep_file (P : Path) (ops : List FOp) : ∀ {t t' : FS}, (∃ s, t P = some (.file s)) →
    (∀ op ∈ ops, (∀ s, ¬ Touch (some (.file s)) P op) ∨ ∃ f, op = .modify P f) → execs [] t ops = (t', none) → ∃ s, t' P = some (.file s) := by
  induction ops with
  | nil => intro t t' ht _ h; cases h; exact ht
  | cons op ops ih =>
    intro t t' ht hops h
    obtain ⟨t1, h1, h2⟩ := execs_append (l1 := [op]) h
    have h1 := execs_single h1
    refine ih ?_ (fun o ho => hops o (List.mem_cons_of_mem _ ho)) h2
    rcases hops op List.mem_cons_self with hn | ⟨f, rfl⟩
    · obtain ⟨s, hs⟩ := ht
      have := exec_other t P op (by rw [hs]; exact hn s)
      rw [h1] at this
      exact ⟨s, this.trans hs⟩
    · exact modify_ok h1

/-- PDAQP's header is where it belongs. -/
theorem pdaqp_header (fs : FS) (j : Job) (hfs : Tree fs) (h : (generate fs j).2 = none) (hk : j.kind = .pdaqp) :
    isFile (codeOf fs j (sc ++ ["include", "pdaqp.h"])) = true := by
  obtain ⟨hc, hs⟩ := generate_success h
  have h1 := generate_started (tree_empty hfs j.base) hc hs
  rw [h] at h1
  have ha : execs [] fresh (allOps j) = ((execs [] fresh (allOps j)).1, none) := by rw [h1.1]
  have e : codeOf fs j (sc ++ ["include", "pdaqp.h"]) = (execs [] fresh (allOps j)).1 (sc ++ ["include", "pdaqp.h"]) := congrFun h1.2 _
  rw [e]
  generalize (execs [] fresh (allOps j)).1 = t at ha
  unfold allOps at ha
  obtain ⟨t0, _, ha⟩ := execs_append ha
  obtain ⟨t1, h2, h3⟩ := execs_append ha
  have hx : j.explicit = true := by simp [Job.explicit, hk]
  have htw : j.twoStage = false := by simp [Job.twoStage, hx]
  have hf : ∃ s, t1 (sc ++ ["include", "pdaqp.h"]) = some (.file s) := by
    unfold solverStage solverOps at h2
    rw [hk, htw] at h2
    dsimp only at h2
    rw [if_neg (show ¬ false = true by simp), List.append_nil] at h2
    obtain ⟨t2, h2, h5⟩ := execs_append h2
    obtain ⟨t3, h2, h6⟩ := execs_append h2
    obtain ⟨t4, _, h7⟩ := execs_append (l1 := [_, _, _]) (l2 := [_, _]) h2
    obtain ⟨t5, h7, h8⟩ := execs_append (l1 := [_]) (l2 := [_]) h7
    have hm : ∃ s, t5 (sc ++ ["include", "pdaqp.h"]) = some (.file s) := by
      have h7 := execs_single h7
      simp only [exec, List.nil_append] at h7
      split at h7
      · split at h7
        · cases h7
        · next hp =>
          cases h7
          rw [put_ok hp]
          exact ⟨_, by unfold FS.remove FS.set; rw [if_neg (by decide), if_pos rfl]⟩
      · cases h7
      · cases h7
    have h8' := keep_file _ _ hm (by
      intro op hop
      rw [List.mem_singleton] at hop
      left; rw [hop]; intro s; simp [Touch, sc]) h8
    have h6' := keep_file _ _ h8' (by
      intro op hop
      split at hop
      · simp only [List.mem_cons, List.not_mem_nil, or_false] at hop
        rcases hop with hop | hop
        · right; exact ⟨_, hop⟩
        · left; rw [hop]; intro s; simp [Touch, sc]
      · cases hop) h6
    exact keep_file _ _ h6' (by
      intro op hop
      rw [List.mem_singleton] at hop
      left; rw [hop]; intro s; simp [Touch, sc]) h5
  obtain ⟨s, hs⟩ := keep_file _ _ hf (by
    intro op hop
    left
    intro s
    unfold writeStage cmakeOps at hop
    rw [hx, htw] at hop
    simp only [List.mem_append, List.mem_map, List.mem_cons, List.not_mem_nil, or_false, if_true, Bool.false_eq_true, if_false] at hop
    rcases hop with ⟨p, hp, rfl⟩ | rfl
    · intro he
      have he : sc ++ ["include", "pdaqp.h"] = p := he
      exact written_area j _ (area_sc _) ((written_iff j _).1 (Or.inl (he ▸ hp)))
    · simp [Touch, sc]) h3
  rw [hs]
  rfl

theorem solverDirs (l : Lang) (j : Job) : ∃ m, searchPath l j = nearPath l ++ m ∧ ∀ d, d ∈ m ↔ d ∈ cmakeSolver j.kind := by
  cases l
  · exact ⟨cmakeSolver j.kind, rfl, fun _ => Iff.rfl⟩
  · refine ⟨setupSolver j.kind, rfl, fun d => ?_⟩
    cases j.kind <;> simp only [setupSolver, cmakeSolver, List.mem_cons, List.not_mem_nil, or_false]
    tauto

/-- Names in the directories of generated headers. -/
theorem near_foreign (fs : FS) (j : Job) (hfs : Tree fs) (h : (generate fs j).2 = none) (x : String) (hx : ¬ Own [x]) (hh : ['.', 'h'] <:+ x.toList)
    (d : Path) (hd : d = ["c", "include"] ∨ d = ["c", "src"] ∨ d = ["c"] ∨ d = ["cpp", "include"]) : isFile (codeOf fs j (d ++ [x])) = false := by
  have hn : ∀ n, CFile (isExplicit j) j.gradient (two j) n → x ≠ n ++ ".h" ∧ x ≠ n ++ ".c" := by
    intro n hn
    have : ['c', 'p', 'g', '_'] <+: n.toList := by
      unfold CFile at hn
      rcases hn with rfl | rfl | ⟨_, rfl | ⟨_, rfl | rfl | ⟨_, rfl⟩⟩⟩ <;> decide
    constructor
    · rintro rfl; exact hx ⟨_, List.getLast?_singleton, by rw [String.toList_append]; exact this.trans (List.prefix_append _ _)⟩
    · rintro rfl; exact hx ⟨_, List.getLast?_singleton, by rw [String.toList_append]; exact this.trans (List.prefix_append _ _)⟩
  have hx1 : x ≠ "cpg_module.hpp" := by rintro rfl; exact hx ⟨_, rfl, by decide⟩
  have hx2 : x ≠ "cpg_example.c" := by rintro rfl; exact hx ⟨_, rfl, by decide⟩
  have hw : ¬ IsWritten j (d ++ [x]) := by
    rcases hd with rfl | rfl | rfl | rfl
    · simp only [IsWritten, List.cons_append, List.nil_append, true_and]
      rintro (⟨n, h1, h2⟩ | ⟨h1, _⟩ | ⟨h1, _⟩ | ⟨h1, _⟩)
      · exact (hn n h1).1 h2
      · revert h1; decide
      · revert h1; decide
      · revert h1; decide
    · simp only [IsWritten, List.cons_append, List.nil_append, true_and]
      rintro (⟨h1, _⟩ | (⟨n, h1, h2⟩ | h1) | ⟨h1, _⟩ | ⟨h1, _⟩)
      · revert h1; decide
      · exact (hn n h1).2 h2
      · exact hx2 h1
      · revert h1; decide
      · revert h1; decide
    · have hc : x ≠ "CMakeLists.txt" := by rintro rfl; revert hh; decide
      simpa [IsWritten] using hc
    · simp [IsWritten, hx1]
  have hnot : d ++ [x] ∉ writtenFirst j := fun hm => hw ((written_iff j _).1 (Or.inl hm))
  rcases hd with rfl | rfl | rfl | rfl
  · rw [List.cons_append, List.cons_append, isFile_code fs j hfs h _ _ _ (by simp [SolverArea]), decide_eq_false]; exact hnot
  · rw [List.cons_append, List.cons_append, isFile_code fs j hfs h _ _ _ (by simp [SolverArea]), decide_eq_false]; exact hnot
  · have ha : ¬ SolverArea (["c"] ++ [x]) := by
      rw [List.cons_append, List.nil_append, area_two]
      have h1 : x ≠ "solver_code" := by rintro rfl; revert hh; decide
      have h2 : x ≠ "osqp_code" := by rintro rfl; revert hh; decide
      simp [sc, oc, h1, h2]
    rw [List.cons_append, List.nil_append] at ha hnot ⊢
    rw [isFile_code fs j hfs h _ _ _ ha, decide_eq_false]; exact hnot
  · rw [List.cons_append, List.cons_append, isFile_code fs j hfs h _ _ _ (by simp [SolverArea]), decide_eq_false]; exact hnot

theorem join_one (d : Path) (x : String) (h : x ≠ "..") : join d [x] = d ++ [x] := by
  unfold join
  rw [List.foldl_cons, List.foldl_nil, if_neg h]

theorem find_ne_none {α : Type} (p : α → Bool) (l : List α) : l.find? p ≠ none ↔ ∃ a ∈ l, p a = true := by
  rw [ne_eq, List.find?_eq_none]
  push Not
  rfl

/-- **C77, other headers.** A header that is not CVXPYgen's own is found exactly if it is in one of the directories named for the solver, and
this is the same for C and C++. -/
theorem C77_solver (fs : FS) (j : Job) (hfs : Tree fs) (h : (generate fs j).2 = none) (l : Lang) (f x : String) (d : String)
    (hf : d = "include" ∨ (d = "src" ∧ l = .c)) (hx : ¬ Own [x]) (hh : ['.', 'h'] <:+ x.toList) :
    Verif.Model.Includes.find (codeOf fs j) (searchPath l j) ["c", d, f] [x] ≠ none ↔
      ∃ e ∈ cmakeSolver j.kind, isFile (codeOf fs j (e ++ [x])) = true := by
  have hdots : x ≠ ".." := by rintro rfl; revert hh; decide
  obtain ⟨m, hm, hmem⟩ := solverDirs l j
  unfold Verif.Model.Includes.find
  rw [find_ne_none, hm]
  have hnear : ∀ e ∈ ["c", d, f].dropLast :: nearPath l, isFile (codeOf fs j (e ++ [x])) = false := by
    intro e he
    apply near_foreign fs j hfs h x hx hh
    rcases hf with rfl | ⟨rfl, rfl⟩
    · cases l <;> simp [nearPath] at he <;> tauto
    · simp [nearPath] at he; tauto
  constructor
  · rintro ⟨q, hq, hfile⟩
    obtain ⟨e, he, rfl⟩ := List.mem_map.1 hq
    rw [join_one e x hdots] at hfile
    rw [← List.cons_append, List.mem_append] at he
    rcases he with he | he
    · rw [hnear e he] at hfile; cases hfile
    · exact ⟨e, (hmem e).1 he, hfile⟩
  · rintro ⟨e, he, hfile⟩
    refine ⟨e ++ [x], List.mem_map.2 ⟨e, ?_, join_one e x hdots⟩, hfile⟩
    rw [← List.cons_append]
    exact List.mem_append_right _ ((hmem e).2 he)

/-- A search that starts with directories without the file. -/
theorem find_skip {α : Type} (p : α → Bool) (l m : List α) (h : ∀ a ∈ l, p a = false) : (l ++ m).find? p = m.find? p := by
  rw [List.find?_append, List.find?_eq_none.2 fun a ha => by rw [h a ha]; simp]
  rfl

/-- **C77, explicit mode.** PDAQP's header is found wherever it is included, and it is the one of this code. -/
theorem C77_explicit (fs : FS) (j : Job) (hfs : Tree fs) (h : (generate fs j).2 = none) (hk : j.kind = .pdaqp) (l : Lang) (f : Path)
    (ps : List Path) (hf : (f, ps) ∈ includesOf j) (hl : Seen l f) (p : Path) (hp : p ∈ ps) (ho : ¬ Own p) :
    Verif.Model.Includes.find (codeOf fs j) (searchPath l j) f p = some ["c", "solver_code", "include", "pdaqp.h"] := by
  have hx : j.explicit = true := by simp [Job.explicit, hk]
  have htw : j.twoStage = false := by simp [Job.twoStage, hx]
  have hfile := pdaqp_header fs j hfs h hk
  have hcase : ((f = inc "cpg_workspace.h" ∨ f = inc "cpg_solve.h") ∧ p = ["pdaqp.h"]) ∨
      (f = src "cpg_gradient.c" ∧ p = ["..", "solver_code", "include", "pdaqp.h"]) := by
    have hown : ∀ x, (['c', 'p', 'g', '_'] <+: x.toList) → Own [x] := fun x hx => ⟨x, rfl, hx⟩
    have hown2 : ∀ a x, (['c', 'p', 'g', '_'] <+: x.toList) → Own [a, x] := fun a x hx => ⟨x, rfl, hx⟩
    unfold includesOf second headerFiles at hf
    rw [hk, hx, htw] at hf
    cases hg : j.gradient <;> rw [hg] at hf <;>
      simp only [if_true, Bool.false_eq_true, if_false, List.append_nil, List.nil_append, List.cons_append, List.mem_cons, List.not_mem_nil, or_false,
        Prod.mk.injEq] at hf
    · rcases hf with ⟨rfl, rfl⟩ | ⟨rfl, rfl⟩ | ⟨rfl, rfl⟩ | ⟨rfl, rfl⟩ | ⟨rfl, rfl⟩ | ⟨rfl, rfl⟩ <;>
        simp only [List.mem_cons, List.not_mem_nil, or_false] at hp
      · exact Or.inl ⟨Or.inl rfl, hp⟩
      · exact absurd (hp ▸ hown _ (by decide)) ho
      · rcases hp with rfl | rfl
        · exact absurd (hown _ (by decide)) ho
        · exact Or.inl ⟨Or.inr rfl, rfl⟩
      · rcases hp with rfl | rfl <;> exact absurd (hown _ (by decide)) ho
      · rcases hp with rfl | rfl <;> exact absurd (hown _ (by decide)) ho
      · rcases hp with rfl | rfl | rfl
        · exact absurd (hown _ (by decide)) ho
        · exact absurd (hown2 _ _ (by decide)) ho
        · exact absurd (hown2 _ _ (by decide)) ho
    · rcases hf with ⟨rfl, rfl⟩ | ⟨rfl, rfl⟩ | ⟨rfl, rfl⟩ | ⟨rfl, rfl⟩ | ⟨rfl, rfl⟩ | ⟨rfl, rfl⟩ | ⟨rfl, rfl⟩ | ⟨rfl, rfl⟩ <;>
        simp only [List.mem_cons, List.not_mem_nil, or_false] at hp
      · exact Or.inl ⟨Or.inl rfl, hp⟩
      · exact absurd (hp ▸ hown _ (by decide)) ho
      · rcases hp with rfl | rfl
        · exact absurd (hown _ (by decide)) ho
        · exact Or.inl ⟨Or.inr rfl, rfl⟩
      · rcases hp with rfl | rfl <;> exact absurd (hown _ (by decide)) ho
      · exact absurd (hp ▸ hown _ (by decide)) ho
      · rcases hp with rfl | rfl | rfl
        · exact absurd (hown _ (by decide)) ho
        · exact absurd (hown _ (by decide)) ho
        · exact Or.inr ⟨rfl, rfl⟩
      · rcases hp with rfl | rfl | rfl <;> exact absurd (hown _ (by decide)) ho
      · rcases hp with rfl | rfl | rfl | rfl
        · exact absurd (hown _ (by decide)) ho
        · exact absurd (hown2 _ _ (by decide)) ho
        · exact absurd (hown2 _ _ (by decide)) ho
        · exact absurd (hown2 _ _ (by decide)) ho
  unfold Verif.Model.Includes.find
  rcases hcase with ⟨hf, rfl⟩ | ⟨rfl, rfl⟩
  · have hno : ¬ Own ["pdaqp.h"] := by
      rw [← ownB_iff]; decide
    have hd : f.dropLast = ["c", "include"] := by rcases hf with rfl | rfl <;> rfl
    have hpath : searchPath l j = nearPath l ++ [sc ++ ["include"]] := by
      cases l <;> simp only [searchPath, cmakePath, setupPath, hk] <;> rfl
    rw [hpath, hd, ← List.cons_append, List.map_append, find_skip]
    · rw [List.map_singleton, List.find?_singleton, join_one _ _ (by decide), List.append_assoc]
      rw [if_pos (by exact hfile)]
      rfl
    · intro q hq
      obtain ⟨e, he, rfl⟩ := List.mem_map.1 hq
      rw [join_one _ _ (by decide)]
      refine near_foreign fs j hfs h _ hno (by decide) e ?_
      cases l <;> simp [nearPath] at he <;> tauto
  · rw [List.map_cons, List.find?_cons]
    have : join (src "cpg_gradient.c").dropLast ["..", "solver_code", "include", "pdaqp.h"] = sc ++ ["include", "pdaqp.h"] := by decide
    rw [this, hfile]
    rfl

/-- What PDAQP writes. -/
def exPdaqpTree : FS := fun p =>
  if p = [] then some .dir else if p = ["pdaqp.h"] ∨ p = ["pdaqp.c"] then some (.file "pdaqp") else none

def exPdaqp : Job := { exJob with kind := .pdaqp, gradient := true, ext := some exPdaqpTree }

example : (generate exRoom exPdaqp).2 = none ∧ Verif.Model.Includes.find (codeOf exRoom exPdaqp) (searchPath .cpp exPdaqp) (inc "cpg_solve.h") ["pdaqp.h"] =
    some ["c", "solver_code", "include", "pdaqp.h"] := by decide +kernel

example : (["cpp", "src", "cpg_module.cpp"], [["cpg_module.hpp"], ["include", "cpg_workspace.h"], ["include", "cpg_solve.h"], ["include", "cpg_gradient.h"]])
    ∈ includesOf exPdaqp := by decide +kernel

/-- `C77_own` for the C++ module, which reaches headers of the C code through `c`. -/
example : Verif.Model.Includes.find (codeOf exRoom exPdaqp) (searchPath .cpp exPdaqp) ["cpp", "src", "cpg_module.cpp"] ["include", "cpg_gradient.h"] =
    some (home "cpg_gradient.h") ∧ seenB .cpp ["cpp", "src", "cpg_module.cpp"] = true ∧ ownB ["include", "cpg_gradient.h"] = true := by decide +kernel

/-- `C77_solver`: both sides hold for `pdaqp.h`, and neither for a header that does not exist. -/
example : Verif.Model.Includes.find (codeOf exRoom exPdaqp) (searchPath .c exPdaqp) ["c", "src", "f.c"] ["pdaqp.h"] ≠ none ∧
    Verif.Model.Includes.find (codeOf exRoom exPdaqp) (searchPath .c exPdaqp) ["c", "src", "f.c"] ["other.h"] = none ∧
    ownB ["pdaqp.h"] = false := by decide +kernel

/-- What OSQP writes, with the header of QDLDL. -/
def exOsqpFull : FS := fun p =>
  if p = [] ∨ p = ["inc"] ∨ p = ["inc", "private"] then some .dir
  else if p = ["workspace.h"] ∨ p = ["CMakeLists.txt"] ∨ p = ["inc", "private", "qdldl.h"] then some (.file "osqp") else none

/-- **C77 fails in two stages.** `cpg_osqp_grad_compute.c` includes `qdldl.h`, which is part of the code of OSQP, but no directory of that code
is searched. Generation succeeds, the header is there, and it is not found. -/
theorem C77_fails_second : ∃ j : Job, (generate exRoom j).2 = none ∧ ["qdldl.h"] ∈ ((includesOf j).lookup (src "cpg_osqp_grad_compute.c")).getD [] ∧
    isFile (codeOf exRoom j ["c", "osqp_code", "inc", "private", "qdldl.h"]) = true ∧
    Verif.Model.Includes.find (codeOf exRoom j) (cmakePath j) (src "cpg_osqp_grad_compute.c") ["qdldl.h"] = none :=
  ⟨{ exJob with gradient := true, extO := some exOsqpFull }, by decide +kernel, by decide +kernel, by decide +kernel, by decide +kernel⟩

/-- **C77, OSQP.** In one stage the same header is found, if OSQP writes it to the directory it uses. -/
theorem C77_qdldl (fs : FS) (j : Job) (hfs : Tree fs) (h : (generate fs j).2 = none) (hk : j.kind = .osqp)
    (hq : isFile (codeOf fs j ["c", "solver_code", "inc", "private", "qdldl.h"]) = true) :
    Verif.Model.Includes.find (codeOf fs j) (cmakePath j) (src "cpg_osqp_grad_compute.c") ["qdldl.h"] ≠ none := by
  have hno : ¬ Own ["qdldl.h"] := by rw [← ownB_iff]; decide
  refine (C77_solver fs j hfs h .c "cpg_osqp_grad_compute.c" "qdldl.h" "src" (Or.inr ⟨rfl, rfl⟩) hno (by decide)).2 ⟨sc ++ ["inc", "private"], ?_, hq⟩
  rw [hk]
  decide

def exOsqpJob : Job := { exJob with kind := .osqp, named := true, gradient := true, ext := some exOsqpFull }

example : (generate exRoom exOsqpJob).2 = none ∧ isFile (codeOf exRoom exOsqpJob ["c", "solver_code", "inc", "private", "qdldl.h"]) = true := by
  decide +kernel

end Verif.Props
