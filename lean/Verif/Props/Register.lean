import Verif.Lemmas.Register
import Mathlib.Data.List.Induction
/-! C57: the registered solve method belongs to the code just generated. -/
namespace Verif.Props
open Verif.Model.Register Verif.Lemmas.Register

/-- The full claim: whatever was done before in this process, generating code that compiles registers this code. -/
def C57Claim : Prop :=
  ∀ (fs : Path → Option Code) (cwd : Path) (sysPath : List Path) (ops : List Op) (cd : List Char),
    (generate (run (fresh fs cwd sysPath) ops) cd true).2 = .ok (run (fresh fs cwd sysPath) ops).count

/-- The name of the folder is a name, not a path. -/
def PlainName (cd : List Char) : Prop := '/' ∉ cd ∧ '.' ∉ cd

/-- No operation generates into a folder of this name. -/
def NotBefore (cd : List Char) (ops : List Op) : Prop := ∀ ok, Op.generate cd ok ∉ ops

theorem run_other (s : St) (ops : List Op) (cd : List Char) (h : NotBefore cd ops) :
    (run s ops).mods cd = s.mods cd ∧ (run s ops).pkgs cd = s.pkgs cd := by
  induction ops using List.reverseRecOn with
  | nil => exact ⟨rfl, rfl⟩
  | append_singleton ops o ih =>
    have e : run s (ops ++ [o]) = step (run s ops) o := by unfold run; rw [List.foldl_append]; rfl
    obtain ⟨h1, h2⟩ := ih fun ok hm => h ok (List.mem_append_left _ hm)
    obtain ⟨h3, h4⟩ := step_other (run s ops) o cd fun ok e => h ok (by rw [e]; simp)
    rw [e]
    exact ⟨h3.trans h1, h4.trans h2⟩

/-- C57 for the first generation into a folder of that name in the process, the name being plain and no earlier directory
of `sys.path` having code of the same name. If the compiler fails there is an error. Missing: names with `/` or `.`, later
generations into the same folder, see below. -/
theorem C57_partial (fs : Path → Option Code) (cwd : Path) (sysPath : List Path) (ops : List Op) (cd : List Char) (ok : Bool)
    (hp : PlainName cd) (hb : NotBefore cd ops)
    (hs : ∀ l r, (run (fresh fs cwd sysPath) ops).sysPath = l ++ (run (fresh fs cwd sysPath) ops).cwd :: r →
      ∀ p ∈ l, (run (fresh fs cwd sysPath) ops).fs (p ++ [cd]) = none) :
    (generate (run (fresh fs cwd sysPath) ops) cd ok).2
      = if ok then .ok (run (fresh fs cwd sysPath) ops).count else .error .importError := by
  obtain ⟨hm, hk⟩ := run_other (fresh fs cwd sysPath) ops cd hb
  obtain ⟨s, hsd⟩ : ∃ s, s = run (fresh fs cwd sysPath) ops := ⟨_, rfl⟩
  rw [← hsd] at hm hk hs ⊢
  have hm : s.mods cd = none := hm
  have hk : s.pkgs cd = none := hk
  have ht : target s.cwd cd = s.cwd ++ [cd] := by unfold target; rw [split_none '/' cd hp.1]
  have hfind : ∀ fs' : Path → Option Code, (∀ p, fs' p = if p = s.cwd ++ [cd] then some ⟨s.count, ok⟩ else s.fs p) →
      (if s.cwd ∈ s.sysPath then s.sysPath else s.cwd :: s.sysPath).find? (fun p => (fs' (p ++ [cd])).isSome)
        = some s.cwd := by
    intro fs' hfs'
    have hat : (fs' (s.cwd ++ [cd])).isSome = true := by rw [hfs', if_pos rfl]; rfl
    by_cases hin : s.cwd ∈ s.sysPath
    · rw [if_pos hin]
      obtain ⟨l, r, e, hnl⟩ := List.eq_append_cons_of_mem hin
      rw [e, List.find?_append]
      have : l.find? (fun p => (fs' (p ++ [cd])).isSome) = none := by
        rw [List.find?_eq_none]
        intro p hpl
        have hpne : p ≠ s.cwd := fun e => hnl (e ▸ hpl)
        rw [hfs', if_neg (fun e => hpne (List.append_cancel_right e)), hs l r e p hpl]
        simp
      rw [this, List.find?_cons, hat]
      rfl
    · rw [if_neg hin, List.find?_cons, hat]
  unfold generate importSolver
  simp only [hm, hk]
  unfold search
  rw [split_none '.' cd hp.2]
  have hany : ([cd].any fun w => w.contains '/') = false := by
    simp [hp.1]
  simp only [hany, ht]
  rw [hfind _ fun p => rfl]
  simp only [Bool.false_eq_true, if_false, Option.map_some, Option.none_or, if_true]
  cases ok <;> rfl

/-- The first generation wins: once code of a name was registered in the process, every later generation into a folder of
that name (from whatever working directory, whether it compiles or not, whatever is done in between) registers the same code
again. -/
theorem C57_first_wins (s : St) (cd : List Char) (v : Nat) (hv : s.mods cd = some v) (ops : List Op) (ok : Bool) :
    (generate (run s ops) cd ok).2 = .ok v := by
  have key : ∀ ops, (run s ops).mods cd = some v := by
    intro ops
    induction ops using List.reverseRecOn with
    | nil => exact hv
    | append_singleton ops o ih =>
      have e : run s (ops ++ [o]) = step (run s ops) o := by unfold run; rw [List.foldl_append]; rfl
      rw [e]
      cases o with
      | chdir p => exact ih
      | generate cd' ok' =>
        by_cases hne : cd = cd'
        · subst hne
          show (generate (run s ops) cd ok').1.mods cd = some v
          unfold generate importSolver
          simp only [ih]
        · exact (importSolver_other _ cd' cd hne).1.trans ih
  unfold generate importSolver
  simp only [key]

/-- So the claim fails for every second generation into a folder of the same name: the older code is registered. -/
theorem C57_fails_again (fs : Path → Option Code) (cwd : Path) (sysPath : List Path) (cd : List Char) (hp : PlainName cd)
    (hs : ∀ l r, sysPath = l ++ cwd :: r → ∀ p ∈ l, fs (p ++ [cd]) = none) (ops : List Op) (ok : Bool) :
    (generate (run (fresh fs cwd sysPath) (.generate cd true :: ops)) cd ok).2 = .ok 0 ∧
      1 ≤ (run (fresh fs cwd sysPath) (.generate cd true :: ops)).count := by
  have h1 := C57_partial fs cwd sysPath [] cd true hp (fun _ h => by cases h) hs
  have hok : (generate (fresh fs cwd sysPath) cd true).2 = .ok 0 := h1
  have hm : (generate (fresh fs cwd sysPath) cd true).1.mods cd = some 0 := by
    exact importSolver_kept _ _ _ hok
  refine ⟨C57_first_wins (generate (fresh fs cwd sysPath) cd true).1 cd 0 hm ops ok, ?_⟩
  have hcount : ∀ (ops : List Op) (s : St), s.count ≤ (run s ops).count := by
    have hi : ∀ (s : St) n, (importSolver s n).1.count = s.count := by
      intro s n
      unfold importSolver
      split
      · rfl
      · split
        · rfl
        · dsimp only
          split
          · rfl
          · split <;> rfl
    intro ops
    induction ops with
    | nil => intro s; exact Nat.le_refl _
    | cons o ops ih =>
      intro s
      refine Nat.le_trans ?_ (ih (step s o))
      cases o with
      | chdir p => exact Nat.le_refl _
      | generate cd ok =>
        show s.count ≤ (importSolver _ _).1.count
        rw [hi]; exact Nat.le_succ _
  have h0 : (step (fresh fs cwd sysPath) (.generate cd true)).count = 1 := by
    show (importSolver _ _).1.count = 1
    unfold importSolver
    split
    · rfl
    · split
      · rfl
      · dsimp only
        split
        · rfl
        · split <;> rfl
  have := hcount ops (step (fresh fs cwd sysPath) (.generate cd true))
  rw [h0] at this
  exact this

/-- The import looks into the folder just written exactly if the name is plain. -/
theorem C57_name_iff (cd : List Char) :
    (split '.' cd = split '/' cd ∧ ((split '.' cd).any fun w => w.contains '/') = false) ↔ PlainName cd := by
  constructor
  · rintro ⟨h1, h2⟩
    have h2 : ∀ w ∈ split '.' cd, '/' ∉ w := by
      intro w hw hc
      have : (split '.' cd).any (fun w => w.contains '/') = true := List.any_eq_true.2 ⟨w, hw, by simpa using hc⟩
      rw [h2] at this; cases this
    refine ⟨?_, ?_⟩
    · intro h
      obtain ⟨w, hw, hd⟩ := split_mem_other '.' '/' (by decide) cd h
      exact h2 w hw hd
    · intro h
      obtain ⟨w, hw, hd⟩ := split_mem_other '/' '.' (by decide) cd h
      rw [← h1] at hw
      exact split_mem_no '.' cd w hw hd
  · rintro ⟨h1, h2⟩
    rw [split_none '.' cd h2, split_none '/' cd h1]
    exact ⟨rfl, by simp [h1]⟩

/-- A path as `code_dir`: the first generation raises although the code was written and compiled. -/
theorem C57_fails_path (fs : Path → Option Code) (cwd : Path) (sysPath : List Path) (cd : List Char) (h : '/' ∈ cd) (ok : Bool) :
    (generate (fresh fs cwd sysPath) cd ok).2 = .error .moduleNotFound := by
  have hany : ((split '.' cd).any fun w => w.contains '/') = true := by
    obtain ⟨w, hw, hd⟩ := split_mem_other '.' '/' (by decide) cd h
    exact List.any_eq_true.2 ⟨w, hw, by simpa using hd⟩
  unfold generate importSolver fresh search
  simp only [hany, if_true]
  rfl

theorem C57_fails : ¬ C57Claim := by
  intro h
  have h1 := h (fun _ => none) [] [] [] "a/b".toList
  rw [show run (fresh (fun _ => none) [] []) [] = fresh (fun _ => none) [] [] from rfl,
    C57_fails_path _ _ _ _ (by decide)] at h1
  cases h1

/-- Non-vacuity: two folders, with a change of the working directory in between. -/
example : PlainName "code_b".toList ∧ NotBefore "code_b".toList [.generate "code_a".toList true, .chdir ["home".toList]] ∧
    (generate (run (fresh (fun _ => none) ["w".toList] [["w".toList]]) [.generate "code_a".toList true, .chdir ["home".toList]])
      "code_b".toList true).2 = .ok 1 := by
  refine ⟨⟨by decide, by decide⟩, ?_, by decide⟩
  intro ok hm
  rcases List.mem_cons.1 hm with h | h
  · have := (Op.generate.inj h).1; revert this; decide
  · rcases List.mem_cons.1 h with h | h
    · cases h
    · cases h
end Verif.Props
