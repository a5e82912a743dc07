import Verif.Lemmas.Files
import Verif.Spec.Files
/-! What a sequence of operations leaves alone, and what it leaves behind. -/
namespace Verif.Lemmas.Files
open Verif.Model.Files Verif.Spec.Files

/-- Where an operation may change the node at `r`, which is `n`. -/
def Touch (n : Option Node) (r : Path) : FOp → Prop
  | .mkdir p | .copyfile _ p | .write p _ | .append p _ | .modify p _ => r = p
  | .makedirs p _ => n = none ∧ r <+: p
  | .rmtree p | .copytree _ p | .extern _ p => p <+: r
  | .copy _ b => r = b
  | .move a b => a <+: r ∨ r = b

theorem mkdir_other (t : FS) (p r : Path) (h : r ≠ p) : (mkdir t p).1 r = t r := by
  unfold mkdir
  split
  · rfl
  · split
    · exact if_neg h
    · rfl
    · rfl

theorem mkdir_some (t : FS) (p r : Path) (h : t r ≠ none) : (mkdir t p).1 r = t r := by
  unfold mkdir
  split
  · rfl
  · next hn =>
    split
    · exact if_neg fun (he : r = p) => h (he ▸ hn)
    · rfl
    · rfl

theorem put_other (t : FS) (p r : Path) (s : String) (h : r ≠ p) : (put t p s).1 r = t r := by
  unfold put
  split
  · rfl
  · exact if_neg h
  · split
    · exact if_neg h
    · rfl
    · rfl

theorem parents_other (l : List Path) (r : Path) : ∀ t : FS, t r ≠ none ∨ r ∉ l → (parents [] t l).1 r = t r := by
  induction l with
  | nil => exact fun t _ => rfl
  | cons p l ih =>
    intro t h
    unfold parents
    rw [List.nil_append]
    have hm : (mkdir t p).1 r = t r := by
      rcases h with h | h
      · exact mkdir_some t p r h
      · exact mkdir_other t p r fun he => h (he ▸ List.mem_cons_self)
    split
    · exact ih t (h.imp id fun h hm => h (List.mem_cons_of_mem _ hm))
    · split
      · next e he => rw [he] at hm; exact hm
      · next fs he =>
        rw [he] at hm
        have hm : fs r = t r := hm
        rw [ih fs (by rw [hm]; exact h.imp id fun h hm => h (List.mem_cons_of_mem _ hm))]
        exact hm

theorem lastDir_other (t : FS) (p r : Path) (ok : Bool) (h : t r ≠ none ∨ r ≠ p) : (lastDir t p ok).1 r = t r := by
  have hm : (mkdir t p).1 r = t r := h.elim (mkdir_some t p r) (mkdir_other t p r)
  unfold lastDir
  split
  · next he => rw [he] at hm; exact hm
  · next he => rw [he] at hm; split <;> exact hm

theorem parentsOf_prefix (p q : Path) (h : q ∈ parentsOf p) : q <+: p := by
  unfold parentsOf at h
  obtain ⟨k, _, rfl⟩ := List.mem_map.1 h
  exact List.take_prefix k p

theorem exec_other (t : FS) (r : Path) (op : FOp) (h : ¬ Touch (t r) r op) : (exec [] t op).1 r = t r := by
  cases op with
  | mkdir p => exact mkdir_other t p r h
  | makedirs p ok =>
    have h : t r ≠ none ∨ ¬ r <+: p := by
      by_cases h1 : t r = none
      · exact Or.inr fun h2 => h ⟨h1, h2⟩
      · exact Or.inl h1
    have hp := parents_other (parentsOf p) r t (h.imp id fun h hm => h (parentsOf_prefix p r hm))
    show (makedirs [] t p ok).1 r = _
    unfold makedirs
    split
    · next he => rw [he] at hp; exact hp
    · next fs he =>
      rw [he] at hp
      have hp : fs r = t r := hp
      rw [List.nil_append, lastDir_other _ _ _ _ (by rw [hp]; exact h.imp id fun h he => h (he ▸ List.prefix_rfl))]
      exact hp
  | rmtree p =>
    simp only [exec, List.nil_append]
    split
    · exact if_neg h
    · rfl
  | copytree src p =>
    simp only [exec, List.nil_append]
    split
    · have hm := mkdir_other t p r fun he => h (he ▸ List.prefix_rfl)
      split
      · next he => rw [he] at hm; exact hm
      · next he =>
        rw [he] at hm
        exact (if_neg h).trans hm
    · rfl
  | extern src p =>
    cases src with
    | none => rfl
    | some s => exact if_neg h
  | copyfile src p =>
    cases src with
    | none => rfl
    | some n => cases n with
      | dir => rfl
      | file s => exact put_other t p r s h
  | write p s => exact put_other t p r s h
  | append p s =>
    simp only [exec, List.nil_append]
    split
    · exact if_neg h
    · exact put_other t p r s h
  | modify p f =>
    simp only [exec, List.nil_append]
    split
    · exact if_neg h
    · rfl
    · rfl
  | copy a b =>
    simp only [exec, List.nil_append]
    split
    · exact put_other t b r _ h
    · rfl
    · rfl
  | move a b =>
    simp only [exec, List.nil_append]
    split
    · next s _ =>
      have hm := put_other t b r s fun he => h (Or.inr he)
      split
      · next he => rw [he] at hm; exact hm
      · next he =>
        rw [he] at hm
        exact (if_neg fun hp => h (Or.inl hp)).trans hm
    · rfl
    · rfl

theorem execs_other (ops : List FOp) (r : Path) : ∀ t : FS, (∀ op ∈ ops, ¬ Touch (t r) r op) → (execs [] t ops).1 r = t r := by
  induction ops with
  | nil => exact fun t _ => rfl
  | cons op ops ih =>
    intro t h
    have h1 := exec_other t r op (h op List.mem_cons_self)
    unfold execs
    split
    · next he => rw [he] at h1; exact h1
    · next fs he =>
      rw [he] at h1
      have h1 : fs r = t r := h1
      rw [ih _ (by rw [h1]; exact fun o ho => h o (List.mem_cons_of_mem _ ho))]
      exact h1

/-- A sequence that succeeds, cut in two. -/
theorem execs_append {base : Path} {l1 l2 : List FOp} : ∀ {t t' : FS}, execs base t (l1 ++ l2) = (t', none) →
    ∃ t1, execs base t l1 = (t1, none) ∧ execs base t1 l2 = (t', none) := by
  induction l1 with
  | nil => exact fun {t t'} h => ⟨t, rfl, h⟩
  | cons op l1 ih =>
    intro t t' h
    rw [List.cons_append] at h
    unfold execs at h
    split at h
    · cases h
    · next fs he =>
      obtain ⟨t1, h1, h2⟩ := ih h
      refine ⟨t1, ?_, h2⟩
      rw [execs, he]
      exact h1

theorem put_ok {t t' : FS} {p : Path} {s : String} (h : put t p s = (t', none)) : t' = t.set p (.file s) := by
  unfold put at h
  split at h
  · cases h
  · cases h; rfl
  · split at h
    · cases h; rfl
    · cases h
    · cases h

/-- Files written one after another. -/
theorem execs_writes (text : Path → String) (ws : List Path) : ∀ {t t' : FS},
    execs [] t (ws.map fun p => .write p (text p)) = (t', none) → ∀ r, t' r = if r ∈ ws then some (.file (text r)) else t r := by
  induction ws with
  | nil => intro t t' h r; cases h; rw [if_neg List.not_mem_nil]
  | cons p ws ih =>
    intro t t' h r
    rw [List.map_cons] at h
    unfold execs at h
    split at h
    · cases h
    · next fs he =>
      have hp := put_ok he
      rw [ih h r]
      by_cases hr : r ∈ ws
      · rw [if_pos hr, if_pos (List.mem_cons_of_mem _ hr)]
      · rw [if_neg hr, hp]
        unfold FS.set
        by_cases hq : r = p
        · rw [if_pos (by rw [hq]; rfl), if_pos (by rw [hq]; exact List.mem_cons_self), hq]
        · rw [if_neg (by rw [List.nil_append]; exact hq), if_neg (by simp only [List.mem_cons, not_or]; exact ⟨hq, hr⟩)]

theorem append_ok {t t' : FS} {p : Path} {s : String} (h : exec [] t (.append p s) = (t', none)) : ∃ s', t' p = some (.file s') := by
  simp only [exec, List.nil_append] at h
  split at h
  · cases h; exact ⟨_, if_pos rfl⟩
  · rw [put_ok h]; exact ⟨_, if_pos rfl⟩

theorem modify_ok {t t' : FS} {p : Path} {f : String → String} (h : exec [] t (.modify p f) = (t', none)) :
    ∃ s', t' p = some (.file s') := by
  simp only [exec, List.nil_append] at h
  split at h
  · cases h; exact ⟨_, if_pos rfl⟩
  · cases h
  · cases h

theorem copyfile_ok {t t' : FS} {p : Path} {n : Option Node} (h : exec [] t (.copyfile n p) = (t', none)) : t' p = n := by
  simp only [exec, List.nil_append] at h
  split at h
  · rw [put_ok h]; exact if_pos rfl
  · cases h
  · cases h

theorem execs_single {base : Path} {t t' : FS} {op : FOp} (h : execs base t [op] = (t', none)) : exec base t op = (t', none) := by
  unfold execs at h
  split at h
  · cases h
  · next he => rw [he]; cases h; rfl

/-- An empty directory. -/
def fresh : FS := fun r => if r = [] then some .dir else none

theorem area_iff (r : Path) : SolverArea r ↔ sc <+: r ∨ oc <+: r := by
  constructor
  · rintro (⟨l, rfl⟩ | ⟨l, rfl⟩)
    · exact Or.inl ⟨l, rfl⟩
    · exact Or.inr ⟨l, rfl⟩
  · rintro (⟨l, rfl⟩ | ⟨l, rfl⟩)
    · exact Or.inl ⟨l, rfl⟩
    · exact Or.inr ⟨l, rfl⟩

/-- The paths of an operation are in the solver area. -/
def InArea : FOp → Prop
  | .mkdir p | .makedirs p _ | .rmtree p | .copytree _ p | .extern _ p | .copyfile _ p | .write p _ | .append p _ | .modify p _ =>
    SolverArea p
  | .copy _ b => SolverArea b
  | .move a b => SolverArea a ∧ SolverArea b

theorem area_mono {p r : Path} (hp : SolverArea p) (h : p <+: r) : SolverArea r := by
  rw [area_iff] at hp ⊢
  exact hp.imp (·.trans h) (·.trans h)

theorem area_above {p r : Path} (hp : SolverArea p) (h : r <+: p) : SolverArea r ∨ r = [] ∨ r = ["c"] := by
  obtain ⟨l, rfl⟩ := h
  rcases r with _ | ⟨a, _ | ⟨b, r⟩⟩
  · exact Or.inr (Or.inl rfl)
  · rcases hp with ⟨l', h⟩ | ⟨l', h⟩ <;> · simp only [List.cons_append, List.nil_append, List.cons.injEq] at h; exact Or.inr (Or.inr (by rw [h.1]))
  · left
    rcases hp with ⟨l', h⟩ | ⟨l', h⟩
    · simp only [List.cons_append, List.cons.injEq] at h; exact Or.inl ⟨r, by rw [h.1, h.2.1]⟩
    · simp only [List.cons_append, List.cons.injEq] at h; exact Or.inr ⟨r, by rw [h.1, h.2.1]⟩

theorem area_touch {n : Option Node} {r : Path} (hr : ¬ SolverArea r) (hn : n = none → r ≠ [] ∧ r ≠ ["c"]) {op : FOp} (hop : InArea op) :
    ¬ Touch n r op := by
  intro h
  cases op with
  | mkdir p => exact hr (by cases h; exact hop)
  | makedirs p ok =>
    rcases area_above hop h.2 with h1 | h1 | h1
    · exact hr h1
    · exact (hn h.1).1 h1
    · exact (hn h.1).2 h1
  | rmtree p => exact hr (area_mono hop h)
  | copytree src p => exact hr (area_mono hop h)
  | extern src p => exact hr (area_mono hop h)
  | copyfile src p => exact hr (by cases h; exact hop)
  | write p s => exact hr (by cases h; exact hop)
  | append p s => exact hr (by cases h; exact hop)
  | modify p f => exact hr (by cases h; exact hop)
  | copy a b => exact hr (by cases h; exact hop)
  | move a b =>
    rcases h with h | h
    · exact hr (area_mono hop.1 h)
    · exact hr (by cases h; exact hop.2)

theorem area_sc (l : Path) : SolverArea (sc ++ l) := Or.inl ⟨l, rfl⟩
theorem area_oc (l : Path) : SolverArea (oc ++ l) := Or.inr ⟨l, rfl⟩
theorem area_sc0 : SolverArea sc := Or.inl ⟨[], rfl⟩
theorem area_oc0 : SolverArea oc := Or.inr ⟨[], rfl⟩

theorem skeleton : (execs [] fresh folderOps).2 = none := by decide

theorem skeleton_at (r : Path) [Decidable (IsDirectory r)] :
    (execs [] fresh folderOps).1 r = if IsDirectory r then some .dir else none := by
  have : (execs [] fresh folderOps).1 = (((((((fresh.set ["c"] .dir).set ["c", "src"] .dir).set ["c", "include"] .dir).set ["c", "build"] .dir).set
    ["cpp"] .dir).set ["cpp", "src"] .dir).set ["cpp", "include"] .dir) := by rfl
  rw [this]
  unfold FS.set fresh
  rcases r with _ | ⟨a, _ | ⟨b, _ | ⟨c, l⟩⟩⟩
  · simp [IsDirectory]
  · simp only [IsDirectory, List.cons.injEq, reduceCtorEq, and_false, and_true, if_false]
    by_cases h1 : a = "c" <;> by_cases h2 : a = "cpp" <;> simp [h1, h2]
  · simp only [IsDirectory, List.cons.injEq, reduceCtorEq, and_false, and_true, if_false]
    by_cases h1 : a = "c"
    · subst h1
      by_cases h3 : b = "src" <;> by_cases h4 : b = "include" <;> by_cases h5 : b = "build" <;> simp [h3, h4, h5]
    · by_cases h2 : a = "cpp"
      · subst h2
        by_cases h3 : b = "src" <;> by_cases h4 : b = "include" <;> simp [h3, h4]
      · simp [h1, h2]
  · simp [IsDirectory]

theorem solver_forall {P : FOp → Prop} (j : Job)
    (hrm : P (.rmtree sc)) (hmk : P (.mkdir sc)) (hct : ∀ s l, P (.copytree s (sc ++ l))) (hcf : ∀ s l, P (.copyfile s (sc ++ l)))
    (hmo : ∀ l f, P (.modify (sc ++ l) f)) (hex : ∀ s, P (.extern s sc)) (hmd : ∀ l, l ≠ [] → P (.makedirs (sc ++ l) true))
    (hmv : ∀ a b, P (.move (sc ++ a) (sc ++ b))) (hwr : ∀ l s, P (.write (sc ++ l) s))
    (hoe : ∀ s, P (.extern s oc)) (hof : ∀ s l, P (.copyfile s (oc ++ l))) (hom : ∀ l f, P (.modify (oc ++ l) f))
    (hcop : j.kind = .ecos → P (.copyfile (j.pkg ["ecos", "COPYING"]) ["COPYING"]))
    (hlic : ∀ s, P (.copyfile s ["LICENSE"])) (hlc : P (.copy (sc ++ ["LICENSE"]) ["LICENSE"])) :
    ∀ op ∈ solverStage j, P op := by
  have hcopy : ∀ name dirs files, ∀ op ∈ copyOps j name dirs files, P op := by
    intro name dirs files op h
    unfold copyOps at h
    simp only [List.mem_append, List.mem_cons, List.not_mem_nil, or_false, List.mem_map] at h
    rcases h with ((h | h) | ⟨d, _, h⟩) | ⟨f, _, h⟩
    · rw [h]; exact hrm
    · rw [h]; exact hmk
    · rw [← h]; exact hct _ _
    · rw [← h]; exact hcf _ _
  intro op h
  unfold solverStage at h
  rw [List.mem_append] at h
  rcases h with h | h
  · unfold solverOps at h
    split at h
    · simp only [osqpOps, List.mem_cons, List.not_mem_nil, or_false] at h
      rcases h with h | h | h | h <;> rw [h]
      · exact hex _
      · exact hcf _ _
      · exact hmo _ _
      · exact hmo _ _
    · next hk =>
      simp only [List.mem_append, List.mem_cons, List.not_mem_nil, or_false] at h
      rcases h with h | h | h
      · exact hcopy _ _ _ op h
      · rw [h]; exact hcop hk
      · rw [h]; exact hmo _ _
    · simp only [List.mem_append, List.mem_cons, List.not_mem_nil, or_false] at h
      rcases h with h | h | h
      · exact hcopy _ _ _ op h
      · rw [h]; exact hmo _ _
      · rw [h]; exact hmo _ _
    · simp only [List.mem_append, List.mem_cons, List.not_mem_nil, or_false] at h
      rcases h with ((h | h) | h) | h | h
      · exact hcopy _ _ _ op h
      · rw [h]; exact hmo _ _
      · split at h
        · simp only [List.mem_cons, List.not_mem_nil, or_false] at h
          rw [h]; exact hmo _ _
        · cases h
      · rw [h]; exact hmo _ _
      · rw [h]; exact hmo _ _
    · simp only [List.mem_append, List.mem_cons, List.not_mem_nil, or_false] at h
      rcases h with h | h
      · exact hcopy _ _ _ op h
      · rw [h]; exact hlic _
    · simp only [List.mem_cons, List.not_mem_nil, or_false] at h
      rcases h with h | h <;> rw [h]
      · exact hex _
      · exact hlc
    · simp only [List.mem_append, List.mem_cons, List.not_mem_nil, or_false] at h
      rcases h with ((h | h | h | h | h) | h) | h
      · rw [h]; exact hex _
      · rw [h]; exact hmd _ (by simp)
      · rw [h]; exact hmd _ (by simp)
      · rw [h]; exact hmv _ _
      · rw [h]; exact hmv _ _
      · split at h
        · simp only [List.mem_cons, List.not_mem_nil, or_false] at h
          rcases h with h | h <;> rw [h]
          · exact hmo _ _
          · exact hmo _ _
        · cases h
      · rw [h]; exact hwr _ _
  · split at h
    · simp only [osqpOps, List.mem_cons, List.not_mem_nil, or_false] at h
      rcases h with h | h | h | h <;> rw [h]
      · exact hoe _
      · exact hof _ _
      · exact hom _ _
      · exact hom _ _
    · cases h

theorem solver_proper (j : Job) : ∀ op ∈ solverStage j, Proper op := by
  apply solver_forall (P := Proper) j <;> intros <;> simp [Proper, sc, oc]

theorem written_proper (j : Job) : ∀ p ∈ writtenFirst j, p ≠ [] := by
  intro p hp h
  subst h
  revert hp
  unfold writtenFirst inc src
  split
  · split
    · simp
    · split <;> simp
  · simp

theorem cmake_area (j : Job) : ∀ op ∈ cmakeOps j, InArea op ∧ Proper op := by
  intro op h
  unfold cmakeOps at h
  rw [List.mem_append] at h
  rcases h with h | h
  · split at h
    · cases h
    · simp only [List.mem_cons, List.not_mem_nil, or_false] at h
      rw [h]; exact ⟨area_sc _, by simp [Proper, sc]⟩
  · split at h
    · simp only [List.mem_cons, List.not_mem_nil, or_false] at h
      rcases h with h | h <;> rw [h] <;> exact ⟨area_oc _, by simp [Proper, oc]⟩
    · cases h

theorem all_proper (j : Job) : ∀ op ∈ allOps j, Proper op := by
  intro op h
  unfold allOps writeStage at h
  simp only [List.mem_append, List.mem_map, List.mem_cons, List.not_mem_nil, or_false] at h
  rcases h with h | h | (⟨p, hp, h⟩ | h) | h
  · unfold folderOps at h
    simp only [List.mem_cons, List.not_mem_nil, or_false] at h
    rcases h with h | h | h | h | h <;> rw [h] <;> simp [Proper]
  · exact solver_proper j op h
  · rw [← h]; exact written_proper j p hp
  · exact (cmake_area j op h).2
  · rw [h]; simp [Proper]

/-- Outside the area, solver code generation writes at most two licenses. -/
theorem solver_touch (j : Job) (n : Option Node) (r : Path) (hr : ¬ SolverArea r) (hn : n = none → r ≠ [] ∧ r ≠ ["c"])
    (hl : r ≠ ["LICENSE"]) (hc : r = ["COPYING"] → j.kind ≠ .ecos) : ∀ op ∈ solverStage j, ¬ Touch n r op := by
  have hA : ∀ op, InArea op → ¬ Touch n r op := fun op => area_touch hr hn
  apply solver_forall (P := fun op => ¬ Touch n r op) j
  · exact hA _ area_sc0
  · exact hA _ area_sc0
  · exact fun s l => hA _ (area_sc l)
  · exact fun s l => hA _ (area_sc l)
  · exact fun l f => hA _ (area_sc l)
  · exact fun s => hA _ area_sc0
  · exact fun l _ => hA _ (area_sc l)
  · exact fun a b => hA _ ⟨area_sc a, area_sc b⟩
  · exact fun l s => hA _ (area_sc l)
  · exact fun s => hA _ area_oc0
  · exact fun s l => hA _ (area_oc l)
  · exact fun l f => hA _ (area_oc l)
  · exact fun hk h => hc h hk
  · exact fun s h => hl h
  · exact fun h => hl h

end Verif.Lemmas.Files
