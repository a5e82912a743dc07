import Verif.Model.Files
/-! Operations below a directory: they act on its contents only, in the same way wherever it is. -/
namespace Verif.Lemmas.Files
open Verif.Model.Files

/-- The contents of a directory. -/
def view (base : Path) (fs : FS) : FS := fun r => fs (base ++ r)

/-- `x`, reached from `fs`, and `y` agree below `base`; outside nothing changed. -/
structure Sim (base : Path) (fs : FS) (x y : FS × Option FsErr) : Prop where
  err : x.2 = y.2
  view : view base x.1 = y.1
  out : ∀ q, ¬ base <+: q → x.1 q = fs q

theorem view_set (base : Path) (fs : FS) (p : Path) (n : Node) : view base (fs.set (base ++ p) n) = (view base fs).set p n := by
  funext r
  unfold view FS.set
  by_cases h : r = p
  · rw [if_pos h, if_pos (by rw [h])]
  · rw [if_neg h, if_neg fun he => h (List.append_cancel_left he)]

theorem view_remove (base : Path) (fs : FS) (p : Path) : view base (fs.remove (base ++ p)) = (view base fs).remove p := by
  funext r
  unfold view FS.remove
  simp only [List.prefix_append_right_inj]

theorem view_graft (base : Path) (fs : FS) (p : Path) (t : FS) : view base (fs.graft (base ++ p) t) = (view base fs).graft p t := by
  funext r
  unfold view FS.graft
  simp only [List.prefix_append_right_inj]
  rw [List.length_append, List.drop_length_add_append]

theorem sim_refl (base : Path) (fs : FS) (e : Option FsErr) : Sim base fs (fs, e) (view base fs, e) := ⟨rfl, rfl, fun _ _ => rfl⟩

theorem sim_set (base : Path) (fs : FS) (p : Path) (n : Node) : Sim base fs (fs.set (base ++ p) n, none) ((view base fs).set p n, none) := by
  refine ⟨rfl, view_set base fs p n, fun q hq => if_neg ?_⟩
  rintro rfl
  exact hq (List.prefix_append base p)

theorem sim_remove (base : Path) (fs : FS) (p : Path) : Sim base fs (fs.remove (base ++ p), none) ((view base fs).remove p, none) := by
  refine ⟨rfl, view_remove base fs p, fun q hq => if_neg ?_⟩
  exact fun h => hq ((List.prefix_append base p).trans h)

theorem sim_graft (base : Path) (fs : FS) (p : Path) (t : FS) :
    Sim base fs (fs.graft (base ++ p) t, none) ((view base fs).graft p t, none) := by
  refine ⟨rfl, view_graft base fs p t, fun q hq => if_neg ?_⟩
  exact fun h => hq ((List.prefix_append base p).trans h)

/-- One after the other. -/
theorem sim_trans {base : Path} {fs fs1 : FS} {y1 : FS} {e1 : Option FsErr} {x y : FS × Option FsErr}
    (h1 : Sim base fs (fs1, e1) (y1, e1)) (h2 : view base fs1 = y1 → Sim base fs1 x y) : Sim base fs x y := by
  have h2 := h2 h1.view
  exact ⟨h2.err, h2.view, fun q hq => (h2.out q hq).trans (h1.out q hq)⟩

theorem parent_view (base : Path) (fs : FS) (p : Path) (hp : p ≠ []) : fs (base ++ p).dropLast = view base fs p.dropLast := by
  unfold view
  rw [List.dropLast_append_of_ne_nil hp]

theorem sim_mkdir (base : Path) (fs : FS) (p : Path) (hp : p ≠ []) : Sim base fs (mkdir fs (base ++ p)) (mkdir (view base fs) p) := by
  unfold mkdir
  rw [parent_view base fs p hp]
  show Sim base fs (match view base fs p with
    | some _ => _
    | none => _) _
  cases view base fs p with
  | some n => exact sim_refl ..
  | none =>
    dsimp only
    cases h : view base fs p.dropLast with
    | none => exact sim_refl ..
    | some n =>
      cases n with
      | file s => exact sim_refl ..
      | dir => exact sim_set ..

theorem sim_put (base : Path) (fs : FS) (p : Path) (hp : p ≠ []) (s : String) :
    Sim base fs (put fs (base ++ p) s) (put (view base fs) p s) := by
  unfold put
  rw [parent_view base fs p hp]
  show Sim base fs (match view base fs p with
    | some .dir => _
    | some (.file _) => _
    | none => _) _
  cases view base fs p with
  | some n =>
    cases n with
    | dir => exact sim_refl ..
    | file _ => exact sim_set ..
  | none =>
    dsimp only
    cases h : view base fs p.dropLast with
    | none => exact sim_refl ..
    | some n =>
      cases n with
      | file s => exact sim_refl ..
      | dir => exact sim_set ..

theorem sim_parents (base : Path) (l : List Path) (hl : ∀ p ∈ l, p ≠ []) : ∀ fs : FS,
    Sim base fs (parents base fs l) (parents [] (view base fs) l) := by
  induction l with
  | nil => exact fun fs => sim_refl ..
  | cons p l ih =>
    intro fs
    have ih := ih fun q hq => hl q (List.mem_cons_of_mem _ hq)
    have hm := sim_mkdir base fs p (hl p List.mem_cons_self)
    unfold parents
    rw [List.nil_append]
    show Sim base fs (match view base fs p with
      | some _ => _
      | none => _) _
    cases view base fs p with
    | some n => exact ih fs
    | none =>
      dsimp only
      revert hm
      generalize mkdir fs (base ++ p) = x
      generalize mkdir (view base fs) p = y
      intro hm
      obtain ⟨x1, x2⟩ := x
      obtain ⟨y1, y2⟩ := y
      cases hm.err
      cases x2 with
      | some e => exact hm
      | none =>
        refine sim_trans hm fun hv => ?_
        rw [← hv]
        exact ih x1

theorem parentsOf_ne (p : Path) : ∀ q ∈ parentsOf p, q ≠ [] := by
  intro q hq
  unfold parentsOf at hq
  obtain ⟨k, hk, rfl⟩ := List.mem_map.1 hq
  intro h
  rw [List.take_eq_nil_iff] at h
  have h0 : k < p.length := by
    have := List.mem_of_mem_drop hk
    exact List.mem_range.1 this
  rcases h with h | h
  · subst h
    obtain ⟨i, hi, he⟩ := List.mem_iff_getElem.1 hk
    rw [List.getElem_drop, List.getElem_range] at he
    omega
  · subst h; simp at h0

theorem sim_lastDir (base : Path) (fs : FS) (p : Path) (hp : p ≠ []) (ok : Bool) :
    Sim base fs (lastDir fs (base ++ p) ok) (lastDir (view base fs) p ok) := by
  have hm := sim_mkdir base fs p hp
  unfold lastDir
  revert hm
  generalize mkdir fs (base ++ p) = x
  generalize mkdir (view base fs) p = y
  intro hm
  obtain ⟨x1, x2⟩ := x
  obtain ⟨y1, y2⟩ := y
  cases hm.err
  cases x2 with
  | none => exact hm
  | some e =>
    have : x1 (base ++ p) = y1 p := congrFun hm.view p
    dsimp only
    rw [this]
    split
    · exact ⟨rfl, hm.view, hm.out⟩
    · exact hm

/-- Paths of an operation are not empty. -/
def Proper : FOp → Prop
  | .mkdir p | .makedirs p _ | .rmtree p | .copytree _ p | .extern _ p | .copyfile _ p | .write p _ | .append p _ | .modify p _ => p ≠ []
  | .copy a b | .move a b => a ≠ [] ∧ b ≠ []

theorem sim_exec (base : Path) (fs : FS) (op : FOp) (hop : Proper op) : Sim base fs (exec base fs op) (exec [] (view base fs) op) := by
  cases op with
  | mkdir p => exact sim_mkdir base fs p hop
  | makedirs p ok =>
    have hm := sim_parents base (parentsOf p) (parentsOf_ne p) fs
    show Sim base fs (makedirs base fs p ok) (makedirs [] (view base fs) p ok)
    unfold makedirs
    revert hm
    generalize parents base fs (parentsOf p) = x
    generalize parents [] (view base fs) (parentsOf p) = y
    intro hm
    obtain ⟨x1, x2⟩ := x
    obtain ⟨y1, y2⟩ := y
    cases hm.err
    cases x2 with
    | some e => exact hm
    | none =>
      refine sim_trans hm fun hv => ?_
      rw [← hv]
      exact sim_lastDir base x1 p hop ok
  | rmtree p =>
    show Sim base fs (if view base fs p = some .dir then _ else _) (if view base fs p = some .dir then _ else _)
    split
    · exact sim_remove ..
    · exact sim_refl ..
  | copytree src p =>
    have hm := sim_mkdir base fs p hop
    simp only [exec, List.nil_append]
    split
    · revert hm
      generalize mkdir fs (base ++ p) = x
      generalize mkdir (view base fs) p = y
      intro hm
      obtain ⟨x1, x2⟩ := x
      obtain ⟨y1, y2⟩ := y
      cases hm.err
      cases x2 with
      | some e => exact hm
      | none =>
        refine sim_trans hm fun hv => ?_
        rw [← hv]
        exact sim_graft ..
    · exact sim_refl ..
  | extern src p =>
    cases src with
    | none => exact sim_refl ..
    | some t => exact sim_graft ..
  | copyfile src p =>
    cases src with
    | none => exact sim_refl ..
    | some n =>
      cases n with
      | dir => exact sim_refl ..
      | file s => exact sim_put base fs p hop s
  | write p s => exact sim_put base fs p hop s
  | append p s =>
    have hm := sim_put base fs p hop s
    simp only [exec, List.nil_append]
    show Sim base fs (match view base fs p with
      | some (.file t) => _
      | _ => _) _
    cases view base fs p with
    | none => exact hm
    | some n =>
      cases n with
      | dir => exact hm
      | file t => exact sim_set ..
  | modify p f =>
    simp only [exec, List.nil_append]
    show Sim base fs (match view base fs p with
      | some (.file t) => _
      | some .dir => _
      | none => _) _
    cases view base fs p with
    | none => exact sim_refl ..
    | some n =>
      cases n with
      | dir => exact sim_refl ..
      | file t => exact sim_set ..
  | copy a b =>
    simp only [exec, List.nil_append]
    show Sim base fs (match view base fs a with
      | some (.file t) => _
      | some .dir => _
      | none => _) _
    cases view base fs a with
    | none => exact sim_refl ..
    | some n =>
      cases n with
      | dir => exact sim_refl ..
      | file t => exact sim_put base fs b hop.2 t
  | move a b =>
    simp only [exec, List.nil_append]
    show Sim base fs (match view base fs a with
      | some (.file t) => _
      | some .dir => _
      | none => _) _
    cases view base fs a with
    | none => exact sim_refl ..
    | some n =>
      cases n with
      | dir => exact sim_refl ..
      | file t =>
        have hm := sim_put base fs b hop.2 t
        dsimp only
        revert hm
        generalize put fs (base ++ b) t = x
        generalize put (view base fs) b t = y
        intro hm
        obtain ⟨x1, x2⟩ := x
        obtain ⟨y1, y2⟩ := y
        cases hm.err
        cases x2 with
        | some e => exact hm
        | none =>
          refine sim_trans hm fun hv => ?_
          rw [← hv]
          exact sim_remove ..

theorem sim_execs (base : Path) (ops : List FOp) (hops : ∀ op ∈ ops, Proper op) : ∀ fs : FS,
    Sim base fs (execs base fs ops) (execs [] (view base fs) ops) := by
  induction ops with
  | nil => exact fun fs => sim_refl ..
  | cons op ops ih =>
    intro fs
    have ih := ih fun q hq => hops q (List.mem_cons_of_mem _ hq)
    have hm := sim_exec base fs op (hops op List.mem_cons_self)
    unfold execs
    revert hm
    generalize exec base fs op = x
    generalize exec [] (view base fs) op = y
    intro hm
    obtain ⟨x1, x2⟩ := x
    obtain ⟨y1, y2⟩ := y
    cases hm.err
    cases x2 with
    | some e => exact hm
    | none =>
      refine sim_trans hm fun hv => ?_
      rw [← hv]
      exact ih x1

end Verif.Lemmas.Files
