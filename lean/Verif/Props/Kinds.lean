import Verif.Model.Kinds
import Verif.Lemmas.Retrieve
import Verif.Lemmas.ExplicitB
import Verif.Props.Explicit
/-! C58: numbers and arrays are treated alike in all generated files. -/
namespace Verif.Props
open Verif.Model Verif.Model.Kinds Verif.Spec Verif.Lemmas Verif.Lemmas.Explicit Verif.Model.Explicit

/-- A use that a C compiler accepts for a declaration. -/
inductive Accepts : Decl → Use → Prop where
  | num : Accepts .num .num
  | sub : Accepts .arr .sub
  | addr : Accepts .arr .addr
  | call (n : Nat) : Accepts (.fn n) (.call n)

/-- Every used object is declared, and every declaration of it fits. -/
def Consistent (ds : List (Obj × Decl)) (us : List (Obj × Use)) : Prop :=
  ∀ o u, (o, u) ∈ us → (∃ d, (o, d) ∈ ds) ∧ ∀ d, (o, d) ∈ ds → Accepts d u

theorem accepts_byOne {n : Nat} {u : Use} : Accepts (byOne n) u ↔ (n = 1 ∧ u = .num) ∨ (n ≠ 1 ∧ (u = .sub ∨ u = .addr)) := by
  unfold byOne
  by_cases h : n = 1
  · rw [if_pos h]
    constructor
    · intro hu; cases hu; exact .inl ⟨h, rfl⟩
    · rintro (⟨_, rfl⟩ | ⟨h', _⟩)
      · exact .num
      · exact absurd h h'
  · rw [if_neg h]
    constructor
    · intro hu; cases hu
      · exact .inr ⟨h, .inl rfl⟩
      · exact .inr ⟨h, .inr rfl⟩
    · rintro (⟨h', _⟩ | ⟨_, rfl | rfl⟩)
      · exact absurd h' h
      · exact .sub
      · exact .addr

/-- What the writer is given is in order: distinct names, sizes not zero, number of initial values and of indices that are
one exactly if the size is. -/
structure Orderly (vs : List PVar) (ds : List DVar) (ps : List Param) : Prop where
  vnames : (vs.map PVar.name).Nodup
  dnames : (ds.map DVar.name).Nodup
  pnames : (ps.map Param.name).Nodup
  vpos : ∀ v ∈ vs, v.size ≠ 0
  dpos : ∀ d ∈ ds, d.size ≠ 0
  ppos : ∀ p ∈ ps, p.usp ≠ 0
  vinit : ∀ v ∈ vs, v.init = 1 ↔ v.size = 1
  vidx : ∀ v ∈ vs, v.nIdx = 1 ↔ v.size = 1
  dinit : ∀ d ∈ ds, d.init = 1 ↔ d.size = 1
  didx : ∀ d ∈ ds, d.nIdx = 1 ↔ d.size = 1

section
variable {c : Cfg} {vs : List PVar} {ds : List DVar} {ps : List Param} {n : String} {d : Decl}

theorem mem_prim : (Obj.prim n, d) ∈ decls c vs ds ps ↔ ∃ v ∈ vs, v.name = n ∧ byOne v.size = d := by simp [decls]
theorem mem_dual : (Obj.dual n, d) ∈ decls c vs ds ps ↔ ∃ v ∈ ds, v.name = n ∧ byOne v.size = d := by simp [decls]
theorem mem_delta : (Obj.delta n, d) ∈ decls c vs ds ps ↔ ∃ v ∈ ps, v.name = n ∧ Decl.arr = d := by simp [decls]
theorem mem_own : (Obj.own n, d) ∈ decls c vs ds ps ↔ ∃ v ∈ vs, ownWritten c v = true ∧ v.name = n ∧ Decl.arr = d := by
  simp [decls, and_assoc]
theorem mem_ownDual : (Obj.ownDual n, d) ∈ decls c vs ds ps ↔
    ∃ v ∈ ds, (decide (v.init ≠ 1) && !c.static) = true ∧ v.name = n ∧ Decl.arr = d := by
  simp [decls, and_assoc]
theorem mem_primCpp : (Obj.primCpp n, d) ∈ decls c vs ds ps ↔ ∃ v ∈ vs, v.name = n ∧ byGt v.size = d := by simp [decls]
theorem mem_dualCpp : (Obj.dualCpp n, d) ∈ decls c vs ds ps ↔ ∃ v ∈ ds, v.name = n ∧ byGt v.size = d := by simp [decls]
theorem mem_paramCpp : (Obj.paramCpp n, d) ∈ decls c vs ds ps ↔ ∃ v ∈ ps, v.name = n ∧ byGt v.usp = d := by simp [decls]
theorem mem_vdeltaCpp : (Obj.vdeltaCpp n, d) ∈ decls c vs ds ps ↔ ∃ v ∈ vs, v.name = n ∧ byGt v.size = d := by simp [decls]
theorem mem_pdeltaCpp : (Obj.pdeltaCpp n, d) ∈ decls c vs ds ps ↔ ∃ v ∈ ps, v.name = n ∧ byGt v.usp = d := by simp [decls]
theorem mem_upd : (Obj.upd n, d) ∈ decls c vs ds ps ↔ ∃ v ∈ ps, v.name = n ∧ Decl.fn (arity v.usp) = d := by simp [decls]
theorem mem_updD : (Obj.updD n, d) ∈ decls c vs ds ps ↔ ∃ v ∈ vs, v.name = n ∧ Decl.fn (arity v.size) = d := by simp [decls]
end

theorem accepts_call {j k : Nat} : Accepts (.fn j) (.call k) ↔ j = k :=
  ⟨fun h => by cases h; rfl, fun h => h ▸ .call _⟩

/-- A use fits all declarations of its object, of which there is at least one. -/
def FitsAll (D : List (Obj × Decl)) (e : Obj × Use) : Prop := (∃ d, (e.1, d) ∈ D) ∧ ∀ d, (e.1, d) ∈ D → Accepts d e.2

theorem consistent_iff (D : List (Obj × Decl)) (us : List (Obj × Use)) : Consistent D us ↔ ∀ e ∈ us, FitsAll D e :=
  ⟨fun h e he => h e.1 e.2 he, fun h o u hu => h (o, u) hu⟩

theorem fits_of {α : Type} {D : List (Obj × Decl)} {o : Obj} {u : Use} (l : List α) (name : α → String) (f : α → Decl)
    (hn : (l.map name).Nodup) (a : α) (ha : a ∈ l) (hm : ∀ d, (o, d) ∈ D ↔ ∃ v ∈ l, name v = name a ∧ f v = d)
    (hu : Accepts (f a) u) : FitsAll D (o, u) := by
  refine ⟨⟨f a, (hm _).2 ⟨a, ha, rfl, rfl⟩⟩, fun d hd => ?_⟩
  obtain ⟨v, hv, e1, e2⟩ := (hm d).1 hd
  have : v = a := List.inj_on_of_nodup_map hn hv ha e1
  rw [← e2, this]
  exact hu

section
variable {c : Cfg} {vs : List PVar} {ds : List DVar} {ps : List Param} (h : Orderly vs ds ps)
include h

theorem fits_prim {v : PVar} (hv : v ∈ vs) {u : Use} (hu : Accepts (byOne v.size) u) :
    FitsAll (decls c vs ds ps) (.prim v.name, u) :=
  fits_of vs PVar.name (fun v => byOne v.size) h.vnames v hv (fun _ => mem_prim) hu
theorem fits_dual {v : DVar} (hv : v ∈ ds) {u : Use} (hu : Accepts (byOne v.size) u) :
    FitsAll (decls c vs ds ps) (.dual v.name, u) :=
  fits_of ds DVar.name (fun v => byOne v.size) h.dnames v hv (fun _ => mem_dual) hu
theorem fits_delta {v : Param} (hv : v ∈ ps) : FitsAll (decls c vs ds ps) (.delta v.name, .sub) :=
  fits_of ps Param.name (fun _ => .arr) h.pnames v hv (fun _ => mem_delta) .sub
theorem fits_primCpp {v : PVar} (hv : v ∈ vs) {u : Use} (hu : Accepts (byGt v.size) u) :
    FitsAll (decls c vs ds ps) (.primCpp v.name, u) :=
  fits_of vs PVar.name (fun v => byGt v.size) h.vnames v hv (fun _ => mem_primCpp) hu
theorem fits_vdeltaCpp {v : PVar} (hv : v ∈ vs) {u : Use} (hu : Accepts (byGt v.size) u) :
    FitsAll (decls c vs ds ps) (.vdeltaCpp v.name, u) :=
  fits_of vs PVar.name (fun v => byGt v.size) h.vnames v hv (fun _ => mem_vdeltaCpp) hu
theorem fits_dualCpp {v : DVar} (hv : v ∈ ds) {u : Use} (hu : Accepts (byGt v.size) u) :
    FitsAll (decls c vs ds ps) (.dualCpp v.name, u) :=
  fits_of ds DVar.name (fun v => byGt v.size) h.dnames v hv (fun _ => mem_dualCpp) hu
theorem fits_paramCpp {v : Param} (hv : v ∈ ps) {u : Use} (hu : Accepts (byGt v.usp) u) :
    FitsAll (decls c vs ds ps) (.paramCpp v.name, u) :=
  fits_of ps Param.name (fun v => byGt v.usp) h.pnames v hv (fun _ => mem_paramCpp) hu
theorem fits_pdeltaCpp {v : Param} (hv : v ∈ ps) {u : Use} (hu : Accepts (byGt v.usp) u) :
    FitsAll (decls c vs ds ps) (.pdeltaCpp v.name, u) :=
  fits_of ps Param.name (fun v => byGt v.usp) h.pnames v hv (fun _ => mem_pdeltaCpp) hu
theorem fits_upd {v : Param} (hv : v ∈ ps) {k : Nat} (hu : arity v.usp = k) :
    FitsAll (decls c vs ds ps) (.upd v.name, .call k) :=
  fits_of ps Param.name (fun v => .fn (arity v.usp)) h.pnames v hv (fun _ => mem_upd) (hu ▸ .call _)
theorem fits_updD {v : PVar} (hv : v ∈ vs) {k : Nat} (hu : arity v.size = k) :
    FitsAll (decls c vs ds ps) (.updD v.name, .call k) :=
  fits_of vs PVar.name (fun v => .fn (arity v.size)) h.vnames v hv (fun _ => mem_updD) (hu ▸ .call _)
omit h
theorem acc_one (n : Nat) : Accepts (byOne n) (useOne n) := by
  unfold byOne useOne; split
  · exact .num
  · exact .sub
theorem acc_gt {n : Nat} (hn : n ≠ 0) : Accepts (byGt n) (useOne n) := by
  unfold byGt useOne
  by_cases h1 : n = 1
  · rw [if_pos h1, if_neg (by omega)]; exact .num
  · rw [if_neg h1, if_pos (by omega)]; exact .sub
theorem acc_sub {n : Nat} (hn : n ≠ 1) : Accepts (byOne n) .sub := accepts_byOne.2 (.inr ⟨hn, .inl rfl⟩)
theorem acc_num {n : Nat} (hn : n = 1) : Accepts (byOne n) .num := accepts_byOne.2 (.inl ⟨hn, rfl⟩)
theorem acc_gt_num {n : Nat} (hn : n = 1) : Accepts (byGt n) .num := by subst hn; exact .num
theorem acc_gt_sub {n : Nat} (h0 : n ≠ 0) (h1 : n ≠ 1) : Accepts (byGt n) .sub := by
  unfold byGt; rw [if_pos (by omega)]; exact .sub
include h

theorem ws_consistent : Consistent (decls c vs ds ps) (wsUses c vs ds) := by
  rw [consistent_iff]
  intro e he
  unfold wsUses at he
  rcases List.mem_append.1 he with he | he
  · rcases List.mem_append.1 he with he | he
    · obtain ⟨v, hv, rfl⟩ := List.mem_map.1 he
      apply fits_prim h hv
      rw [accepts_byOne]
      by_cases h1 : v.size = 1
      · exact .inl ⟨h1, if_pos h1⟩
      · exact .inr ⟨h1, .inr (if_neg h1)⟩
    · obtain ⟨v, hv, rfl⟩ := List.mem_map.1 he
      obtain ⟨hv, hu⟩ := List.mem_filter.1 hv
      have hw : ownWritten c v = true := by
        unfold ownUsed at hu; unfold ownWritten
        rw [Bool.and_eq_true, decide_eq_true_eq] at hu ⊢
        exact ⟨fun e => hu.1 ((h.vinit v hv).1 e), hu.2⟩
      exact ⟨⟨_, mem_own.2 ⟨v, hv, hw, rfl, rfl⟩⟩, fun d hd => by
        obtain ⟨w, _, _, _, e⟩ := mem_own.1 hd
        rw [← e]; exact .addr⟩
  · split at he
    · cases he
    · rcases List.mem_append.1 he with he | he
      · obtain ⟨v, hv, rfl⟩ := List.mem_map.1 he
        apply fits_dual h hv
        rw [accepts_byOne]
        by_cases h1 : v.init = 1
        · exact .inl ⟨(h.dinit v hv).1 h1, if_pos h1⟩
        · exact .inr ⟨fun e => h1 ((h.dinit v hv).2 e), .inr (if_neg h1)⟩
      · obtain ⟨v, hv, rfl⟩ := List.mem_map.1 he
        obtain ⟨hv, hu⟩ := List.mem_filter.1 hv
        exact ⟨⟨_, mem_ownDual.2 ⟨v, hv, hu, rfl, rfl⟩⟩, fun d hd => by
          obtain ⟨w, _, _, _, e⟩ := mem_ownDual.1 hd
          rw [← e]; exact .addr⟩

theorem solve_consistent : Consistent (decls c vs ds ps) (solveUses c vs ds) := by
  rw [consistent_iff]
  intro e he
  unfold solveUses at he
  rcases List.mem_append.1 he with he | he
  · split at he
    · obtain ⟨v, hv, he⟩ := List.mem_flatMap.1 he
      by_cases h1 : v.nIdx = 1
      · rw [if_pos h1, List.mem_singleton] at he
        subst he
        exact fits_prim h hv (acc_num ((h.vidx v hv).1 h1))
      · rw [if_neg h1] at he
        split at he
        · have := (List.mem_replicate.1 he).2
          subst this
          exact fits_prim h hv (acc_sub fun e => h1 ((h.vidx v hv).2 e))
        · cases he
    · cases he
  · split at he
    · obtain ⟨v, hv, he⟩ := List.mem_flatMap.1 he
      by_cases h1 : v.nIdx = 1
      · rw [if_pos h1, List.mem_singleton] at he
        subst he
        exact fits_dual h hv (acc_num ((h.didx v hv).1 h1))
      · rw [if_neg h1] at he
        split at he
        · have := (List.mem_replicate.1 he).2
          subst this
          exact fits_dual h hv (acc_sub fun e => h1 ((h.didx v hv).2 e))
        · cases he
    · cases he

theorem module_consistent : Consistent (decls c vs ds ps) (moduleUses c vs ds ps) := by
  rw [consistent_iff]
  intro e he
  unfold moduleUses at he
  rcases List.mem_append.1 he with he | he
  · rcases List.mem_append.1 he with he | he
    · rcases List.mem_append.1 he with he | he
      · obtain ⟨p, hp, he⟩ := List.mem_flatMap.1 he
        simp only [List.mem_cons, List.not_mem_nil, or_false] at he
        rcases he with rfl | rfl
        · exact fits_paramCpp h hp (acc_gt (h.ppos p hp))
        · exact fits_upd h hp rfl
      · obtain ⟨v, hv, he⟩ := List.mem_flatMap.1 he
        have h0 := h.vpos v hv
        by_cases h1 : v.size = 1
        · rw [if_pos h1] at he
          simp only [List.mem_cons, List.not_mem_nil, or_false] at he
          rcases he with rfl | rfl
          · exact fits_primCpp h hv (acc_gt_num h1)
          · exact fits_prim h hv (acc_num h1)
        · rw [if_neg h1] at he
          have key : e = (Obj.primCpp v.name, Use.sub) ∨ e = (.prim v.name, .sub) := by
            split at he
            · simpa using he
            · obtain ⟨l, hl, he⟩ := List.mem_flatten.1 he
              rw [(List.mem_replicate.1 hl).2] at he
              simpa using he
          rcases key with rfl | rfl
          · exact fits_primCpp h hv (acc_gt_sub h0 h1)
          · exact fits_prim h hv (acc_sub h1)
    · split at he
      · cases he
      · obtain ⟨d, hd, he⟩ := List.mem_flatMap.1 he
        simp only [List.mem_cons, List.not_mem_nil, or_false] at he
        rcases he with rfl | rfl
        · exact fits_dualCpp h hd (acc_gt (h.dpos d hd))
        · exact fits_dual h hd (acc_one _)
  · split at he
    · rcases List.mem_append.1 he with he | he
      · obtain ⟨v, hv, he⟩ := List.mem_flatMap.1 he
        have h0 := h.vpos v hv
        by_cases h1 : v.size = 1
        · rw [if_pos h1] at he
          simp only [List.mem_cons, List.not_mem_nil, or_false] at he
          rcases he with rfl | rfl
          · exact fits_updD h hv (if_pos h1)
          · exact fits_vdeltaCpp h hv (acc_gt_num h1)
        · rw [if_neg h1] at he
          have key : e = (Obj.updD v.name, Use.call 2) ∨ e = (.vdeltaCpp v.name, .sub) := by
            split at he
            · simpa using he
            · obtain ⟨l, hl, he⟩ := List.mem_flatten.1 he
              rw [(List.mem_replicate.1 hl).2] at he
              simpa using he
          rcases key with rfl | rfl
          · exact fits_updD h hv (if_neg h1)
          · exact fits_vdeltaCpp h hv (acc_gt_sub h0 h1)
      · obtain ⟨p, hp, he⟩ := List.mem_flatMap.1 he
        simp only [List.mem_cons, List.not_mem_nil, or_false] at he
        rcases he with rfl | rfl
        · exact fits_pdeltaCpp h hp (acc_gt (h.ppos p hp))
        · exact fits_delta h hp
    · cases he

/-- The example program, exactly: it is consistent if and only if the update functions of parameters get the right number of
arguments, and no derivatives are asked for with a variable that is a number. -/
theorem example_consistent_iff : Consistent (decls c vs ds ps) (exampleUses c vs ds ps) ↔
    (∀ p ∈ ps, p.full = 1 ↔ p.usp = 1) ∧ (c.gradient = true → ∀ v ∈ vs, v.size ≠ 1) := by
  rw [consistent_iff]
  constructor
  · intro hc
    refine ⟨fun p hp => ?_, fun hg v hv h1 => ?_⟩
    · have hm : (Obj.upd p.name, Use.call (arity p.full)) ∈ exampleUses c vs ds ps := by
        unfold exampleUses
        exact List.mem_append_left _ (List.mem_append_left _ (List.mem_append_left _ (List.mem_map.2 ⟨p, hp, rfl⟩)))
      have := (hc _ hm).2 _ (mem_upd.2 ⟨p, hp, rfl, rfl⟩)
      have ha : arity p.usp = arity p.full := accepts_call.1 this
      unfold arity at ha
      split at ha <;> split at ha <;> omega
    · have hm : (Obj.prim v.name, Use.sub) ∈ exampleUses c vs ds ps := by
        unfold exampleUses
        apply List.mem_append_right
        rw [if_pos hg]
        exact List.mem_append_left _ (List.mem_flatMap.2 ⟨v, hv, by simp⟩)
      have := (hc _ hm).2 _ (mem_prim.2 ⟨v, hv, rfl, rfl⟩)
      unfold byOne at this
      rw [if_pos h1] at this
      cases this
  · rintro ⟨h1, h2⟩ e he
    unfold exampleUses at he
    rcases List.mem_append.1 he with he | he
    · rcases List.mem_append.1 he with he | he
      · rcases List.mem_append.1 he with he | he
        · obtain ⟨p, hp, rfl⟩ := List.mem_map.1 he
          apply fits_upd h hp
          unfold arity
          by_cases hu : p.usp = 1
          · rw [if_pos hu, if_pos ((h1 p hp).2 hu)]
          · rw [if_neg hu, if_neg fun e => hu ((h1 p hp).1 e)]
        · obtain ⟨v, hv, rfl⟩ := List.mem_map.1 he
          exact fits_prim h hv (acc_one _)
      · split at he
        · cases he
        · obtain ⟨v, hv, rfl⟩ := List.mem_map.1 he
          exact fits_dual h hv (acc_one _)
    · split at he
      · rename_i hg
        rcases List.mem_append.1 he with he | he
        · obtain ⟨v, hv, he⟩ := List.mem_flatMap.1 he
          simp only [List.mem_cons, List.not_mem_nil, or_false] at he
          rcases he with rfl | rfl
          · exact fits_updD h hv rfl
          · exact fits_prim h hv (acc_sub (h2 hg v hv))
        · obtain ⟨p, hp, rfl⟩ := List.mem_map.1 he
          exact fits_delta h hp
      · cases he
end

theorem initSize_one (s : List Nat) : initSize s = 1 ↔ s.prod = 1 := by
  cases s <;> simp [initSize]

theorem triCols_length (n : Nat) : (triCols n).length = n * n := by rw [triCols_eq]; simp

/-- What the canonicalizer says about a variable is in order. -/
theorem pvar_spec {v : UVar} (hs : SymOK v) {w : PVar} (h : pvar v = .ok w) :
    w.name = v.name ∧ w.size = v.size ∧ (w.init = 1 ↔ w.size = 1) ∧ w.nIdx = w.size := by
  unfold pvar at h
  split at h
  · cases h
  · rename_i ind hi
    cases h
    refine ⟨rfl, rfl, initSize_one _, ?_⟩
    unfold UVar.indices at hi
    unfold UVar.size at *
    dsimp only
    by_cases hy : v.sym = true
    · obtain ⟨n, hn⟩ := hs hy
      rw [if_pos hy, hn] at hi
      cases hi
      rw [List.length_map, triCols_length, hn]
      simp
    · rw [if_neg hy] at hi
      cases hi
      simp

/-- The objects of a problem: variables by `pvar`, constraints by `dvar`. -/
structure Problem where
  vars : List UVar
  cons : List (String × Nat)
  params : List Param

structure Problem.WF (p : Problem) : Prop where
  vnames : (p.vars.map UVar.name).Nodup
  cnames : (p.cons.map Prod.fst).Nodup
  pnames : (p.params.map Param.name).Nodup
  vpos : ∀ v ∈ p.vars, v.size ≠ 0
  cpos : ∀ d ∈ p.cons, d.2 ≠ 0
  ppos : ∀ q ∈ p.params, q.usp ≠ 0
  sym : ∀ v ∈ p.vars, SymOK v

def Problem.duals (p : Problem) : List DVar := p.cons.map fun d => dvar d.1 d.2

theorem mapM_except {α β ε : Type} (f : α → Except ε β) : ∀ {l : List α} {r : List β}, l.mapM f = .ok r →
    List.Forall₂ (fun a b => f a = .ok b) l r
  | [], r, h => by rw [List.mapM_nil] at h; cases h; exact .nil
  | a :: l, r, h => by
    rw [List.mapM_cons] at h
    cases ha : f a with
    | error e => rw [ha] at h; cases h
    | ok b =>
      rw [ha] at h
      cases hl : l.mapM f with
      | error e => rw [hl] at h; cases h
      | ok r' =>
        rw [hl] at h
        cases h
        exact .cons ha (mapM_except f hl)

theorem forall2_mem {α β : Type} {R : α → β → Prop} : ∀ {l : List α} {r : List β}, List.Forall₂ R l r →
    ∀ b ∈ r, ∃ a ∈ l, R a b
  | _, _, .nil, b, hb => by cases hb
  | _, _, .cons h1 h2, b, hb => by
    rcases List.mem_cons.1 hb with rfl | hb
    · exact ⟨_, List.mem_cons_self .., h1⟩
    · obtain ⟨a, ha, h⟩ := forall2_mem h2 b hb
      exact ⟨a, List.mem_cons_of_mem _ ha, h⟩

theorem orderly_of {p : Problem} (h : p.WF) {vs : List PVar} (hv : p.vars.mapM pvar = .ok vs) :
    Orderly vs p.duals p.params := by
  have hf := mapM_except pvar hv
  have hm := forall2_mem hf
  refine ⟨?_, ?_, h.pnames, ?_, ?_, h.ppos, ?_, ?_, ?_, ?_⟩
  · have : ∀ {l : List UVar} {r : List PVar}, (∀ v ∈ l, SymOK v) → List.Forall₂ (fun a b => pvar a = .ok b) l r →
        r.map PVar.name = l.map UVar.name := by
      intro l r hs hf
      induction hf with
      | nil => rfl
      | cons h1 _ ih =>
        rw [List.map_cons, List.map_cons, (pvar_spec (hs _ (List.mem_cons_self ..)) h1).1,
          ih fun v hv => hs v (List.mem_cons_of_mem _ hv)]
    rw [this h.sym hf]
    exact h.vnames
  · unfold Problem.duals
    rw [List.map_map]
    exact h.cnames
  · intro w hw
    obtain ⟨v, hv, e⟩ := hm w hw
    rw [(pvar_spec (h.sym v hv) e).2.1]
    exact h.vpos v hv
  · intro d hd
    obtain ⟨e, he, rfl⟩ := List.mem_map.1 hd
    exact h.cpos e he
  · intro w hw
    obtain ⟨v, hv, e⟩ := hm w hw
    exact (pvar_spec (h.sym v hv) e).2.2.1
  · intro w hw
    obtain ⟨v, hv, e⟩ := hm w hw
    rw [(pvar_spec (h.sym v hv) e).2.2.2]
  · intro d hd
    obtain ⟨e, he, rfl⟩ := List.mem_map.1 hd
    unfold dvar
    dsimp only
    by_cases h1 : e.2 = 1 <;> simp [h1]
  · intro d hd
    obtain ⟨e, he, rfl⟩ := List.mem_map.1 hd
    exact Iff.rfl

/-- The full claim of C58: for all problems with different names and objects that are not empty, in all configurations, the
generated files agree on what is a number and what is an array. -/
def C58Claim : Prop :=
  ∀ (c : Cfg) (p : Problem), p.WF → ∀ vs, p.vars.mapM pvar = .ok vs →
    Consistent (decls c vs p.duals p.params)
      (wsUses c vs p.duals ++ solveUses c vs p.duals ++ moduleUses c vs p.duals p.params ++ exampleUses c vs p.duals p.params)

theorem consistent_append {D : List (Obj × Decl)} {a b : List (Obj × Use)} :
    Consistent D (a ++ b) ↔ Consistent D a ∧ Consistent D b := by
  simp only [consistent_iff, List.mem_append]
  exact ⟨fun h => ⟨fun e he => h e (.inl he), fun e he => h e (.inr he)⟩, fun h e he => he.elim (h.1 e) (h.2 e)⟩

/-- C58 for the library and the Python module, in all configurations (all variables stored). -/
theorem C58_partial (c : Cfg) (p : Problem) (h : p.WF) (vs : List PVar) (hv : p.vars.mapM pvar = .ok vs) :
    Consistent (decls c vs p.duals p.params)
      (wsUses c vs p.duals ++ solveUses c vs p.duals ++ moduleUses c vs p.duals p.params) := by
  have ho := orderly_of h hv
  rw [consistent_append, consistent_append]
  exact ⟨⟨ws_consistent ho, solve_consistent ho⟩, module_consistent ho⟩

/-- C58 for the example program, exactly: every parameter is a number in the generated code if and only if its value is, and
no derivatives with respect to a problem with a variable that is a number. -/
theorem C58_example_partial (c : Cfg) (p : Problem) (h : p.WF) (vs : List PVar) (hv : p.vars.mapM pvar = .ok vs) :
    Consistent (decls c vs p.duals p.params) (exampleUses c vs p.duals p.params) ↔
      (∀ q ∈ p.params, q.full = 1 ↔ q.usp = 1) ∧ (c.gradient = true → ∀ v ∈ p.vars, v.size ≠ 1) := by
  rw [example_consistent_iff (orderly_of h hv)]
  have hf := mapM_except pvar hv
  refine and_congr_right fun _ => imp_congr_right fun _ => ?_
  have : ∀ {l : List UVar} {r : List PVar}, (∀ v ∈ l, SymOK v) → List.Forall₂ (fun a b => pvar a = .ok b) l r →
      ((∀ v ∈ r, v.size ≠ 1) ↔ ∀ v ∈ l, v.size ≠ 1) := by
    intro l r hs hf
    induction hf with
    | nil => simp
    | cons h1 _ ih =>
      rw [List.forall_mem_cons, List.forall_mem_cons, (pvar_spec (hs _ (List.mem_cons_self ..)) h1).2.1,
        ih fun v hv => hs v (List.mem_cons_of_mem _ hv)]
  exact this h.sym hf

def exProblem : Problem := ⟨[⟨"t", [], false, 0⟩, ⟨"x", [3], false, 1⟩], [("d0", 1), ("d1", 4)], [⟨"p", 2, 2⟩]⟩

theorem exProblem_wf : exProblem.WF := by
  refine ⟨by decide, by decide, by decide, by decide, by decide, by decide, ?_⟩
  intro v hv hs
  simp only [exProblem, List.mem_cons, List.not_mem_nil, or_false] at hv
  rcases hv with rfl | rfl <;> cases hs

theorem exProblem_vars : exProblem.vars.mapM pvar =
    .ok [⟨"t", 1, 1, 1, 1, false⟩, ⟨"x", 3, 3, 3, 3, false⟩] := by rfl

/-- A problem with a number among its variables: the library is fine, and so is the example program without derivatives; with
them, the example program subscripts a number. -/
theorem C58_fails_example_gradient (c : Cfg) (hg : c.gradient = true) (vs : List PVar)
    (hv : exProblem.vars.mapM pvar = .ok vs) :
    ¬ Consistent (decls c vs exProblem.duals exProblem.params) (exampleUses c vs exProblem.duals exProblem.params) := by
  rw [C58_example_partial c exProblem exProblem_wf vs hv]
  rintro ⟨_, h⟩
  exact absurd (h hg ⟨"t", [], false, 0⟩ (by simp [exProblem])) (by decide)

example (c : Cfg) (hg : c.gradient = false) :
    Consistent (decls c [⟨"t", 1, 1, 1, 1, false⟩, ⟨"x", 3, 3, 3, 3, false⟩] exProblem.duals exProblem.params)
      (exampleUses c [⟨"t", 1, 1, 1, 1, false⟩, ⟨"x", 3, 3, 3, 3, false⟩] exProblem.duals exProblem.params) := by
  rw [C58_example_partial c exProblem exProblem_wf _ exProblem_vars]
  exact ⟨by decide, fun h => absurd (hg.symm.trans h) (by decide)⟩

/-- A sparse parameter with a single entry is a number in the library, but the example program calls its update function with
an index: in every problem with such a parameter (size of its value other than one) and in every configuration. -/
theorem C58_fails_sparse (c : Cfg) (p : Problem) (h : p.WF) (vs : List PVar) (hv : p.vars.mapM pvar = .ok vs)
    (q : Param) (hq : q ∈ p.params) (h1 : q.usp = 1) (h2 : q.full ≠ 1) :
    ¬ Consistent (decls c vs p.duals p.params) (exampleUses c vs p.duals p.params) := by
  rw [C58_example_partial c p h vs hv]
  exact fun hc => h2 ((hc.1 q hq).2 h1)

/-- The full claim fails. -/
theorem C58_fails : ¬ C58Claim := fun h => by
  have := (consistent_append.1 (h ⟨0, true, false, false⟩ exProblem exProblem_wf _ exProblem_vars)).2
  exact C58_fails_example_gradient _ rfl _ exProblem_vars this

/-! ### explicit mode: some of the entries stored -/

theorem reqInds_one {size : String → Nat} {r : String × List Nat} (g : GoodReq size r) :
    (reqInds size r).length = 1 ↔ size r.1 = 1 := by
  unfold reqInds
  by_cases h : r.2 = []
  · rw [if_pos h]; simp
  · rw [if_neg h]
    refine ⟨g.single, fun hs => ?_⟩
    have hall : ∀ a ∈ r.2, a = 0 := fun a ha => by have := g.range a ha; omega
    have hn := g.nodup
    rcases hl : r.2 with _ | ⟨a, _ | ⟨b, t⟩⟩
    · exact absurd hl h
    · rfl
    · have h1 := hall a (by simp [hl])
      have h2 := hall b (by simp [hl])
      rw [hl] at hn
      simp [h1, h2] at hn

theorem mapM_option {α β : Type} (f : α → Option β) : ∀ {l : List α} {r : List β}, l.mapM f = some r →
    List.Forall₂ (fun a b => f a = some b) l r
  | [], r, h => by rw [List.mapM_nil] at h; cases h; exact .nil
  | a :: l, r, h => by
    rw [List.mapM_cons] at h
    cases ha : f a with
    | none => rw [ha] at h; cases h
    | some b =>
      rw [ha] at h
      cases hl : l.mapM f with
      | none => rw [hl] at h; cases h
      | some r' =>
        rw [hl] at h
        cases h
        exact .cons ha (mapM_option f hl)

/-- C58 for explicit mode with some of the variables or some of their entries stored, for the library and the Python module:
indices in range and different, and not a single one of several entries. `us` are the stored variables. -/
theorem C58_explicit_partial (c : Cfg) (us : List UVar) (o : String → Nat) (offs : List (String × Nat))
    (reqs : List (String × List Nat)) (ds : List (String × Nat)) (ps : List Param)
    (size : String → Nat) (hsize : ∀ v ∈ us, size v.name = v.size)
    (hr : (reqs.map (·.1)).Nodup) (ho : ∀ r ∈ reqs, offs.lookup r.1 = some (o r.1))
    (hg : ∀ r ∈ reqs, GoodReq size r) (hw : (⟨us, ds, ps⟩ : Problem).WF)
    (hus : ∀ v ∈ us, v.name ∈ reqs.map (·.1)) :
    ∃ vs, us.mapM (pvarStored (storeVars size offs reqs).2.info) = some vs ∧
    Consistent (decls c vs (⟨us, ds, ps⟩ : Problem).duals ps)
      (wsUses c vs (⟨us, ds, ps⟩ : Problem).duals ++ solveUses c vs (⟨us, ds, ps⟩ : Problem).duals ++
        moduleUses c vs (⟨us, ds, ps⟩ : Problem).duals ps) := by
  obtain ⟨offs', s', e1, _, _, e4⟩ := storeVars_spec size o reqs offs ⟨0, [], []⟩ hr ho rfl
  have es : (storeVars size offs reqs).2 = s' := by unfold storeVars; rw [e1]
  rw [es]
  have hone : ∀ v ∈ us, ∃ w, pvarStored s'.info v = some w ∧ w.name = v.name ∧ w.size = v.size ∧
      (w.init = 1 ↔ w.size = 1) ∧ (w.nIdx = 1 ↔ w.size = 1) := by
    intro v hv
    obtain ⟨r, hrm, hrn⟩ := List.mem_map.1 (hus v hv)
    obtain ⟨base, f1, -⟩ := e4 r hrm
    rw [hrn] at f1
    refine ⟨_, by unfold pvarStored; rw [f1]; rfl, rfl, rfl, initSize_one _, ?_⟩
    dsimp only
    have hj := reqInds_one (hg r hrm)
    rw [hrn, hsize v hv] at hj
    by_cases h1 : (reqInds size r).length = 1
    · rw [if_pos h1]; simpa using hj.1 h1
    · rw [if_neg h1]
      unfold placeInds
      rw [List.length_map, List.length_range, hsize v hv]
  have : Nonempty PVar := ⟨⟨"", 0, 0, 0, 0, false⟩⟩
  choose! f hf using hone
  refine ⟨us.map f, mapM_some _ _ _ fun v hv => (hf v hv).1, ?_⟩
  have ord : Orderly (us.map f) (⟨us, ds, ps⟩ : Problem).duals ps := by
    have hmem : ∀ {P : PVar → Prop}, (∀ v ∈ us, P (f v)) → ∀ w ∈ us.map f, P w := by
      intro P h w hw
      obtain ⟨v, hv, rfl⟩ := List.mem_map.1 hw
      exact h v hv
    refine ⟨?_, ?_, hw.pnames, hmem fun v hv => ?_, ?_, hw.ppos, hmem fun v hv => (hf v hv).2.2.2.1,
      hmem fun v hv => (hf v hv).2.2.2.2, ?_, ?_⟩
    · rw [List.map_map, List.map_congr_left (f := PVar.name ∘ f) (g := UVar.name) fun v hv => (hf v hv).2.1]
      exact hw.vnames
    · unfold Problem.duals
      rw [List.map_map]
      exact hw.cnames
    · rw [(hf v hv).2.2.1]
      exact hw.vpos v hv
    · intro d hd
      obtain ⟨e, he, rfl⟩ := List.mem_map.1 hd
      exact hw.cpos e he
    · intro d hd
      obtain ⟨e, he, rfl⟩ := List.mem_map.1 hd
      unfold dvar
      dsimp only
      by_cases h1 : e.2 = 1 <;> simp [h1]
    · intro d hd
      obtain ⟨e, he, rfl⟩ := List.mem_map.1 hd
      exact Iff.rfl
  rw [consistent_append, consistent_append]
  exact ⟨⟨ws_consistent ord, solve_consistent ord⟩, module_consistent ord⟩

/-- A single stored entry of a larger variable: `cpg_retrieve_prim`, if there is one, assigns a number to the pointer. -/
theorem C58_fails_single (c : Cfg) (vs : List PVar) (ds : List DVar) (ps : List Param) (v : PVar) (hv : v ∈ vs)
    (h1 : v.nIdx = 1) (h2 : v.size ≠ 1) (hr : retPrim c vs = true) :
    ¬ Consistent (decls c vs ds ps) (solveUses c vs ds) := by
  intro hc
  have hm : (Obj.prim v.name, Use.num) ∈ solveUses c vs ds := by
    unfold solveUses
    apply List.mem_append_left
    rw [if_pos hr]
    exact List.mem_flatMap.2 ⟨v, hv, by rw [if_pos h1]; exact List.mem_singleton.2 rfl⟩
  have := (hc _ _ hm).2 _ (mem_prim.2 ⟨v, hv, rfl, rfl⟩)
  rcases accepts_byOne.1 this with h | h
  · exact h2 h.1
  · rcases h.2 with h | h <;> cases h

def exSize : String → Nat := fun n => if n = "t" then 1 else 3

/-- Entry 1 of `x` and the number `t` are stored: the case of `C58_fails_single`. -/
example : ∃ vs, exProblem.vars.mapM (pvarStored (storeVars exSize [("t", 0), ("x", 1)] [("x", [1]), ("t", [])]).2.info) =
    some vs ∧ ∃ v ∈ vs, v.nIdx = 1 ∧ v.size ≠ 1 ∧ retPrim ⟨1, false, true, false⟩ vs = true :=
  ⟨[⟨"t", 1, 1, 1, 1, false⟩, ⟨"x", 3, 3, 1, 1, false⟩], by decide, ⟨"x", 3, 3, 1, 1, false⟩, by decide⟩

/-- Entries 2 and 0 of `x` and the number `t`: the hypotheses of `C58_explicit_partial` are met. -/
example : ([("x", [2, 0]), ("t", [])].map (·.1)).Nodup ∧ ∀ r ∈ [("x", [2, 0]), ("t", ([] : List Nat))], GoodReq exSize r :=
  ⟨by decide, fun r hr => by
    simp only [List.mem_cons, List.not_mem_nil, or_false] at hr
    rcases hr with rfl | rfl <;> exact ⟨by decide, by decide, by decide⟩⟩

end Verif.Props
