import Verif.Spec.Options
import Verif.Props.Dispatch
/-!
C93: which entries of `solver_opts` have an effect.
-/
namespace Verif.Props
open Verif.Model.Text Verif.Model.Dispatch
open Verif.Model.Options (Val Opts Arg Explicit Job Pdaqp Failure explicitOf quadObj quadratic supportsQuad)
open Verif.Spec.Dispatch (documented)
open Verif.Spec.Options (Documented Says Agree CvxReads)

variable {D : Type}

theorem opt_get (o : Arg) (key : String) (v : Val) : o.get key v = ((o.getD []).lookup key).getD v := by
  cases o with
  | none => rfl
  | some l =>
    show (if l = [] then v else _) = _
    split
    · rename_i h; rw [h]; rfl
    · rfl

theorem truthy_bool (b : Bool) : (Val.bool b).truthy = b := by cases b <;> simp [Val.bool, Val.truthy]

/-- **C93** (explicit mode) A call with `solver='explicit'` hands to PDAQP what the documentation promises, whatever other entries the dict has;
an empty dict and `None` are the same. -/
theorem C93_explicit (cvx : Iface → Arg → D) (P : Pdaqp) (term gradient windows : Bool) (s : Txt) (hs : lower s = "explicit".toList)
    (o : Arg) (d : Documented) (h : Says (o.getD []) d) :
    Verif.Model.Options.generate cvx P term (some s) gradient windows o =
      if P.solved d.effect.regions d.effect.dual = false then .error .notSolved
      else if P.printed d.effect.floats d.effect.dual d.effect.store = false then .error .increaseMaxReals
      else .ok ⟨none, cvx .pdaqp o, true, if d.effect.dual then 2 else 1, some d.effect⟩ := by
  have hd : Verif.Model.Options.dual o = d.effect.dual := by
    unfold Verif.Model.Options.dual Documented.effect
    rw [opt_get, h.dual]
    cases d.dual <;> simp [truthy_bool]
  have he : explicitOf (if d.effect.dual then 2 else 1) o = d.effect := by
    unfold explicitOf Verif.Model.Options.store
    rw [opt_get, opt_get, opt_get, opt_get, opt_get, h.regions, h.floats, h.fp16, h.other, h.stored]
    unfold Documented.effect
    congr 1
    · cases d.regions <;> rfl
    · cases d.floats <;> rfl
    · cases d.dual with
      | none => rfl
      | some b => cases b <;> rfl
    · cases d.fp16 with
      | none => simp [truthy_bool]
      | some b => simp [truthy_bool]
  have hsel : select ⟨some s, d.effect.dual, gradient, windows⟩ = .ok (.pdaqp, if d.effect.dual then 2 else 1, false) := by
    rw [C46_partial s _ gradient windows (by rw [hs]; intro _ h; exact absurd h (by decide))]
    unfold documented
    rw [if_pos hs]
  unfold Verif.Model.Options.generate
  rw [hd, hsel]
  simp only [if_true, he, Bool.false_eq_true, if_false]
  rfl

/-- **C93** (no other entry has an effect) Dicts with the same entries for the documented keys, `FP16` and `use_quad_obj` give the same job. -/
theorem C93_ignored (cvx : Iface → Arg → D) (hcvx : CvxReads cvx) (P : Pdaqp) (term gradient windows : Bool) (s : Option Txt) (o o' : Arg)
    (h : Agree ["dual", "fp16", "FP16", "max_floats", "max_regions", "stored_vars", "use_quad_obj"] o o') :
    Verif.Model.Options.generate cvx P term s gradient windows o = Verif.Model.Options.generate cvx P term s gradient windows o' := by
  have hg : ∀ k ∈ ["dual", "fp16", "FP16", "max_floats", "max_regions", "stored_vars", "use_quad_obj"], ∀ v,
      o.get k v = o'.get k v := by
    intro k hk v
    rw [opt_get, opt_get, h k hk]
  have hd : Verif.Model.Options.dual o = Verif.Model.Options.dual o' := by
    unfold Verif.Model.Options.dual; rw [hg _ (by simp)]
  have hq : ∀ i, quadObj i term o = quadObj i term o' := by
    intro i; unfold quadObj; rw [hg "use_quad_obj" (by simp)]
  have he : ∀ n, explicitOf n o = explicitOf n o' := by
    intro n
    unfold explicitOf Verif.Model.Options.store
    rw [hg "max_regions" (by simp), hg "max_floats" (by simp), hg "fp16" (by simp), hg "FP16" (by simp), hg "stored_vars" (by simp)]
  have hc : ∀ i, cvx i o = cvx i o' := fun i => hcvx i o o' (by
    intro k hk
    rw [List.mem_singleton] at hk
    subst hk
    exact h _ (by simp))
  unfold Verif.Model.Options.generate
  rw [hd]
  split
  · rfl
  · simp only [he, hq, hc]

/-- **C93 fails** for iterative solvers: no option but `use_quad_obj` has an effect, for example no tolerance of the solver, although
`solver_opts` are documented as options passed to the solver. -/
theorem C93_iterative (cvx : Iface → Arg → D) (hcvx : CvxReads cvx) (P : Pdaqp) (term gradient windows : Bool) (s : Txt)
    (hs : lower s ≠ "explicit".toList) (hp : upper s ≠ "PDAQP".toList) (o o' : Arg) (h : Agree ["use_quad_obj"] o o') :
    Verif.Model.Options.generate cvx P term (some s) gradient windows o =
      Verif.Model.Options.generate cvx P term (some s) gradient windows o' := by
  have hr : ∀ b, resolve ⟨some s, b, gradient, windows⟩ = (some s, 0) := by
    intro b; exact if_neg hs
  have hsel : ∀ b, select ⟨some s, b, gradient, windows⟩ = select ⟨some s, false, gradient, windows⟩ := by
    intro b; unfold select; rw [hr, hr]; rfl
  have hni : ∀ i n t, select ⟨some s, false, gradient, windows⟩ = .ok (i, n, t) → i ≠ .pdaqp := by
    intro i n t he hi
    unfold select at he
    rw [hr] at he
    subst hi
    cases hj : interfaceClass windows (some s) with
    | error e => simp only [hj] at he; cases he
    | ok j =>
      simp only [hj, Except.ok.injEq, Prod.mk.injEq] at he
      unfold interfaceClass at hj
      simp only at hj
      split at hj
      · cases hj
      · cases hk : table.lookup (upper s) with
        | none => rw [hk] at hj; cases hj
        | some k =>
          rw [hk] at hj
          simp only [Except.ok.injEq] at hj
          rw [hj, he.1] at hk
          have : (upper s, Iface.pdaqp) ∈ table := by
            clear * - hk
            revert hk
            generalize table = l
            intro hk
            induction l with
            | nil => cases hk
            | cons x l ih =>
              obtain ⟨x1, x2⟩ := x
              rw [List.lookup_cons] at hk
              split at hk
              · rename_i he
                rw [Option.some.injEq] at hk
                rw [eq_of_beq he, hk]; exact List.mem_cons_self ..
              · exact List.mem_cons_of_mem _ (ih hk)
          simp only [table, List.mem_cons, Prod.mk.injEq, reduceCtorEq, and_false, and_true, List.not_mem_nil, or_false, false_or] at this
          exact hp this
  have hq : ∀ i, quadObj i term o = quadObj i term o' := by
    intro i; unfold quadObj; rw [opt_get, opt_get, h "use_quad_obj" (by simp)]
  unfold Verif.Model.Options.generate
  rw [hsel (Verif.Model.Options.dual o), hsel (Verif.Model.Options.dual o')]
  split
  · rfl
  · rename_i i n t he
    rw [if_neg (hni i n t he), if_neg (hni i n t he), hq, hcvx i o o' h]

/-- **C93 fails**: the exception raised when the solution is too large advises to increase `max_reals`, which has no effect, whatever its value;
the option that has is `max_floats`. -/
theorem C93_fails_advice (cvx : Iface → Arg → D) (hcvx : CvxReads cvx) (P : Pdaqp) (term gradient windows : Bool) (s : Option Txt)
    (l : Opts) (v : Val)
    (h : Verif.Model.Options.generate cvx P term s gradient windows (some l) = .error .increaseMaxReals) :
    Verif.Model.Options.generate cvx P term s gradient windows (some (("max_reals", v) :: l)) = .error .increaseMaxReals := by
  rw [← h]
  refine C93_ignored cvx hcvx P term gradient windows s _ _ ?_
  intro k hk
  show List.lookup k (("max_reals", v) :: l) = List.lookup k l
  rw [List.lookup_cons]
  have : (k == "max_reals") = false := by
    simp only [List.mem_cons, List.not_mem_nil, or_false] at hk
    rcases hk with rfl | rfl | rfl | rfl | rfl | rfl | rfl <;> decide
  rw [this]

/-- Whereas `max_floats` is what PDAQP's limit is set to. -/
theorem C93_advice_floats (cvx : Iface → Arg → D) (P : Pdaqp) (term gradient windows : Bool) (s : Option Txt) (l : Opts) (v : Val)
    (h : Verif.Model.Options.generate cvx P term s gradient windows (some l) = .error .increaseMaxReals)
    (hv : ∀ b st, P.printed v b st = true) :
    ∃ j, Verif.Model.Options.generate cvx P term s gradient windows (some (("max_floats", v) :: l)) = .ok j := by
  have hg : ∀ k : String, k ≠ "max_floats" → ∀ w, Arg.get (some (("max_floats", v) :: l)) k w = Arg.get (some l) k w := by
    intro k hk w
    rw [opt_get, opt_get]
    show (List.lookup k (("max_floats", v) :: l)).getD w = (List.lookup k l).getD w
    rw [List.lookup_cons]
    have : (k == "max_floats") = false := by simpa using hk
    rw [this]
  have hd : Verif.Model.Options.dual (some (("max_floats", v) :: l)) = Verif.Model.Options.dual (some l) := by
    unfold Verif.Model.Options.dual; rw [hg _ (by decide)]
  unfold Verif.Model.Options.generate at h ⊢
  rw [hd]
  split at h
  · cases h
  · rename_i i n t _
    split at h
    · rename_i hi
      simp only at h
      split at h
      · cases h
      · rename_i hsol
        have hf : (explicitOf n (some (("max_floats", v) :: l))).floats = v := by
          show Verif.Model.Options.Arg.get (some (("max_floats", v) :: l)) "max_floats" (.num 1000000) = v
          rw [opt_get]; rfl
        have hreg : (explicitOf n (some (("max_floats", v) :: l))).regions = (explicitOf n (some l)).regions := hg _ (by decide) _
        simp only [if_pos hi, hf, hv, hreg]
        have hdd : (explicitOf n (some (("max_floats", v) :: l))).dual = (explicitOf n (some l)).dual := rfl
        rw [hdd, if_neg hsol]
        exact ⟨_, rfl⟩
    · cases h

/-- **C93 fails**: with the solver's name `PDAQP` instead of `explicit`, the dual solution is never stored, also if it is asked for. -/
theorem C93_fails_dual (cvx : Iface → Arg → D) (P : Pdaqp) (term windows gradient : Bool) (o : Arg) (j : Job D)
    (h : Verif.Model.Options.generate cvx P term (some "PDAQP".toList) gradient windows o = .ok j) :
    j.explicit = 0 ∧ ∃ e, j.pdaqp = some e ∧ e.dual = false := by
  have hsel : select ⟨some "PDAQP".toList, Verif.Model.Options.dual o, gradient, windows⟩ = .ok (.pdaqp, 0, gradient) := by
    generalize Verif.Model.Options.dual o = b
    cases b <;> cases gradient <;> cases windows <;> rfl
  unfold Verif.Model.Options.generate at h
  rw [hsel] at h
  simp only [if_true] at h
  split at h
  · cases h
  · split at h
    · cases h
    · simp only [Except.ok.injEq] at h
      rw [← h]
      exact ⟨rfl, _, rfl, rfl⟩

/-- Whether a quadratic objective is kept: `use_quad_obj` decides for conic solvers that support it, and only if the objective has a quadratic
term; quadratic solvers always keep it, ECOS never. -/
theorem C93_quad (i : Iface) (term : Bool) (o : Arg) :
    quadObj i term o = true ↔ (i = .osqp ∨ i = .pdaqp) ∨
      (i ≠ .ecos ∧ term = true ∧ ∀ v, (o.getD []).lookup "use_quad_obj" = some v → v.truthy = true) := by
  have hg : (o.get "use_quad_obj" (.bool true)).truthy = true ↔
      ∀ v, (o.getD []).lookup "use_quad_obj" = some v → v.truthy = true := by
    rw [opt_get]
    cases (o.getD []).lookup "use_quad_obj" with
    | none => simp [truthy_bool]
    | some v => simp
  unfold quadObj
  cases i <;> simp [quadratic, supportsQuad, hg, and_comm]

/-! ### Non-trivial instances -/

def anyPdaqp : Pdaqp where
  solved v _ := match v with | .num q => decide (3 ≤ q) | _ => false
  printed v _ _ := match v with | .num q => decide (2000000 ≤ q) | _ => false

def useQuad (_ : Iface) (o : Arg) : Option Val := (o.getD []).lookup "use_quad_obj"

theorem useQuad_reads : CvxReads useQuad := fun _ _ _ h => h _ (by simp)

def someOpts : Opts := [("verbose", .bool true), ("fp16", .bool true), ("max_floats", .num 3000000), ("dual", .bool true)]

theorem someOpts_says : Says someOpts ⟨some true, some true, some 3000000, none, none⟩ where
  dual := rfl
  fp16 := rfl
  other := rfl
  floats := rfl
  regions := rfl
  stored := rfl

example : Says ((none : Arg).getD []) ⟨none, none, none, none, none⟩ := ⟨rfl, rfl, rfl, rfl, rfl, rfl⟩

/-- The options have an effect. -/
example : Verif.Model.Options.generate useQuad anyPdaqp true (some "explicit".toList) false false (some someOpts) =
    .ok ⟨none, none, true, 2, some ⟨.num 500, .num 3000000, true, .half, .absent⟩⟩ := by
  rw [C93_explicit useQuad anyPdaqp true false false _ (by decide) (some someOpts) _ someOpts_says]
  have h1 : anyPdaqp.solved (.num 500) true = true := by simp [anyPdaqp]; norm_num
  have h2 : anyPdaqp.printed (.num 3000000) true .half = true := by simp [anyPdaqp]; norm_num
  simp [Documented.effect, h1, h2]
  rfl

/-- With the defaults, this solution is too large: the hypothesis of `C93_fails_advice` and `C93_advice_floats` is met. -/
theorem tooLarge : Verif.Model.Options.generate useQuad anyPdaqp true (some "explicit".toList) false false (some []) =
    .error .increaseMaxReals := by
  rw [C93_explicit useQuad anyPdaqp true false false _ (by decide) (some []) ⟨none, none, none, none, none⟩ ⟨rfl, rfl, rfl, rfl, rfl, rfl⟩]
  have h1 : anyPdaqp.solved (.num 500) false = true := by simp [anyPdaqp]; norm_num
  have h2 : anyPdaqp.printed (.num 1000000) false .single = false := by simp [anyPdaqp]; norm_num
  simp [Documented.effect, h1, h2]

/-- The tolerance is lost. -/
example : Verif.Model.Options.generate useQuad anyPdaqp true (some "OSQP".toList) false false (some [("eps_abs", .num (1 / 1000000))]) =
    Verif.Model.Options.generate useQuad anyPdaqp true (some "OSQP".toList) false false none :=
  C93_iterative useQuad useQuad_reads anyPdaqp true false false _ (by decide) (by decide) _ _ (by
    intro k hk
    rw [List.mem_singleton] at hk
    subst hk
    rfl)

end Verif.Props
