import Verif.Props.Options
/-! C93: exactly when two dicts of options ask for the same explicit solver. -/
namespace Verif.Props
open Verif.Model.Text Verif.Model.Dispatch
open Verif.Model.Options (Val Opts Arg Explicit Job Pdaqp Failure)
open Verif.Spec.Options (Documented Says Agree CvxReads)

variable {D : Type}

/-- **C93, exact condition in explicit mode.** Where PDAQP succeeds with both, two dicts give the same code exactly if the documentation promises the same for
both and the canonicalization of CVXPY is the same: none of the documented options is ignored, and none of the others has an effect. -/
theorem C93_explicit_iff (cvx : Iface → Arg → D) (P : Pdaqp) (hs : ∀ v b, P.solved v b = true) (hp : ∀ v b st, P.printed v b st = true)
    (term gradient windows : Bool) (s : Txt) (he : lower s = "explicit".toList) (o o' : Arg) (d d' : Documented)
    (h : Says (o.getD []) d) (h' : Says (o'.getD []) d') :
    Verif.Model.Options.generate cvx P term (some s) gradient windows o = Verif.Model.Options.generate cvx P term (some s) gradient windows o' ↔
      d.effect = d'.effect ∧ cvx .pdaqp o = cvx .pdaqp o' := by
  rw [C93_explicit cvx P term gradient windows s he o d h, C93_explicit cvx P term gradient windows s he o' d' h']
  simp only [hs, hp, Bool.true_eq_false, if_false]
  constructor
  · intro e
    simp only [Except.ok.injEq, Job.mk.injEq, Option.some.injEq] at e
    exact ⟨e.2.2.2.2, e.2.1⟩
  · rintro ⟨e1, e2⟩
    rw [e1, e2]

/-- **C93, failures.** In explicit mode generation fails exactly if PDAQP does with the documented limits, and the error says which of them. -/
theorem C93_explicit_error (cvx : Iface → Arg → D) (P : Pdaqp) (term gradient windows : Bool) (s : Txt) (he : lower s = "explicit".toList)
    (o : Arg) (d : Documented) (h : Says (o.getD []) d) (f : Failure) :
    Verif.Model.Options.generate cvx P term (some s) gradient windows o = .error f ↔
      (f = .notSolved ∧ P.solved d.effect.regions d.effect.dual = false) ∨
      (f = .increaseMaxReals ∧ P.solved d.effect.regions d.effect.dual = true ∧ P.printed d.effect.floats d.effect.dual d.effect.store = false) := by
  rw [C93_explicit cvx P term gradient windows s he o d h]
  cases P.solved d.effect.regions d.effect.dual <;> cases P.printed d.effect.floats d.effect.dual d.effect.store <;>
    cases f <;> simp

/-- A PDAQP that always succeeds. -/
def easyPdaqp : Pdaqp where
  solved _ _ := true
  printed _ _ _ := true

/-- An option that is not documented changes nothing, one that is changes the code. -/
example : Verif.Model.Options.generate useQuad easyPdaqp true (some "explicit".toList) false false (some (("eps", .num 1) :: someOpts)) =
      Verif.Model.Options.generate useQuad easyPdaqp true (some "explicit".toList) false false (some someOpts) ∧
    Verif.Model.Options.generate useQuad easyPdaqp true (some "explicit".toList) false false none ≠
      Verif.Model.Options.generate useQuad easyPdaqp true (some "explicit".toList) false false (some someOpts) := by
  refine ⟨?_, ?_⟩
  · rw [C93_explicit_iff useQuad easyPdaqp (fun _ _ => rfl) (fun _ _ _ => rfl) true false false "explicit".toList (by decide)
      (some (("eps", .num 1) :: someOpts)) (some someOpts) ⟨some true, some true, some 3000000, none, none⟩ _ ⟨rfl, rfl, rfl, rfl, rfl, rfl⟩ someOpts_says]
    exact ⟨rfl, rfl⟩
  · rw [Ne, C93_explicit_iff useQuad easyPdaqp (fun _ _ => rfl) (fun _ _ _ => rfl) true false false "explicit".toList (by decide)
      none (some someOpts) ⟨none, none, none, none, none⟩ _ ⟨rfl, rfl, rfl, rfl, rfl, rfl⟩ someOpts_says]
    rintro ⟨h, _⟩
    have := congrArg Explicit.dual h
    simp [Documented.effect] at this

end Verif.Props
