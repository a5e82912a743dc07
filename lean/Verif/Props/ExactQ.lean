import Verif.Props.Symbols
/-!
# C54: exactly which generated programs compile
-/
namespace Verif.Props
open Verif.Model.Text Verif.Model.Dispatch Verif.Model.Symbols Verif.Spec.Symbols Verif.Lemmas.Symbols

/-- What holds for every call of `generate_code` that gets as far as writing files: explicit solutions are PDAQP's, two stages are for derivatives
with a solver that is not OSQP, and without explicit mode (generator.py:77); in one stage derivatives are for OSQP and PDAQP, of the matrices `P` and `A`. -/
structure Arises (I : In) : Prop where
  mode : I.explicit ≤ 2
  expl : I.explicit ≠ 0 → I.iface = .pdaqp
  two : I.two = true → I.gradient = true ∧ I.explicit = 0
  grad : I.two = false → I.gradient = true → I.iface = .osqp ∨ I.iface = .pdaqp
  ids : I.two = false → I.gradient = true → ∀ c ∈ I.canon, upperId c.id = true → c.id = S.P ∨ c.id = S.A
  scs : I.iface = .scs → (∀ m ∈ (if I.quad then [S.P, S.A] else [S.A]) ++ [S.b, S.c],
    ∃ c ∈ keys I.canon, c.id = m ∧ c.len ≠ 0)

/-- **C54, exactly.** Of all that is written, names are declared and defined exactly if code is generated in one stage and PDAQP is used in explicit
mode only. -/
theorem C54_iff (I : In) (hI : Arises I) (p0 : Txt) (hp : I.pre = normPrefix p0) (files : List CFile) (h : writeFiles I = .ok files) :
    ((∀ f ∈ files ++ [moduleFile I], InScope f) ∧ Linked (files ++ [moduleFile I]) (extDefs I) ∧ Defined files (libProtos I)) ↔
      I.two = false ∧ (I.iface = .pdaqp → I.explicit ≠ 0) := by
  constructor
  · rintro ⟨h1, _, _⟩
    have h2 : I.two = false := by
      cases e : I.two with
      | false => rfl
      | true =>
        obtain ⟨f, hf, hn⟩ := C54_fails_two_stage I p0 hp e (hI.two e).1 (hI.two e).2 files h
        exact absurd (h1 f (List.mem_append_left _ hf)) hn
    refine ⟨h2, fun hi h0 => ?_⟩
    obtain ⟨f, hf, hn⟩ := C54_fails_pdaqp I hi h0 h2 files h
    exact hn (h1 f (List.mem_append_left _ hf))
  · rintro ⟨h1, h2⟩
    exact C54_partial I ⟨h1, hI.mode, ⟨hI.expl, h2⟩, hI.grad h1, hI.ids h1, hI.scs⟩ files h

theorem normPrefix_nil (p : Txt) : normPrefix p = [] ↔ p = [] := by
  constructor
  · intro h
    cases p with
    | nil => rfl
    | cons c t =>
      unfold normPrefix at h
      simp only at h
      by_cases hc : isAlpha c = true <;> simp [hc] at h
  · rintro rfl
    rfl

/-- **C54, the example program, exactly.** For a problem with variables it is well-formed exactly if it computes no derivatives or there is no
prefix. -/
theorem C54_example_iff (I : In) (hI : Coherent I) (p0 : Txt) (hp : I.pre = normPrefix p0) (hv : I.vars ≠ []) :
    InScope (exampleFile I) ↔ I.gradient = false ∨ p0 = [] := by
  constructor
  · intro h
    by_contra hn
    rw [not_or] at hn
    exact C54_fails_example I p0 hp hn.2 (by simpa using hn.1) hv h
  · intro h
    refine (C54_example_partial I hI (h.imp_right fun e => ?_)).1
    rw [hp, e]
    rfl

/-- Configurations of each kind: OSQP with derivatives compiles, two stages and PDAQP without explicit mode do not. -/
example : Arises symOsqp ∧ Arises symTwo ∧ Arises symPdaqp ∧ symOsqp.two = false ∧ symTwo.two = true ∧ symPdaqp.explicit = 0 :=
  ⟨⟨by decide, by decide, by decide, by decide, by decide, by decide⟩, ⟨by decide, by decide, by decide, by decide, by decide, by decide⟩,
    ⟨by decide, by decide, by decide, by decide, by decide, by decide⟩, rfl, rfl, rfl⟩

end Verif.Props
