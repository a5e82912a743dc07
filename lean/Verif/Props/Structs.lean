import Verif.Model.Structs
import Mathlib.Data.List.Infix
import Mathlib.Data.List.Nodup
/-!
C62: fields of the structs exist where they are used, and what a file sees that includes the headers of several libraries.
-/
namespace Verif.Props
open Verif.Model.Text Verif.Model.Dispatch Verif.Model.Symbols Verif.Model.Structs

/-- The type is written and has the field. -/
def HasField (td : Option (List (Txt × FTy))) (f : Txt) : Prop := ∃ fs, td = some fs ∧ ∃ ty, (f, ty) ∈ fs

/-- What is asked of an input: a canonical parameter changes or has entries only if there is an affine map
(canonicalizer.py:302, 323-329), explicit mode has `q` and `u`, and `P` unless a part of the solution is stored. -/
structure StructOK (I : In) : Prop where
  mode : I.explicit ≤ 2
  changes : ∀ c ∈ I.canon, c.changes = true → c.has = true
  len : ∀ c ∈ I.canon, c.len ≠ 0 → c.has = true
  qu : I.explicit ≠ 0 → ∀ m ∈ [S.q, S.u], ∃ c ∈ keys I.canon, c.id = m
  quad : I.explicit ≠ 0 → I.reduced = false → ∃ c ∈ keys I.canon, c.id = S.P

section
variable {I : In}

theorem hasField_canon {f : Txt} (h : ∃ c ∈ keys I.canon, c.id = f) : HasField (typedef I .canonParams) f := by
  obtain ⟨c, hc, rfl⟩ := h
  exact ⟨_, rfl, _, List.mem_map.2 ⟨c, hc, rfl⟩⟩
theorem hasField_flag {f : Txt} (h : ∃ c ∈ keys I.canon, c.id = f) : HasField (typedef I .canonOutdated) f := by
  obtain ⟨c, hc, rfl⟩ := h
  exact ⟨_, rfl, _, List.mem_map.2 ⟨c, hc, rfl⟩⟩
theorem hasField_prim {v : Var} (h : v ∈ I.vars) : HasField (typedef I .prim) v.name :=
  ⟨_, rfl, _, List.mem_map.2 ⟨v, h, rfl⟩⟩
theorem hasField_dual {v : Txt × Nat} (h : v ∈ I.duals) : HasField (typedef I .dual) v.1 := by
  have : I.duals ≠ [] := fun e => by simp [e] at h
  exact ⟨_, by simp only [typedef, if_neg this]; rfl, _, List.mem_map.2 ⟨v, h, rfl⟩⟩
theorem hasField_info {f : Txt} (h : I.explicit = 0) (hf : f ∈ [F.obj_val, F.iter, F.status, F.pri_res, F.dua_res]) :
    HasField (typedef I .info) f := by
  refine ⟨_, by simp only [typedef, if_pos h]; rfl, ?_⟩
  simp only [List.mem_cons, List.not_mem_nil, or_false] at hf
  rcases hf with rfl | rfl | rfl | rfl | rfl
  exacts [⟨_, .head _⟩, ⟨_, .tail _ (.head _)⟩, ⟨_, .tail _ (.tail _ (.head _))⟩, ⟨_, .tail _ (.tail _ (.tail _ (.head _)))⟩,
    ⟨_, .tail _ (.tail _ (.tail _ (.tail _ (.head _))))⟩]
theorem hasField_delta {v : Txt × Nat} (h : v ∈ I.params) : HasField (typedef I .delta) v.1 :=
  ⟨_, rfl, _, List.mem_map.2 ⟨v, h, rfl⟩⟩
theorem hasField_rprim : HasField (typedef I .result) F.prim := ⟨_, rfl, .ptr .prim, by simp⟩
theorem hasField_rdual (h : I.explicit ≠ 1) (hd : I.duals ≠ []) : HasField (typedef I .result) F.dual :=
  ⟨_, rfl, .ptr .dual, by simp [h, hd]⟩
theorem hasField_rinfo (h : I.explicit = 0) : HasField (typedef I .result) F.info := ⟨_, rfl, .ptr .info, by simp [h]⟩

theorem key_of {c : CanonP} (hc : c ∈ I.canon) (h : c.has = true) : ∃ c' ∈ keys I.canon, c'.id = c.id :=
  ⟨c, List.mem_filter.2 ⟨hc, h⟩, rfl⟩

theorem inits_ok (h : StructOK I) : ∀ a ∈ inits I, HasField (typedef I a.1) a.2 := by
  intro a ha
  simp only [inits, List.mem_append, List.mem_map] at ha
  rcases ha with (((((⟨c, hc, rfl⟩ | ⟨c, hc, rfl⟩) | ⟨v, hv, rfl⟩) | hd) | hi) | ⟨f, hf, rfl⟩) | hg
  · exact hasField_canon ⟨c, (List.mem_filter.1 hc).1, rfl⟩
  · exact hasField_flag ⟨c, hc, rfl⟩
  · exact hasField_prim hv
  · split at hd
    · simp at hd
    · obtain ⟨v, hv, rfl⟩ := List.mem_map.1 hd
      exact hasField_dual hv
  · split at hi
    · rename_i h0
      obtain ⟨f, hf, rfl⟩ := List.mem_map.1 hi
      exact hasField_info h0 hf
    · simp at hi
  · have hm := h.mode
    split at hf
    · simp only [List.mem_singleton] at hf; subst hf; exact hasField_rprim
    · rename_i h1
      split at hf
      · split at hf
        · rename_i hd
          simp only [List.mem_cons, List.not_mem_nil, or_false] at hf
          rcases hf with rfl | rfl
          exacts [hasField_rprim, hasField_rdual h1 hd]
        · simp only [List.mem_singleton] at hf; subst hf; exact hasField_rprim
      · have h0 : I.explicit = 0 := by omega
        split at hf
        · rename_i hd
          simp only [List.mem_cons, List.not_mem_nil, or_false] at hf
          rcases hf with rfl | rfl | rfl
          exacts [hasField_rprim, hasField_rdual h1 hd, hasField_rinfo h0]
        · simp only [List.mem_cons, List.not_mem_nil, or_false] at hf
          rcases hf with rfl | rfl
          exacts [hasField_rprim, hasField_rinfo h0]
  · split at hg
    · obtain ⟨v, hv, rfl⟩ := List.mem_map.1 hg
      exact hasField_delta hv
    · simp at hg

theorem solveUses_ok (h : StructOK I) : ∀ a ∈ solveUses I, HasField (typedef I a.1) a.2 := by
  intro a ha
  simp only [solveUses, List.mem_append] at ha
  rcases ha with ((((((ha | ha) | ha) | ha) | ha) | ha) | ha) | ha
  · obtain ⟨c, hc, rfl⟩ := List.mem_map.1 ha
    exact hasField_flag ⟨c, hc, rfl⟩
  · obtain ⟨c, hc, ha⟩ := List.mem_flatMap.1 ha
    obtain ⟨hc, hch⟩ := List.mem_filter.1 hc
    have hk := key_of hc (h.changes c hc hch)
    simp only [List.mem_cons, List.not_mem_nil, or_false] at ha
    rcases ha with rfl | rfl
    exacts [hasField_canon hk, hasField_flag hk]
  · split at ha
    · obtain ⟨v, hv, rfl⟩ := List.mem_map.1 ha
      exact hasField_prim hv
    · simp at ha
  · split at ha
    · obtain ⟨v, hv, rfl⟩ := List.mem_map.1 ha
      exact hasField_dual hv
    · simp at ha
  · split at ha
    · rename_i h0
      rcases List.mem_append.1 ha with ha | ha
      · obtain ⟨f, hf, rfl⟩ := List.mem_map.1 ha
        exact hasField_info h0 hf
      · obtain ⟨c, hc, rfl⟩ := List.mem_map.1 ha
        exact hasField_canon ⟨c, (List.mem_filter.1 hc).1, rfl⟩
    · simp at ha
  · split at ha
    · obtain ⟨c, hc, rfl⟩ := List.mem_map.1 ha
      obtain ⟨hc, hl⟩ := List.mem_filter.1 hc
      simp only [Bool.and_eq_true, bne_iff_ne] at hl
      exact hasField_canon (key_of hc (h.len c hc hl.2))
    · simp at ha
  · split at ha
    · simp at ha
    · rename_i h0
      simp only [List.mem_cons, List.not_mem_nil, or_false] at ha
      rcases ha with rfl | rfl
      exacts [hasField_canon (h.qu h0 _ (by simp)), hasField_canon (h.qu h0 _ (by simp))]
  · split at ha
    · rename_i h0
      simp only [List.mem_cons, List.not_mem_nil, or_false] at ha
      rcases ha with rfl | rfl
      exacts [hasField_canon (h.quad h0.1 h0.2), hasField_canon (h.qu h0.1 _ (by simp))]
    · simp at ha

theorem gradUses_ok (h : StructOK I) : ∀ a ∈ gradUses I, HasField (typedef I a.1) a.2 := by
  intro a ha
  unfold gradUses at ha
  split at ha
  · split at ha
    · rcases List.mem_append.1 ha with ha | ha
      · obtain ⟨c, hc, rfl⟩ := List.mem_map.1 ha
        obtain ⟨hc, hl⟩ := List.mem_filter.1 hc
        simp only [Bool.and_eq_true] at hl
        exact hasField_canon (key_of hc (h.changes c hc hl.1))
      · obtain ⟨c, hc, rfl⟩ := List.mem_map.1 ha
        obtain ⟨hc, hl⟩ := List.mem_filter.1 hc
        exact hasField_flag (key_of hc (h.changes c hc hl))
    · simp at ha
  · simp at ha

theorem moduleUses_ok : ∀ a ∈ moduleUses I, HasField (typedef I a.1) a.2 := by
  intro a ha
  simp only [moduleUses, List.mem_append] at ha
  rcases ha with ((ha | ha) | ha) | ha
  · obtain ⟨v, hv, rfl⟩ := List.mem_map.1 ha
    exact hasField_prim hv
  · split at ha
    · simp at ha
    · obtain ⟨v, hv, rfl⟩ := List.mem_map.1 ha
      exact hasField_dual hv
  · split at ha
    · rename_i h0
      obtain ⟨f, hf, rfl⟩ := List.mem_map.1 ha
      exact hasField_info h0 hf
    · simp at ha
  · split at ha
    · obtain ⟨v, hv, rfl⟩ := List.mem_map.1 ha
      exact hasField_delta hv
    · simp at ha

theorem exampleUses_ok : ∀ a ∈ exampleUses I, HasField (typedef I a.1) a.2 := by
  intro a ha
  simp only [exampleUses, List.mem_append] at ha
  rcases ha with ((ha | ha) | ha) | ha
  · split at ha
    · rename_i h0
      simp only [List.mem_cons, List.not_mem_nil, or_false] at ha
      rcases ha with rfl | rfl
      exacts [hasField_rinfo h0, hasField_info h0 (by simp)]
    · simp at ha
  · obtain ⟨v, hv, ha⟩ := List.mem_flatMap.1 ha
    simp only [List.mem_cons, List.not_mem_nil, or_false] at ha
    rcases ha with rfl | rfl
    exacts [hasField_rprim, hasField_prim hv]
  · split at ha
    · simp at ha
    · rename_i h1
      obtain ⟨v, hv, ha⟩ := List.mem_flatMap.1 ha
      have hd : I.duals ≠ [] := fun e => by simp [e] at hv
      simp only [List.mem_cons, List.not_mem_nil, or_false] at ha
      rcases ha with rfl | rfl
      exacts [hasField_rdual h1 hd, hasField_dual hv]
  · split at ha
    · obtain ⟨v, hv, rfl⟩ := List.mem_map.1 ha
      exact hasField_delta hv
    · simp at ha

end

/-- Every initialiser and every access in the generated files names a field of a type that the library defines. -/
theorem C62_fields_partial (I : In) (h : StructOK I) : ∀ a ∈ accesses I, HasField (typedef I a.1) a.2 := by
  intro a ha
  simp only [accesses, List.mem_append] at ha
  rcases ha with (((ha | ha) | ha) | ha) | ha
  exacts [inits_ok h a ha, solveUses_ok h a ha, gradUses_ok h a ha, moduleUses_ok a ha, exampleUses_ok a ha]

/-- Canonical parameters that `cpg_solve`, `cpg_obj` and the copies read or write have an initial value, if explicit mode
leaves the matrices constant: `A` is never initialised then, `P` is if the objective function is written. -/
theorem C62_initialised_partial (I : In) (h : StructOK I) (hp : precond I.iface = true → I.explicit = 0)
    (hc : I.explicit ≠ 0 → ∀ c ∈ I.canon, c.changes = true → c.id ≠ S.A ∧ c.id ≠ S.P) :
    ∀ f, (STy.canonParams, f) ∈ solveUses I → (STy.canonParams, f) ∈ inits I := by
  have key : ∀ c ∈ keys I.canon, (I.explicit ≠ 0 → c.id ≠ S.A ∧ (I.reduced = true → c.id ≠ S.P)) →
      (STy.canonParams, c.id) ∈ inits I := by
    intro c hk hx
    simp only [inits, List.mem_append]
    refine .inl (.inl (.inl (.inl (.inl (.inl (List.mem_map.2 ⟨c, List.mem_filter.2 ⟨hk, ?_⟩, rfl⟩))))))
    by_cases h0 : I.explicit = 0
    · simp [h0]
    · obtain ⟨a, b⟩ := hx h0
      cases hr : I.reduced <;> simp [a]
      exact .inr (b hr)
  intro f hf
  simp only [solveUses, List.mem_append] at hf
  rcases hf with ((((((hf | hf) | hf) | hf) | hf) | hf) | hf) | hf
  · simp at hf
  · obtain ⟨c, hm, hf⟩ := List.mem_flatMap.1 hf
    obtain ⟨hm, hch⟩ := List.mem_filter.1 hm
    simp only [List.mem_cons, Prod.mk.injEq, true_and, reduceCtorEq, false_and, List.not_mem_nil, or_false] at hf
    subst hf
    exact key c (List.mem_filter.2 ⟨hm, h.changes c hm hch⟩) fun h0 => ⟨(hc h0 c hm hch).1, fun _ => (hc h0 c hm hch).2⟩
  · split at hf <;> simp at hf
  · split at hf <;> simp at hf
  · split at hf
    · rename_i h0
      rcases List.mem_append.1 hf with hf | hf
      · simp at hf
      · obtain ⟨c, hm, e⟩ := List.mem_map.1 hf
        cases e
        exact key c (List.mem_filter.1 hm).1 fun h1 => absurd h0 h1
    · simp at hf
  · split at hf
    · rename_i hpre
      obtain ⟨c, hm, e⟩ := List.mem_map.1 hf
      cases e
      obtain ⟨hm, hl⟩ := List.mem_filter.1 hm
      simp only [Bool.and_eq_true, bne_iff_ne] at hl
      exact key c (List.mem_filter.2 ⟨hm, h.len c hm hl.2⟩) fun h1 => absurd (hp hpre) h1
    · simp at hf
  · split at hf
    · simp at hf
    · rename_i h0
      simp only [List.mem_cons, Prod.mk.injEq, true_and, List.not_mem_nil, or_false] at hf
      rcases hf with rfl | rfl
      · obtain ⟨c, hk, e⟩ := h.qu h0 S.q (by simp)
        exact e ▸ key c hk fun _ => by rw [e]; exact ⟨by decide, fun _ => by decide⟩
      · obtain ⟨c, hk, e⟩ := h.qu h0 S.u (by simp)
        exact e ▸ key c hk fun _ => by rw [e]; exact ⟨by decide, fun _ => by decide⟩
  · split at hf
    · rename_i h0
      simp only [List.mem_cons, Prod.mk.injEq, true_and, List.not_mem_nil, or_false] at hf
      rcases hf with rfl | rfl
      · obtain ⟨c, hk, e⟩ := h.quad h0.1 h0.2
        exact e ▸ key c hk fun _ => ⟨by rw [e]; decide, fun hr => by rw [h0.2] at hr; cases hr⟩
      · obtain ⟨c, hk, e⟩ := h.qu h0.1 S.q (by simp)
        exact e ▸ key c hk fun _ => by rw [e]; exact ⟨by decide, fun _ => by decide⟩
    · simp at hf

/-! ### two libraries in one file -/

/-- In a file that includes the headers of the libraries `Ls`, the fields of the type `t` of the library `J` are found
where the code of `J` keeps them. -/
def Faithful (Ls : List In) (J : In) (t : STy) : Prop :=
  ∀ fs, typedef J t = some fs → ∃ gs, visible Ls t = some gs ∧ ∀ f ∈ fs, place gs f.1 = place fs f.1

theorem place_cons (a : Txt × FTy) (l : List (Txt × FTy)) (f : Txt) :
    place (a :: l) f = if a.1 = f then some (0, a.2) else (place l f).map fun e => (e.1 + 1, e.2) := by
  unfold place
  rw [List.zipIdx_cons, List.find?_cons]
  by_cases h : a.1 = f
  · simp [h]
  · simp only [h, decide_false, if_false]
    rw [show 0 + 1 = 1 from rfl, List.zipIdx_succ, List.find?_map, Option.map_map]
    simp only [Option.map_map]
    congr 1

theorem place_none {l : List (Txt × FTy)} {f : Txt} (h : f ∉ l.map Prod.fst) : place l f = none := by
  induction l with
  | nil => rfl
  | cons a l ih =>
    simp only [List.map_cons, List.mem_cons, not_or] at h
    rw [place_cons, if_neg (fun e => h.1 e.symm), ih h.2]; rfl

/-- Places agree for all fields exactly if the fields are an initial part of those that are seen. -/
theorem place_iff : ∀ (fs gs : List (Txt × FTy)), (fs.map Prod.fst).Nodup →
    ((∀ f ∈ fs, place gs f.1 = place fs f.1) ↔ fs <+: gs)
  | [], gs, _ => by simp
  | a :: fs, gs, hn => by
    rw [List.map_cons, List.nodup_cons] at hn
    constructor
    · intro h
      have h0 := h a (by simp)
      rw [place_cons a fs, if_pos rfl] at h0
      cases gs with
      | nil => simp [place] at h0
      | cons b gs =>
        rw [place_cons] at h0
        by_cases hb : b.1 = a.1
        · rw [if_pos hb] at h0
          have hba : b = a := Prod.ext hb (by simpa using h0)
          subst hba
          refine List.cons_prefix_cons.2 ⟨rfl, (place_iff fs gs hn.2).1 fun f hf => ?_⟩
          have hne : b.1 ≠ f.1 := fun e => hn.1 (List.mem_map.2 ⟨f, hf, e.symm⟩)
          have := h f (List.mem_cons_of_mem _ hf)
          rw [place_cons, place_cons, if_neg hne, if_neg hne] at this
          cases hx : place gs f.1 <;> cases hy : place fs f.1 <;> rw [hx, hy] at this <;> simp_all [Prod.ext_iff]
        · rw [if_neg hb] at h0
          cases hx : place gs a.1 <;> rw [hx] at h0 <;> simp at h0
    · rintro ⟨r, rfl⟩ f hf
      have ih := (place_iff fs (fs ++ r) hn.2).2 ⟨r, rfl⟩
      rw [List.cons_append, place_cons, place_cons]
      split
      · rfl
      · rename_i hne
        rcases List.mem_cons.1 hf with rfl | hf
        · exact absurd rfl hne
        · rw [ih f hf]

/-- The full property: wherever a file includes the headers of several libraries with different prefixes, it sees the
structs of each of them as they are. -/
def C62Claim : Prop :=
  ∀ Ls : List In, (Ls.map In.pre).Nodup → ∀ J ∈ Ls, (∀ t fs, typedef J t = some fs → (fs.map Prod.fst).Nodup) →
    ∀ t, Faithful Ls J t

/-- The library whose header comes first is seen as it is; in particular a single library. -/
theorem C62_first_partial (J : In) (Ls : List In) (t : STy) : Faithful (J :: Ls) J t :=
  fun fs h => ⟨fs, h, fun _ _ => rfl⟩

/-- Any other library is seen as it is exactly if its fields are an initial part of those of the first library. -/
theorem C62_other_iff (I J : In) (Ls : List In) (t : STy) (fs : List (Txt × FTy)) (h : typedef J t = some fs)
    (hn : (fs.map Prod.fst).Nodup) : Faithful (I :: Ls) J t ↔ ∃ gs, typedef I t = some gs ∧ fs <+: gs := by
  constructor
  · intro hf
    obtain ⟨gs, hg, hp⟩ := hf fs h
    exact ⟨gs, hg, (place_iff fs gs hn).1 hp⟩
  · rintro ⟨gs, hg, hp⟩ fs' h'
    rw [h] at h'; cases h'
    exact ⟨gs, hg, (place_iff fs gs hn).2 hp⟩

/-- Two libraries are both seen as they are, in either order of the headers, only if their structs are the same. -/
theorem C62_both_orders (I J : In) (t : STy) (fs gs : List (Txt × FTy)) (hI : typedef I t = some gs)
    (hJ : typedef J t = some fs) (hnI : (gs.map Prod.fst).Nodup) (hnJ : (fs.map Prod.fst).Nodup) :
    (Faithful [I, J] J t ∧ Faithful [J, I] I t) ↔ fs = gs := by
  rw [C62_other_iff I J [J] t fs hJ hnJ, C62_other_iff J I [I] t gs hI hnI]
  constructor
  · rintro ⟨⟨gs', hg, h1⟩, ⟨fs', hf, h2⟩⟩
    rw [hI] at hg; cases hg
    rw [hJ] at hf; cases hf
    exact h1.eq_of_length (le_antisymm h1.length_le h2.length_le)
  · rintro rfl
    exact ⟨⟨_, hI, List.prefix_rfl⟩, ⟨_, hJ, List.prefix_rfl⟩⟩

/-- A variable of the second problem that the first does not have cannot be read in such a file. -/
theorem C62_fails_missing (I J : In) (Ls : List In) (v : Var) (hv : v ∈ J.vars) (hn : v.name ∉ I.vars.map Var.name) :
    ¬ Faithful (I :: Ls) J .prim := by
  intro hf
  obtain ⟨gs, hg, hp⟩ := hf _ rfl
  cases hg
  have h1 := hp _ (List.mem_map.2 ⟨v, hv, rfl⟩)
  rw [place_none (by simpa [List.map_map, Function.comp_def] using hn)] at h1
  have : ∀ l : List Var, v ∈ l → place (l.map fun v => (v.name, byOne (single J) v.size)) v.name ≠ none := by
    intro l
    induction l with
    | nil => simp
    | cons a l ih =>
      intro hm
      rw [List.map_cons, place_cons]
      split
      · simp
      · rename_i hne
        rcases List.mem_cons.1 hm with rfl | hm
        · exact absurd rfl hne
        · simpa using ih hm
  exact this J.vars hv h1.symm

/-- With one library in explicit mode and the other not, numbers of the second are seen with the wrong precision. -/
theorem C62_fails_precision (I J : In) (Ls : List In) (hx : ¬ (I.explicit = 0 ↔ J.explicit = 0)) (hv : J.vars ≠ [])
    (hn : (J.vars.map Var.name).Nodup) : ¬ Faithful (I :: Ls) J .prim := by
  intro hf
  obtain ⟨gs, hg, hp⟩ := (C62_other_iff I J Ls .prim _ rfl (by simpa [List.map_map, Function.comp_def] using hn)).1 hf
  cases hg
  have hs : single I ≠ single J := by
    unfold single
    intro e
    apply hx
    have e' : (I.explicit != 0) = false ↔ (J.explicit != 0) = false := by rw [e]
    simpa using e'
  cases hJ : J.vars with
  | nil => exact hv hJ
  | cons v vs =>
    cases hI : I.vars with
    | nil => rw [hI, hJ] at hp; simp at hp
    | cons w ws =>
      rw [hI, hJ, List.map_cons, List.map_cons, List.cons_prefix_cons] at hp
      have h2 := (Prod.ext_iff.1 hp.1).2
      simp only [byOne] at h2
      split at h2 <;> split at h2
      exacts [hs (FTy.num.inj h2).symm, FTy.noConfusion h2, FTy.noConfusion h2, hs (FTy.arr.inj h2).symm]

/-- The solvers that report the status as text. -/
def TextStatus (i : Iface) : Prop := i = .osqp ∨ i = .scs

/-- With a library for OSQP or SCS and one for another solver, the status of the second is seen as the wrong type. -/
theorem C62_fails_status (I J : In) (Ls : List In) (hI : I.explicit = 0) (hJ : J.explicit = 0)
    (hx : ¬ (TextStatus I.iface ↔ TextStatus J.iface)) : ¬ Faithful (I :: Ls) J .info := by
  intro hf
  have e : ∀ K : In, K.explicit = 0 → typedef K .info = some [(F.obj_val, .num (single K)), (F.iter, .int),
      (F.status, if statusInt K.iface then .int else .text), (F.pri_res, .num (single K)), (F.dua_res, .num (single K))] := by
    intro K hK
    simp only [typedef, if_pos hK]
  obtain ⟨gs, hg, hp⟩ := (C62_other_iff I J Ls .info _ (e J hJ)
    (show [F.obj_val, F.iter, F.status, F.pri_res, F.dua_res].Nodup by decide)).1 hf
  rw [e I hI] at hg
  cases hg
  simp only [List.cons_prefix_cons, Prod.mk.injEq] at hp
  have h3 := hp.2.2.1.2
  apply hx
  unfold TextStatus
  cases hi : I.iface <;> cases hj : J.iface <;> rw [hi, hj] at h3 <;> simp [statusInt] at h3 <;> simp

/-! ### samples -/

def exStruct (pre : String) (vars : List (String × Nat)) : In where
  pre := pre.toList
  gradient := false
  explicit := 0
  two := false
  iface := .osqp
  quad := true
  soc := false
  reduced := false
  params := [("p".toList, 2)]
  vars := vars.map fun v => ⟨v.1.toList, v.2, false⟩
  duals := [("d0".toList, 3)]
  canon := [⟨S.P, true, 2, false⟩, ⟨S.q, true, 2, true⟩, ⟨S.d, true, 1, false⟩, ⟨S.A, true, 3, true⟩, ⟨S.u, true, 3, false⟩]
  settings := []
  gcanon := []
  gret := false

theorem exStruct_ok (p : String) (vs : List (String × Nat)) : StructOK (exStruct p vs) := by
  refine ⟨by simp [exStruct], ?_, ?_, fun h => absurd rfl h, fun h => absurd rfl h⟩ <;>
  · intro c hc
    simp only [exStruct, List.mem_cons, List.not_mem_nil, or_false] at hc
    rcases hc with rfl | rfl | rfl | rfl | rfl <;> simp

/-- Explicit mode with all variables stored. -/
def exStructExplicit : In :=
  { exStruct "" [("x", 2)] with
    explicit := 1
    iface := .pdaqp
    canon := [⟨S.P, true, 2, false⟩, ⟨S.q, true, 2, true⟩, ⟨S.d, true, 1, false⟩, ⟨S.A, true, 3, false⟩, ⟨S.u, true, 3, true⟩] }

/-- The hypotheses of `C62_initialised_partial` hold in explicit mode, where `P` and `q` are read by `cpg_obj`. -/
example : StructOK exStructExplicit ∧ (precond exStructExplicit.iface = true → exStructExplicit.explicit = 0) ∧
    (exStructExplicit.explicit ≠ 0 → ∀ c ∈ exStructExplicit.canon, c.changes = true → c.id ≠ S.A ∧ c.id ≠ S.P) ∧
    (STy.canonParams, S.P) ∈ solveUses exStructExplicit ∧ (STy.canonParams, S.A) ∉ inits exStructExplicit := by
  refine ⟨⟨by decide, by decide, by decide, fun _ => ?_, fun _ _ => ⟨⟨S.P, true, 2, false⟩, .head _, rfl⟩⟩, by decide, fun _ => by decide, by decide,
    by decide⟩
  intro m hm
  simp only [List.mem_cons, List.not_mem_nil, or_false] at hm
  rcases hm with rfl | rfl
  · exact ⟨⟨S.q, true, 2, true⟩, .tail _ (.head _), rfl⟩
  · exact ⟨⟨S.u, true, 3, true⟩, .tail _ (.tail _ (.tail _ (.tail _ (.head _)))), rfl⟩

example : (STy.dual, "d0".toList) ∈ accesses (exStruct "" [("x", 2)]) ∧
    (STy.result, F.info) ∈ accesses (exStruct "" [("x", 2)]) := by decide

/-- A second library with fewer variables, in the same order, is seen as it is. -/
example : Faithful [exStruct "a_" [("x", 2), ("t", 1)], exStruct "b_" [("x", 5)]] (exStruct "b_" [("x", 5)]) .prim :=
  (C62_other_iff _ _ _ _ _ rfl (by decide)).2 ⟨_, rfl, by decide⟩

/-- The same variables in another order: both fields are found, at the places of each other. -/
theorem C62_fails_order :
    let I := exStruct "a_" [("x", 1), ("y", 1)]
    let J := exStruct "b_" [("y", 1), ("x", 1)]
    ¬ Faithful [I, J] J .prim ∧
      (∃ gs fs, typedef I .prim = some gs ∧ typedef J .prim = some fs ∧
        place gs "x".toList = place fs "y".toList ∧ place gs "y".toList = place fs "x".toList ∧
        place gs "x".toList ≠ place fs "x".toList) := by
  refine ⟨fun h => ?_, _, _, rfl, rfl, by decide, by decide, by decide⟩
  obtain ⟨gs, hg, hp⟩ := (C62_other_iff _ _ _ _ _ rfl (by decide)).1 h
  cases hg
  revert hp
  decide

/-- A library in explicit mode and one that is not. -/
example : ¬ Faithful [exStructExplicit, exStruct "b_" [("x", 2)]] (exStruct "b_" [("x", 2)]) .prim :=
  C62_fails_precision _ _ _ (by decide) (by decide) (by decide)

/-- OSQP and ECOS. -/
example : ¬ Faithful [exStruct "a_" [("x", 2)], { exStruct "b_" [("x", 2)] with iface := .ecos }]
    { exStruct "b_" [("x", 2)] with iface := .ecos } .info :=
  C62_fails_status _ _ _ rfl rfl (by simp [TextStatus, exStruct])

theorem C62_fails : ¬ C62Claim := fun h =>
  C62_fails_order.1 (h _ (by decide) _ (by simp) (fun t fs ht => by
    cases t <;> cases ht <;> decide) .prim)

end Verif.Props
