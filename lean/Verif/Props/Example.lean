import Verif.Model.Example
import Verif.Lemmas.Flatten
import Verif.Props.Canon
import Verif.Props.Explicit
/-! C61: the example program solves the instance given at generation. -/
namespace Verif.Props
open Verif.Model Verif.Model.Flatten Verif.Model.Example Verif.Model.Explicit Verif.Lemmas Verif.Spec
variable {R : Type}

theorem block_length (p : EPar R) : p.block.length = p.upar.size :=
  (Verif.Lemmas.Flatten.flattenF_spec p.shape p.val).1

theorem writable_block (p : EPar R) : p.writable = p.block := by
  unfold EPar.writable EPar.block
  split
  · rename_i h
    unfold flattenF
    match hs : p.shape with
    | [] => rfl
    | [d] => simp [ravelC]
    | _ :: _ :: _ => rw [hs] at h; simp at h
  · rfl

theorem startVec_length (pr : R → R) (ps : List (EPar R)) : (startVec pr ps).length = totalSize (ps.map EPar.upar) := by
  unfold startVec totalSize
  rw [List.length_map, List.length_flatMap, List.map_map]
  congr 1
  exact List.map_congr_left fun p _ => block_length p

/-- Where the block of a parameter is. -/
theorem startVec_block (pr : R → R) (ps : List (EPar R)) (j : Nat) (hj : j < ps.length) (i : Nat) (hi : i < (ps[j]).block.length) :
    (startVec pr ps)[colOf (ps.map EPar.upar) j + i]? = ((ps[j]).block[i]?).map pr := by
  induction ps generalizing j with
  | nil => simp at hj
  | cons p ps ih =>
    have hs : startVec pr (p :: ps) = p.block.map pr ++ startVec pr ps := by simp [startVec]
    rw [hs]
    cases j with
    | zero =>
      simp only [colOf, List.take_zero, List.map_nil, List.sum_nil, Nat.zero_add, List.getElem_cons_zero] at hi ⊢
      rw [List.getElem?_append_left (by simpa using hi), List.getElem?_map]
    | succ j =>
      simp only [List.getElem_cons_succ] at hi ⊢
      have hj' : j < ps.length := by simpa using hj
      have hc : colOf ((p :: ps).map EPar.upar) (j + 1) = p.block.length + colOf (ps.map EPar.upar) j := by
        simp [colOf, block_length]
      rw [hc, List.getElem?_append_right (by simp; omega), ← ih j hj' hi]
      congr 1
      simp; omega

/-- A list whose entries are printed the same way: setting the first entry of a parameter to its own value. -/
theorem exampleCall_same {pr : R → R} {ps : List (EPar R)} (hn : (ps.map EPar.name).Nodup) (hpos : ∀ p ∈ ps, 0 < p.upar.size)
    {p : EPar R} (hp : p ∈ ps) {c : UpdCall R} (hc : exampleCall pr p = some c) :
    c.Valid (ps.map EPar.upar) ∧
    updateC (ps.map EPar.upar) c.name c.idx c.val (startVec pr ps) = some (startVec pr ps) := by
  obtain ⟨j, hj, rfl⟩ := List.getElem_of_mem hp
  unfold exampleCall at hc
  rw [writable_block] at hc
  obtain ⟨v, hv, rfl⟩ := Option.map_eq_some_iff.1 hc
  have hp' := hpos _ hp
  refine ⟨⟨(ps[j]).upar, List.mem_map_of_mem hp, rfl, hp'⟩, ?_⟩
  have hnames : ((ps.map EPar.upar).map UParam.name).Nodup := by rw [List.map_map]; exact hn
  have h := (updateC_eq hnames (fun q hq => by
      obtain ⟨q', hq', rfl⟩ := List.mem_map.1 hq; exact hpos q' hq') j (by simpa using hj) 0 (by simpa using hp') (pr v)
      (startVec pr ps) (startVec_length pr ps))
  have e := startVec_block pr ps j hj 0 (by rw [block_length]; exact hp')
  rw [← List.head?_eq_getElem?, hv, Option.map_some] at e
  have hname : ((ps.map EPar.upar)[j]'(by simpa using hj)).name = (ps[j]).name := by simp [EPar.upar]
  rw [hname] at h
  rw [h.2]
  obtain ⟨hlt, hval⟩ := List.getElem?_eq_some_iff.1 e
  rw [← hval, List.set_getElem_self]

/-- The calls that the example program makes. -/
def IsExample (pr : R → R) (ps : List (EPar R)) (h : List (Call { a : UpdCall R // a.Valid (ps.map EPar.upar) })) : Prop :=
  ∃ cs : List { a : UpdCall R // a.Valid (ps.map EPar.upar) }, exampleCalls pr ps = some (cs.map (·.1)) ∧
    h = cs.map Call.update ++ [Call.solve]

theorem isExample_exists (pr : R → R) (ps : List (EPar R)) (hn : (ps.map EPar.name).Nodup) (hpos : ∀ p ∈ ps, 0 < p.upar.size) :
    ∃ h, IsExample pr ps h := by
  have : ∀ l : List (EPar R), (∀ p ∈ l, p ∈ ps) →
      ∃ cs : List { a : UpdCall R // a.Valid (ps.map EPar.upar) }, l.mapM (exampleCall pr) = some (cs.map (·.1)) := by
    intro l
    induction l with
    | nil => intro _; exact ⟨[], rfl⟩
    | cons p l ih =>
      intro hl
      obtain ⟨cs, hcs⟩ := ih fun q hq => hl q (List.mem_cons_of_mem _ hq)
      have hp := hl p (List.mem_cons_self ..)
      have hc : ∃ c, exampleCall pr p = some c := by
        unfold exampleCall
        rw [writable_block]
        have : 0 < p.block.length := by rw [block_length]; exact hpos p hp
        obtain ⟨v, t, e⟩ := List.exists_cons_of_length_pos this
        exact ⟨_, by rw [e]; rfl⟩
      obtain ⟨c, hc⟩ := hc
      exact ⟨⟨c, (exampleCall_same hn hpos hp hc).1⟩ :: cs, by rw [List.mapM_cons, hc, hcs]; rfl⟩
  obtain ⟨cs, h⟩ := this ps fun _ h => h
  exact ⟨_, cs, h, rfl⟩

theorem isExample_same {pr : R → R} {ps : List (EPar R)} (hn : (ps.map EPar.name).Nodup) (hpos : ∀ p ∈ ps, 0 < p.upar.size)
    {cs : List (UpdCall R)} (h : exampleCalls pr ps = some cs) :
    ∀ c ∈ cs, updateC (ps.map EPar.upar) c.name c.idx c.val (startVec pr ps) = some (startVec pr ps) := by
  have : ∀ (l : List (EPar R)) (cs : List (UpdCall R)), (∀ p ∈ l, p ∈ ps) → l.mapM (exampleCall pr) = some cs →
      ∀ c ∈ cs, updateC (ps.map EPar.upar) c.name c.idx c.val (startVec pr ps) = some (startVec pr ps) := by
    intro l
    induction l with
    | nil => intro cs _ h c hc; cases h; cases hc
    | cons p l ih =>
      intro cs hl h c hc
      rw [List.mapM_cons] at h
      obtain ⟨d, hd, h⟩ := Option.bind_eq_some_iff.1 h
      obtain ⟨ds, hds, h⟩ := Option.bind_eq_some_iff.1 h
      cases h
      rcases List.mem_cons.1 hc with rfl | hc
      · exact (exampleCall_same hn hpos (hl p (List.mem_cons_self ..)) hd).2
      · exact ih ds (fun q hq => hl q (List.mem_cons_of_mem _ hq)) hds c hc
  exact this ps cs (fun _ h => h) h

variable [CommRing R] [DecidableEq R]

theorem assign_same {ps : List UParam} {ids : List CId} {quad : Bool} {maps : CId → Option (RawMap R)}
    {θ0 θ : { θ : List R // θ.length = totalSize ps }} {a : { a : UpdCall R // a.Valid ps }}
    (h : updateC ps a.1.name a.1.idx a.1.val θ.1 = some θ.1) : (canonGen ps ids quad maps θ0).assign a θ = θ := by
  apply Subtype.ext
  simp only [canonGen]
  split
  · rename_i θ' h'
    rw [h] at h'
    exact (Option.some.inj h').symm
  · rfl

/-- **C61** The example program can be written, its calls are valid, and when it solves, every canonical parameter is the
affine map applied to the parameter values given at generation (as printed). -/
theorem C61_example (k : Kind) (quad lp : Bool) (hk : k.possible quad lp = true) (pr : R → R) (ps : List (EPar R))
    (maps : CId → Option (RawMap R)) (hw : WFInput (ps.map EPar.upar) (k.canonIds quad) maps)
    (order : List CId → List CId) (horder : ∀ l, (order l).Perm l) (junk : CId → Option (List R)) :
    let g := canonGen (ps.map EPar.upar) (k.canonIds quad) quad maps ⟨startVec pr ps, startVec_length pr ps⟩
    (∃ h, IsExample pr ps h) ∧
    ∀ h, IsExample pr ps h → ∃ toks pus' m o,
      genBlock (k.solver quad lp).pus g.quad g.changes order = .ok (toks, pus') ∧
      g.runCalls (k.solver quad lp) toks (g.initMem (k.solver quad lp) junk) h = some (m, [o]) ∧
      ∀ p ∈ (k.solver quad lp).uses, ∀ mp, maps p = some mp →
        o.data p = some ((if p.isUpper then nonzeroRows mp.signed else List.range mp.mapping.rows).map
          fun r => ∑ j ∈ Finset.range (totalSize (ps.map EPar.upar) + 1),
            (mp.mapping.at r j * mp.sign r) * fn (startVec pr ps ++ [1]) j) := by
  intro g
  have hn : (ps.map EPar.name).Nodup := by
    have := hw.names
    rw [List.map_map] at this
    exact this
  have hpos : ∀ p ∈ ps, 0 < p.upar.size := fun p hp => hw.sizes _ (List.mem_map_of_mem hp)
  refine ⟨isExample_exists pr ps hn hpos, ?_⟩
  rintro h ⟨cs, hcs, rfl⟩
  obtain ⟨toks, pus', m, os, h1, h2, h3⟩ := C01_end_to_end k quad lp hk _ maps hw
    ⟨startVec pr ps, startVec_length pr ps⟩ order horder junk (cs.map Call.update ++ [Call.solve])
  have hsolve : ∀ l : List { a : UpdCall R // a.Valid (ps.map EPar.upar) }, (∀ c ∈ l, c ∈ cs) →
      solveParams g.assign ⟨startVec pr ps, startVec_length pr ps⟩ (l.map Call.update ++ [Call.solve])
        = [⟨startVec pr ps, startVec_length pr ps⟩] := by
    intro l
    induction l with
    | nil => intro _; rfl
    | cons c l ih =>
      intro hl
      rw [List.map_cons, List.cons_append, solveParams, assign_same, ih fun d hd => hl d (List.mem_cons_of_mem _ hd)]
      exact isExample_same hn hpos hcs c.1 (List.mem_map_of_mem (hl c (List.mem_cons_self ..)))
  rw [hsolve cs fun _ h => h] at h3
  obtain ⟨o, _, h4, h5, rfl⟩ := List.forall₂_cons_left_iff.1 h3
  cases h5
  exact ⟨toks, pus', m, o, h1, h2, h4⟩

section
variable {R : Type} [LinearOrder R]

theorem clampRun_other (b : Bounds R) (us : List (Nat × R)) (θ : Nat → R) (k : Nat) (h : k ∉ us.map Prod.fst) :
    clampRun b θ us k = θ k := by
  induction us generalizing θ with
  | nil => rfl
  | cons u us ih =>
    rw [List.map_cons, List.mem_cons, not_or] at h
    show clampRun b (clampUpdate b θ u.1 u.2) us k = _
    rw [ih _ h.2, clampUpdate, if_neg h.1]

theorem clampRun_get (b : Bounds R) (us : List (Nat × R)) (θ : Nat → R) (hn : (us.map Prod.fst).Nodup) (u : Nat × R)
    (h : u ∈ us) : clampRun b θ us u.1 = clamp b u.1 u.2 := by
  induction us generalizing θ with
  | nil => cases h
  | cons v us ih =>
    rw [List.map_cons, List.nodup_cons] at hn
    show clampRun b (clampUpdate b θ v.1 v.2) us u.1 = _
    rcases List.mem_cons.1 h with rfl | h
    · rw [clampRun_other b us _ _ hn.1, clampUpdate, if_pos rfl]
    · exact ih _ hn.2 h

theorem clamp_self {b : Bounds R} {k : Nat} {v : R} (hb : b.lower k ≤ b.upper k) :
    clamp b k v = v ↔ b.lower k ≤ v ∧ v ≤ b.upper k := by
  unfold clamp
  by_cases h1 : v < b.lower k
  · simp only [if_pos h1, if_neg (not_lt.2 hb)]
    exact ⟨fun e => absurd h1 (e ▸ lt_irrefl _), fun h => absurd h1 (not_lt.2 h.1)⟩
  · simp only [if_neg h1]
    by_cases h2 : b.upper k < v
    · simp only [if_pos h2]
      exact ⟨fun e => absurd h2 (e ▸ lt_irrefl _), fun h => absurd h2 (not_lt.2 h.2)⟩
    · simp only [if_neg h2, true_iff]
      exact ⟨not_lt.1 h1, not_lt.1 h2⟩

theorem colOf_lt {us : List UParam} (hpos : ∀ p ∈ us, 0 < p.size) {i j : Nat} (hij : i < j) (hj : j < us.length) :
    colOf us i < colOf us j := by
  have hs := colOf_succ us i (by omega)
  have := hpos _ (List.getElem_mem (show i < us.length by omega))
  have := colOf_mono us (i := i + 1) (j := j) (by omega) (by omega)
  omega

theorem exampleCalls_get {pr : R → R} {ps : List (EPar R)} {cs : List (UpdCall R)} (h : exampleCalls pr ps = some cs) :
    cs.length = ps.length ∧ ∀ j (hj : j < ps.length) (hj' : j < cs.length), exampleCall pr (ps[j]) = some (cs[j]) := by
  unfold exampleCalls at h
  induction ps generalizing cs with
  | nil => cases h; exact ⟨rfl, fun j hj => by simp at hj⟩
  | cons p ps ih =>
    rw [List.mapM_cons] at h
    obtain ⟨d, hd, h⟩ := Option.bind_eq_some_iff.1 h
    obtain ⟨ds, hds, h⟩ := Option.bind_eq_some_iff.1 h
    cases h
    obtain ⟨i1, i2⟩ := ih hds
    refine ⟨by simp [i1], ?_⟩
    intro j hj hj'
    cases j with
    | zero => exact hd
    | succ j => exact i2 j (by simpa using hj) (by simpa using hj')

/-- **C61**, explicit mode: the vector of parameters is that of generation when the example program solves exactly if the
first entry of every parameter lies between its bounds. -/
theorem C61_explicit_iff (b : Bounds R) (hb : ∀ k, b.lower k ≤ b.upper k) (pr : R → R) (ps : List (EPar R))
    (hpos : ∀ p ∈ ps, 0 < p.upar.size) (θ : Nat → R) (hθ : ∀ (k : Nat) v, (startVec pr ps)[k]? = some v → θ k = v)
    (cs : List (UpdCall R)) (hcs : exampleCalls pr ps = some cs) :
    exampleExplicit b θ (ps.map EPar.upar) cs = θ ↔
      ∀ j < ps.length, b.lower (colOf (ps.map EPar.upar) j) ≤ θ (colOf (ps.map EPar.upar) j) ∧
        θ (colOf (ps.map EPar.upar) j) ≤ b.upper (colOf (ps.map EPar.upar) j) := by
  obtain ⟨hl, hg⟩ := exampleCalls_get hcs
  have hpos' : ∀ p ∈ ps.map EPar.upar, 0 < p.size := by
    intro p hp; obtain ⟨q, hq, rfl⟩ := List.mem_map.1 hp; exact hpos q hq
  have hval : ∀ j (hj : j < ps.length), (cs[j]'(by omega)).idx = 0 ∧
      (cs[j]'(by omega)).val = θ (colOf (ps.map EPar.upar) j) := by
    intro j hj
    have hc := hg j hj (by omega)
    unfold exampleCall at hc
    rw [writable_block] at hc
    obtain ⟨v, hv, e⟩ := Option.map_eq_some_iff.1 hc
    rw [← e]
    refine ⟨rfl, ?_⟩
    have hh := startVec_block pr ps j hj 0 (by rw [block_length]; exact hpos _ (List.getElem_mem hj))
    rw [← List.head?_eq_getElem?, hv, Option.map_some] at hh
    exact (hθ _ _ hh).symm
  have hmem : ∀ u, u ∈ (cs.zipIdx.map fun c => (colOf (ps.map EPar.upar) c.2 + c.1.idx, c.1.val)) ↔
      ∃ j < ps.length, u = (colOf (ps.map EPar.upar) j, θ (colOf (ps.map EPar.upar) j)) := by
    intro u
    rw [List.mem_map]
    constructor
    · rintro ⟨⟨c, j⟩, hc, rfl⟩
      rw [List.mk_mem_zipIdx_iff_getElem?] at hc
      obtain ⟨hj, rfl⟩ := List.getElem?_eq_some_iff.1 hc
      have := hval j (by omega)
      exact ⟨j, by omega, by rw [this.1, this.2, Nat.add_zero]⟩
    · rintro ⟨j, hj, rfl⟩
      have := hval j hj
      refine ⟨(cs[j]'(by omega), j), ?_, by rw [this.1, this.2, Nat.add_zero]⟩
      rw [List.mk_mem_zipIdx_iff_getElem?]
      exact List.getElem?_eq_getElem (by omega)
  have hnd : ((cs.zipIdx.map fun c => (colOf (ps.map EPar.upar) c.2 + c.1.idx, c.1.val)).map Prod.fst).Nodup := by
    have e : (cs.zipIdx.map fun c => (colOf (ps.map EPar.upar) c.2 + c.1.idx, c.1.val)).map Prod.fst
        = (List.range ps.length).map (colOf (ps.map EPar.upar)) := by
      apply List.ext_getElem
      · simp [hl]
      · intro i h1 h2
        have hi : i < ps.length := by simpa using h2
        simp [(hval i hi).1]
    rw [e]
    refine List.Nodup.map_on ?_ List.nodup_range
    intro i hi j hj e
    rw [List.mem_range] at hi hj
    by_contra hne
    rcases Nat.lt_or_gt_of_ne hne with h | h
    · have := colOf_lt hpos' h (by simpa using hj); omega
    · have := colOf_lt hpos' h (by simpa using hi); omega
  unfold exampleExplicit
  constructor
  · intro h j hj
    have := clampRun_get b _ θ hnd _ ((hmem _).2 ⟨j, hj, rfl⟩)
    rw [h] at this
    exact (clamp_self (hb _)).1 this.symm
  · intro h
    funext k
    by_cases hk : k ∈ (cs.zipIdx.map fun c => (colOf (ps.map EPar.upar) c.2 + c.1.idx, c.1.val)).map Prod.fst
    · obtain ⟨u, hu, rfl⟩ := List.mem_map.1 hk
      rw [clampRun_get b _ θ hnd u hu]
      obtain ⟨j, hj, rfl⟩ := (hmem u).1 hu
      exact (clamp_self (hb _)).2 (h j hj)
    · exact clampRun_other b _ θ k hk
end

/-! ### Non-trivial instances -/

/-- A 2×2 matrix, a vector of length 3 and a number, printed with rounding to even numbers (in place of 20 digits). -/
def exEPars : List (EPar Int) :=
  [⟨"M", [2, 2], fun r => match r with | [i, j] => 10 * i + j + 3 | _ => 0⟩,
   ⟨"v", [3], fun r => match r with | [i] => i + 7 | _ => 0⟩, ⟨"s", [], fun _ => 5⟩]

example : startVec (fun x => 2 * (x / 2)) exEPars = [2, 12, 4, 14, 6, 8, 8, 4] := by decide
example : (exampleCalls (fun x => 2 * (x / 2)) exEPars).map (·.map fun c => (c.name, c.idx, c.val))
    = some [("M", 0, 2), ("v", 0, 6), ("s", 0, 4)] := by decide
example : WFInput (exEPars.map EPar.upar) (Kind.canonIds .osqp true)
    (fun c => if c = .q then some ⟨⟨2, 9, [(0, 0, 1), (1, 7, 2)]⟩, fun _ => 1⟩ else none) :=
  ⟨by decide, by decide, by intro c m h; split at h <;> cases h; rfl, by
    intro c h; split
    · rename_i e; subst e; exact absurd (by decide) h
    · rfl⟩

end Verif.Props
