import Verif.Lemmas.GradMemF
/-!
Checked runs: whole calls, sequences of calls, and the generated workspace.
-/
namespace Verif.Lemmas.GradMem
open Verif.Model.GradMem Verif.Spec.GradMem
open Verif.Model.Factor (reserved maskSize maskIndex)
open Verif.Spec.Factor (Valid)

variable {R : Type} {n N NP : Nat} {d : Patterns} {s : St R} {F : Flops R}

theorem rest_ok {Q : Qdldl R} {M : Maps R} (hQ : QdldlOK N d Q) (hp : Problem n N d) (hM : MapsOK n N NP d M) {x y : List R}
    (hx : x.length = n) (hy : y.length = N - n) (h : Sizes n N NP d s) :
    Ok (fun t => KL n N NP d s.L s.init t) (do
      let s ← linsolve F Q.solve n N s
      let s ← fill F n N x y s
      uncanon F n NP M s) := by
  refine (linsolve_ok hQ hp ⟨h, rfl, rfl⟩).bind fun t ht => ?_
  refine (fill_ok hp hx hy ht).bind fun u hu => ?_
  exact uncanon_ok hM hu

theorem gradient_ok {Q : Qdldl R} {M : Maps R} (hF : Finite F) (hQ : QdldlOK N d Q) (hp : Problem n N d) (hM : MapsOK n N NP d M)
    {c : Call R} (hc : OpOK n N d (.grad c)) (h : Between n N NP d s) :
    Ok (fun t => Inv n N NP d t) (gradient F Q n N NP M c s) := by
  obtain ⟨hP, hA, hx, hy⟩ := hc
  unfold gradient
  refine (prologue_ok hQ hp hP hA h).bind fun t ht => ?_
  refine Ok.bind (P := fun u => Inv n N NP d u) (each_ok _ _ _ _ ht.1 fun i _ hi u hu => activeStep_ok hF hp hy hi hu) fun u hu => ?_
  exact (rest_ok hQ hp hM hx hy hu.sz).mono fun v hv => hv.inv hu rfl

theorem step_ok {Q : Qdldl R} {M : Maps R} (hF : Finite F) (hQ : QdldlOK N d Q) (hp : Problem n N d) (hM : MapsOK n N NP d M)
    {op : Op R} (hc : OpOK n N d op) (h : Between n N NP d s) : Ok (Between n N NP d) (step F Q n N NP M s op) := by
  cases op with
  | delta k v =>
    refine (wr_len .dx s.dx k v (by rw [h.1.dx]; exact hc)).bind fun dx hdx => ?_
    exact Ok.pure ⟨{ h.1 with dx := hdx.trans h.1.dx }, fun hi =>
      ⟨{ h.1 with dx := hdx.trans h.1.dx }, (h.2 hi).Lp, (h.2 hi).Li, (h.2 hi).nnz⟩⟩
  | grad c => exact (gradient_ok hF hQ hp hM hc h).mono fun t ht => ⟨ht.sz, fun _ => ht⟩

theorem run_ok {Q : Qdldl R} {M : Maps R} (hF : Finite F) (hQ : QdldlOK N d Q) (hp : Problem n N d) (hM : MapsOK n N NP d M) :
    ∀ (ops : List (Op R)) (s : St R), (∀ op ∈ ops, OpOK n N d op) → Between n N NP d s →
    Ok (Between n N NP d) (run F Q n N NP M s ops) := by
  intro ops
  induction ops with
  | nil => intro s _ h; exact Ok.pure h
  | cons op ops ih =>
    intro s ho h
    unfold run
    rw [List.foldlM_cons]
    exact (step_ok hF hQ hp hM (ho op List.mem_cons_self) h).bind fun t ht =>
      ih t (fun o hm => ho o (List.mem_cons_of_mem _ hm)) ht

/-! ### arbitrary arithmetic -/

theorem Inv.inw (hp : Problem n N d) (h : Inv n N NP d s) : Inw n N NP d s := by
  have e : ∀ k < d.iL.length, ix s.L.i k = ix d.iL k := fun k hk => h.ix_eq hk
  refine ⟨h.sz, ?_⟩
  have hpp : (shape s.L).p = ix d.pL := by show ix s.L.p = _; rw [h.Lp]
  have lt : ∀ c < N, ∀ k, k < ix d.pL (c + 1) → k < d.iL.length := fun c hc k hk => (hp.sym.lines.entry hc hk).1
  refine ⟨?_, ?_, ?_, ?_, ?_⟩
  · rw [hpp]; exact hp.sym.zero
  · rw [hpp]; exact hp.sym.lines.mono
  · rw [hpp]; exact hp.sym.last.trans h.nnz.symm
  · rw [hpp]
    intro c hc k h1 h2
    show ix s.L.i k < ix s.L.i (k + 1)
    rw [e k (lt c hc k (by omega)), e (k + 1) (lt c hc _ h2)]
    exact hp.sym.sorted c hc k h1 h2
  · rw [hpp]
    intro c hc k h1 h2
    show c < ix s.L.i k ∧ ix s.L.i k < N
    rw [e k (lt c hc k h2)]
    exact ⟨hp.sym.lower c hc k h1 h2, (hp.sym.lines.entry hc h2).2⟩

/-- The state between calls with arbitrary arithmetic. -/
def Kempt (n N NP : Nat) (d : Patterns) (s : St R) : Prop :=
  Sizes n N NP d s ∧ (s.init = false → Inw n N NP d s)

theorem prologue_any {Q : Qdldl R} (hQ : QdldlOK N d Q) (hp : Problem n N d) {c : Call R} (hP : HasPat d.pP d.iP c.P)
    (hA : HasPat d.pA d.iA c.A) (h : Kempt n N NP d s)
    (hn : s.init = false → (c.outP || c.outA) = true → s.L.nnz = d.iL.length) :
    Ok (fun t => Inw n N NP d t) (prologue F Q.factor n N c s) := by
  unfold prologue
  refine Ok.bind (P := Kept n N NP d s) ?_ fun t ht => ?_
  · unfold refreshP
    split
    · exact pToK_ok hp hP h.1
    · exact Ok.pure ⟨h.1, rfl, rfl⟩
  refine Ok.bind (P := Kept n N NP d s) ?_ fun u hu => ?_
  · unfold refreshA
    split
    · exact (aToK_ok hp hA ht.sz).mono fun u hu => ⟨hu.sz, hu.init.trans ht.init, hu.L.trans ht.L⟩
    · exact Ok.pure ht
  by_cases hi : u.init = true
  · rw [if_pos hi]
    have hs : Sizes n N NP d (symbolic Q.factor u) := { hu.sz with }
    refine (numeric_ok hQ hp hs (by show (Q.factor u.K).i.length = _; rw [hQ.i _ hu.sz.K])).bind fun v hv => ?_
    refine (writeMask_ok hp hv.1).bind fun w hw => ?_
    have hw' : Inv n N NP d { w with init := false } := ⟨{ hw.sz with }, hw.Lp, hw.Li, hw.nnz⟩
    exact Ok.pure (hw'.inw hp)
  · rw [if_neg hi]
    have hfi : s.init = false := by rw [← hu.init]; simpa using hi
    split
    · rename_i hout
      refine (numeric_ok hQ hp hu.sz (by rw [hu.L]; exact hn hfi hout)).bind fun v hv => ?_
      refine (fillWith_ok .a 0 (N - n) 1 v.a (by rw [hv.1.sz.a])).bind fun a ha => ?_
      exact Ok.pure ((hv.1.setA ha.1).inw hp)
    · exact Ok.pure ((h.2 hfi).of hu.sz (by rw [hu.L]) (by rw [hu.L]) (by rw [hu.L]))

theorem gradient_any {Q : Qdldl R} {M : Maps R} (F : Flops R) (hQ : QdldlOK N d Q) (hp : Problem n N d) (hM : MapsOK n N NP d M)
    {c : Call R} (hc : OpOK n N d (.grad c)) (h : Kempt n N NP d s)
    (hn : s.init = false → (c.outP || c.outA) = true → s.L.nnz = d.iL.length) :
    Ok (fun t => Inw n N NP d t) (gradient F Q n N NP M c s) := by
  obtain ⟨hP, hA, hx, hy⟩ := hc
  unfold gradient
  refine (prologue_any hQ hp hP hA h hn).bind fun t ht => ?_
  refine Ok.bind (P := fun u => Inw n N NP d u) (each_ok _ _ _ _ ht fun i _ hi u hu => activeStep_any F hp hy hi hu) fun u hu => ?_
  exact (rest_ok hQ hp hM hx hy hu.sz).mono fun v hv => hu.of hv.sz (by rw [hv.L]) (by rw [hv.L]) (by rw [hv.L])

theorem run_any {Q : Qdldl R} {M : Maps R} (F : Flops R) (hQ : QdldlOK N d Q) (hp : Problem n N d) (hM : MapsOK n N NP d M) :
    ∀ (ops : List (Op R)) (s : St R), (∀ op ∈ ops, OpOK n N d op ∧ Unrefreshed op) → Kempt n N NP d s →
    Ok (Kempt n N NP d) (run F Q n N NP M s ops) := by
  intro ops
  induction ops with
  | nil => intro s _ h; exact Ok.pure h
  | cons op ops ih =>
    intro s ho h
    unfold run
    rw [List.foldlM_cons]
    refine Ok.bind (P := Kempt n N NP d) ?_ fun t ht => ih t (fun o hm => ho o (List.mem_cons_of_mem _ hm)) ht
    obtain ⟨hc, hf⟩ := ho op List.mem_cons_self
    cases op with
    | delta k v =>
      refine (wr_len .dx s.dx k v (by rw [h.1.dx]; exact hc)).bind fun dx hdx => ?_
      exact Ok.pure ⟨{ h.1 with dx := hdx.trans h.1.dx }, fun hi =>
        (h.2 hi).of { h.1 with dx := hdx.trans h.1.dx } rfl rfl rfl⟩
    | grad c =>
      refine (gradient_any F hQ hp hM hc h fun _ hout => ?_).mono fun t ht => ⟨ht.sz, fun _ => ht⟩
      rw [hf.1, hf.2] at hout
      cases hout

/-! ### the generated workspace -/

theorem ix_map_range (m : Nat) (f : Nat → Nat) {k : Nat} (hk : k < m) : ix ((List.range m).map f) k = f k := by
  unfold ix
  rw [List.getD_eq_getElem?_getD, List.getElem?_map, List.getElem?_range hk]
  rfl

theorem compress_lines {lines : Nat → List (Nat × R)} {bound : Nat} (hb : ∀ c < N, ∀ e ∈ lines c, e.1 < bound) :
    Lines N bound (compress N lines).p (compress N lines).i := by
  have hp : ∀ c ≤ N, ix (compress N lines).p c = ((List.range c).flatMap lines).length := fun c hc =>
    ix_map_range (N + 1) _ (by omega)
  refine ⟨by show ((List.range (N + 1)).map _).length = _; rw [List.length_map, List.length_range], fun c hc => ?_, ?_, fun k hk => ?_⟩
  · rw [hp c (by omega), hp (c + 1) hc, List.range_succ, List.flatMap_append, List.length_append]
    omega
  · rw [hp N (le_refl _)]
    show _ ≤ (((List.range N).flatMap lines).map Prod.fst).length
    rw [List.length_map]
  · have hk' : k < (((List.range N).flatMap lines).map Prod.fst).length := hk
    have hm : ix (compress N lines).i k ∈ ((List.range N).flatMap lines).map Prod.fst := by
      show ix (((List.range N).flatMap lines).map Prod.fst) k ∈ _
      unfold ix
      rw [List.getD_eq_getElem?_getD, List.getElem?_eq_getElem hk']
      exact List.getElem_mem hk'
    rw [List.mem_map] at hm
    obtain ⟨e, he, hee⟩ := hm
    rw [List.mem_flatMap] at he
    obtain ⟨c, hc, hce⟩ := he
    rw [← hee]
    exact hb c (List.mem_range.1 hc) e hce

theorem compress_len (lines : Nat → List (Nat × R)) : (compress N lines).x.length = (compress N lines).i.length := by
  show (List.map _ _).length = (List.map _ _).length
  rw [List.length_map, List.length_map]

theorem lineOf_lt {M : Csc R} {lines bound : Nat} (h : Lines lines bound M.p M.i) {c : Nat} (hc : c < lines) :
    ∀ e ∈ lineOf F M c, e.1 < bound := by
  intro e he
  unfold lineOf at he
  rw [List.mem_map] at he
  obtain ⟨k, hk, rfl⟩ := he
  rw [List.mem_range'_1] at hk
  have hk' : ix M.p c ≤ k ∧ k < ix M.p c + (ix M.p (c + 1) - ix M.p c) := hk
  exact (h.entry hc (k := k) (by omega)).2

theorem rowOf_lt (M : Csc R) (r : Nat) : ∀ e ∈ rowOf F n M r, e.1 < n := by
  intro e he
  unfold rowOf at he
  rw [List.mem_flatMap] at he
  obtain ⟨c, hc, he⟩ := he
  rw [List.mem_map] at he
  obtain ⟨e', _, rfl⟩ := he
  exact List.mem_range.1 hc

theorem plusDiag_lt (P : Csc R) (c : Nat) : ∀ e ∈ plusDiag F n P c, e.1 < n := by
  intro e he
  unfold plusDiag at he
  rw [List.mem_filterMap] at he
  obtain ⟨r, hr, he⟩ := he
  simp only at he
  generalize (if r = c then F.add (cellOf F P r c) F.eps else cellOf F P r c) = v at he
  split at he
  · cases he
  · rw [Option.some.injEq] at he
    rw [← he]
    exact List.mem_range.1 hr

theorem kInit_lines (hnN : n ≤ N) (P A : Csc R) : Lines N N (kInit F n N P A).p (kInit F n N P A).i := by
  refine compress_lines fun c hc e he => ?_
  split at he
  · exact lt_of_lt_of_le (plusDiag_lt P c e he) hnN
  · rw [List.mem_append] at he
    rcases he with he | he
    · exact lt_of_lt_of_le (rowOf_lt A _ e he) hnN
    · rw [List.mem_singleton] at he
      rw [he]
      exact hc

theorem kInit_diag (P A : Csc R) {c : Nat} (h1 : n ≤ c) (h2 : c < N) :
    ix (kInit F n N P A).p c < ix (kInit F n N P A).p (c + 1) := by
  unfold kInit compress
  simp only
  rw [ix_map_range (N + 1) _ (show c < N + 1 by omega), ix_map_range (N + 1) _ (show c + 1 < N + 1 by omega), List.range_succ,
    List.flatMap_append, List.length_append, List.flatMap_singleton, if_neg (show ¬ c < n by omega), List.length_append]
  simp

theorem ktInit_lines {P A : Csc R} (hnN : n ≤ N) (hA : Lines n (N - n) A.p A.i) :
    Lines N N (ktInit F n N P A).p (ktInit F n N P A).i := by
  refine compress_lines fun c hc e he => ?_
  split at he
  · rename_i hcn
    rw [List.mem_append] at he
    rcases he with he | he
    · exact lt_of_lt_of_le (rowOf_lt P _ e he) hnN
    · rw [List.mem_map] at he
      obtain ⟨e', he', rfl⟩ := he
      have := lineOf_lt (F := F) hA hcn e' he'
      show n + e'.1 < N
      omega
  · exact lt_of_lt_of_le (rowOf_lt A _ e he) hnN

theorem reserved_len : ((List.range N).flatMap fun c => List.range' (c + 1) (N - c - 1)).length = reserved N := by
  unfold reserved
  have key : ∀ m, ((List.range m).flatMap fun c => List.range' (c + 1) (N - c - 1)).length = Verif.Model.Factor.reservedPtr N m := by
    intro m
    induction m with
    | zero => rfl
    | succ m ih =>
      rw [List.range_succ, List.flatMap_append, List.length_append, ih, List.flatMap_singleton, List.length_range']
      rfl
  exact key N

theorem generated_sizes {K Kt P A : Csc R} (hK : HasPat d.pK d.iK K) (hKt : HasPat d.pKt d.iKt Kt) (hP : HasPat d.pP d.iP P)
    (hA : HasPat d.pA d.iA A) : Sizes n N NP d (generated F n N NP K Kt P A) := by
  unfold generated
  constructor <;> try simp only [List.length_replicate, List.length_map, List.length_range]
  · exact reserved_len
  · exact hK
  · exact hKt
  · exact ⟨hP.p, hP.i, by show (List.replicate _ _).length = _; rw [List.length_replicate]; exact hP.x⟩
  · exact ⟨hA.p, hA.i, by show (List.replicate _ _).length = _; rw [List.length_replicate]; exact hA.x⟩

end Verif.Lemmas.GradMem
