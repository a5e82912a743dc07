import Verif.Lemmas.GradMemC
/-!
Checked runs: matrices, linear system and gradients.
-/
namespace Verif.Lemmas.GradMem
open Verif.Model.GradMem Verif.Spec.GradMem
open Verif.Model.Factor (reserved maskSize maskIndex)

variable {R : Type} {n N NP : Nat} {d : Patterns} {s : St R} {F : Flops R}

theorem setEntry_ok (m : Mat) {lines bound line : Nat} {p i : List Nat} (hl : Lines lines bound p i) (h : line < lines) (t : Nat) (v : R)
    {M : Csc R} (hM : HasPat p i M) : Ok (fun M' => HasPat p i M') (setEntry m line t v M) := by
  unfold setEntry
  refine (rd_ix (.p m) M.p line (by rw [hM.p, hl.len]; omega)).bind fun lo hlo => ?_
  refine (rd_ix (.p m) M.p (line + 1) (by rw [hM.p, hl.len]; omega)).bind fun hi hhi => ?_
  rw [hM.p] at hlo hhi
  subst hlo hhi
  refine eachBreak_ok (fun M' => HasPat p i M') _ _ hM fun k hk M hM => ?_
  rw [List.mem_range'_1] at hk
  have he := hl.entry h (k := k) (by omega)
  refine (rd_any (.i m) _ k (by rw [hM.i]; exact he.1)).bind fun j _ => ?_
  split
  · refine (wr_len (.x m) _ k _ (by rw [hM.x]; exact he.1)).bind fun x hx => ?_
    exact Ok.pure ⟨hM.p, hM.i, hx.trans hM.x⟩
  · exact Ok.pure hM

/-- What refreshing the KKT matrices keeps. -/
structure Kept (n N NP : Nat) (d : Patterns) (s t : St R) : Prop where
  sz : Sizes n N NP d t
  init : t.init = s.init
  L : t.L = s.L

theorem pToK_ok (hp : Problem n N d) {P : Csc R} (hP : HasPat d.pP d.iP P) (h : Sizes n N NP d s) :
    Ok (Kept n N NP d s) (pToK F n P s) := by
  have hnN := hp.nN
  refine each_ok _ _ _ _ ⟨h, rfl, rfl⟩ fun col _ hc t ht => ?_
  refine (rd_ix (.p .P) P.p col (by rw [hP.p, hp.P.len]; omega)).bind fun lo hlo => ?_
  refine (rd_ix (.p .P) P.p (col + 1) (by rw [hP.p, hp.P.len]; omega)).bind fun hi hhi => ?_
  rw [hP.p] at hlo hhi
  subst hlo hhi
  refine each_ok _ _ _ _ ht fun k _ hk t ht => ?_
  have he := hp.P.entry hc hk
  refine (rd_ix (.i .P) P.i k (by rw [hP.i]; exact he.1)).bind fun row hrow => ?_
  rw [hP.i] at hrow
  refine (rd_any (.x .P) P.x k (by rw [hP.x]; exact he.1)).bind fun v _ => ?_
  refine (setEntry_ok .K hp.K (show col < N by omega) _ _ ht.sz.K).bind fun K hK => ?_
  refine (setEntry_ok .Kt hp.Kt (show row < N by omega) _ _ ht.sz.Kt).bind fun Kt hKt => ?_
  exact Ok.pure ⟨{ ht.sz with K := hK, Kt := hKt }, ht.init, ht.L⟩

theorem aToK_ok (hp : Problem n N d) {A : Csc R} (hA : HasPat d.pA d.iA A) (h : Sizes n N NP d s) :
    Ok (Kept n N NP d s) (aToK n A s) := by
  have hnN := hp.nN
  refine each_ok _ _ _ _ ⟨h, rfl, rfl⟩ fun col _ hc t ht => ?_
  refine (rd_ix (.p .A) A.p col (by rw [hA.p, hp.A.len]; omega)).bind fun lo hlo => ?_
  refine (rd_ix (.p .A) A.p (col + 1) (by rw [hA.p, hp.A.len]; omega)).bind fun hi hhi => ?_
  rw [hA.p] at hlo hhi
  subst hlo hhi
  refine each_ok _ _ _ _ ht fun k _ hk t ht => ?_
  have he := hp.A.entry hc hk
  refine (rd_ix (.i .A) A.i k (by rw [hA.i]; exact he.1)).bind fun row hrow => ?_
  rw [hA.i] at hrow
  refine (rd_any (.x .A) A.x k (by rw [hA.x]; exact he.1)).bind fun v _ => ?_
  refine (setEntry_ok .K hp.K (show n + row < N by omega) _ _ ht.sz.K).bind fun K hK => ?_
  refine (setEntry_ok .Kt hp.Kt (show col < N by omega) _ _ ht.sz.Kt).bind fun Kt hKt => ?_
  refine (setEntry_ok .Kt hp.Kt (show n + row < N by omega) _ _ hKt).bind fun Kt' hKt' => ?_
  exact Ok.pure ⟨{ ht.sz with K := hK, Kt := hKt' }, ht.init, ht.L⟩

/-- The pattern of a symbolic factorization fits into the reserved storage. -/
theorem fits (hp : Problem n N d) : d.iL.length ≤ reserved N := by
  have hv : Verif.Spec.Factor.Valid N
      ({ p := ix d.pL, i := ix d.iL, x := fun _ => (0 : Nat), nnz := d.iL.length } : Verif.Model.Factor.CscL Nat) :=
    { zero := hp.sym.zero
      mono := hp.sym.lines.mono
      last := hp.sym.last
      sorted := hp.sym.sorted
      lower := fun c hc k h1 h2 => ⟨hp.sym.lower c hc k h1 h2, (hp.sym.lines.entry hc h2).2⟩ }
  exact Verif.Props.C32_fits hv

theorem numeric_ok {Q : Qdldl R} (hQ : QdldlOK N d Q) (hp : Problem n N d) (h : Sizes n N NP d s)
    (hnnz : s.L.nnz = d.iL.length) :
    Ok (fun t => Inv n N NP d t ∧ t.init = s.init) (numeric Q.factor s) := by
  have hf := fits hp
  unfold numeric
  simp only
  rw [hQ.i _ h.K, hQ.x _ h.K, hQ.p _ h.K, if_neg (by rw [h.Li]; omega), if_neg (by rw [h.Lx]; omega)]
  refine Ok.pure ⟨⟨{ h with Lp := ?_, Li := ?_, Lx := ?_, D := hQ.D _ h.K, Dinv := hQ.Dinv _ h.K }, rfl, ⟨_, rfl⟩, hnnz⟩, rfl⟩
  · show d.pL.length = _
    exact hp.sym.lines.len
  · show (d.iL ++ s.L.i.drop d.iL.length).length = _
    rw [List.length_append, List.length_drop, h.Li]
    omega
  · show ((Q.factor s.K).x ++ s.L.x.drop d.iL.length).length = _
    rw [List.length_append, List.length_drop, h.Lx, hQ.x _ h.K]
    omega

theorem writeMask_ok (hp : Problem n N d) (h : Inv n N NP d s) : Ok (fun t => Inv n N NP d t) (writeMask N s) := by
  refine each_ok _ _ _ _ h fun j _ hj t ht => ?_
  refine (rd_Lp hp ht (by omega)).bind fun lo hlo => ?_
  refine (rd_Lp hp ht (by omega)).bind fun hi hhi => ?_
  subst hlo hhi
  refine each_ok _ _ _ _ ht fun k hk1 hk2 t ht => ?_
  refine (rd_Li hp ht (show j < N by omega) hk1 hk2).bind fun i hii => ?_
  have hb := Verif.Props.C31_in_range (N := N) hii.2.1 hii.2.2.1
  refine (wrI_ok .mask _ _ true hb.1 (by rw [ht.sz.mask]; exact hb.2)).bind fun m hm => ?_
  exact Ok.pure (ht.setMask hm)

/-- The state between calls. -/
def Between (n N NP : Nat) (d : Patterns) (s : St R) : Prop :=
  Sizes n N NP d s ∧ (s.init = false → Inv n N NP d s)

theorem prologue_ok {Q : Qdldl R} (hQ : QdldlOK N d Q) (hp : Problem n N d) {c : Call R} (hP : HasPat d.pP d.iP c.P)
    (hA : HasPat d.pA d.iA c.A) (h : Between n N NP d s) :
    Ok (fun t => Inv n N NP d t ∧ t.init = false) (prologue F Q.factor n N c s) := by
  unfold prologue
  refine Ok.bind (P := Kept n N NP d s) ?_ fun t ht => ?_
  · unfold refreshP
    split
    · exact pToK_ok hp hP h.1
    · exact Ok.pure ⟨h.1, rfl, rfl⟩
  refine Ok.bind (P := Kept n N NP d s) ?_ fun u hu => ?_
  · unfold refreshA
    split
    · exact (aToK_ok hp hA ht.sz).mono fun u hu => ⟨hu.sz, hu.init.trans ht.init, hu.L.trans ht.L⟩
    · exact Ok.pure ht
  by_cases hi : u.init = true
  · rw [if_pos hi]
    have hs : Sizes n N NP d (symbolic Q.factor u) := { hu.sz with }
    refine (numeric_ok hQ hp hs (by show (Q.factor u.K).i.length = _; rw [hQ.i _ hu.sz.K])).bind fun v hv => ?_
    refine (writeMask_ok hp hv.1).bind fun w hw => ?_
    exact Ok.pure ⟨⟨{ hw.sz with }, hw.Lp, hw.Li, hw.nnz⟩, rfl⟩
  · rw [if_neg hi]
    have hfi : u.init = false := by simpa using hi
    have hI := h.2 (hu.init ▸ hfi)
    split
    · refine (numeric_ok hQ hp hu.sz (by rw [hu.L]; exact hI.nnz)).bind fun v hv => ?_
      refine (fillWith_ok .a 0 (N - n) 1 v.a (by rw [hv.1.sz.a])).bind fun a ha => ?_
      exact Ok.pure ⟨hv.1.setA ha.1, hv.2.trans hfi⟩
    · exact Ok.pure ⟨⟨hu.sz, by rw [hu.L]; exact hI.Lp, by rw [hu.L]; exact hI.Li, by rw [hu.L]; exact hI.nnz⟩, hfi⟩

theorem activeStep_ok (hF : Finite F) (hp : Problem n N d) {y : List R} (hy : y.length = N - n) {i : Nat} (hi : i < N - n)
    (h : Inv n N NP d s) : Ok (fun t => Inv n N NP d t) (activeStep F n N y s i) := by
  unfold activeStep
  refine (rd_any .soly _ i (by rw [hy]; exact hi)).bind fun yi _ => ?_
  refine (rd_any .a _ i (by rw [h.sz.a]; exact hi)).bind fun ai _ => ?_
  have hadd := ldlAdd_ok hF hp h (index := n + i) (by omega) (by omega)
  have hdel := ldlDelete_ok F hp h (index := n + i) (by omega)
  have hfin : ∀ (v : Int) (t : St R), Inv n N NP d t →
      Ok (fun t => Inv n N NP d t) (do let a ← wr .a t.a i v; (.ok { t with a := a } : Mem (St R))) := fun v t ht =>
    (wr_len .a _ i _ (by rw [ht.sz.a]; exact hi)).bind fun a ha => Ok.pure (ht.setA ha)
  split
  · split
    · exact hadd.bind fun t ht => hfin _ t ht
    · exact Ok.pure h
  · split
    · split
      · exact hadd.bind fun t ht => hfin _ t ht
      · exact Ok.pure h
    · split
      · exact hdel.bind fun t ht => hfin _ t ht
      · exact Ok.pure h

/-- The factor and the flag are untouched. -/
structure KL (n N NP : Nat) (d : Patterns) (L0 : Csc R) (b : Bool) (s : St R) : Prop where
  sz : Sizes n N NP d s
  L : s.L = L0
  init : s.init = b

variable {L0 : Csc R} {b : Bool}

theorem KL.inv (h : KL n N NP d L0 b s) {t : St R} (ht : Inv n N NP d t) (hL : t.L = L0) : Inv n N NP d s :=
  ⟨h.sz, by rw [h.L, ← hL]; exact ht.Lp, by rw [h.L, ← hL]; exact ht.Li, by rw [h.L, ← hL]; exact ht.nnz⟩

theorem KL.setR (h : KL n N NP d L0 b s) {v : List R} (hv : v.length = s.r.length) : KL n N NP d L0 b { s with r := v } :=
  ⟨{ h.sz with r := hv.trans h.sz.r }, h.L, h.init⟩

theorem KL.setDelta (h : KL n N NP d L0 b s) {v : List R} (hv : v.length = s.delta.length) : KL n N NP d L0 b { s with delta := v } :=
  ⟨{ h.sz with delta := hv.trans h.sz.delta }, h.L, h.init⟩

theorem KL.setRhs (h : KL n N NP d L0 b s) {v : List R} (hv : v.length = s.rhs.length) : KL n N NP d L0 b { s with rhs := v } :=
  ⟨{ h.sz with rhs := hv.trans h.sz.rhs }, h.L, h.init⟩

theorem inactive_ok (h : KL n N NP d L0 b s) {i : Nat} (hi : i < N) : Ok (fun _ => True) (inactive n s.a i) := by
  unfold inactive
  split
  · exact (rd_any .a _ _ (by rw [h.sz.a]; omega)).bind fun v _ => Ok.pure trivial
  · exact Ok.pure trivial

theorem refine_ok {Q : Qdldl R} (hQ : QdldlOK N d Q) (hp : Problem n N d) (h : KL n N NP d L0 b s) :
    Ok (fun t => KL n N NP d L0 b t) (refine F Q.solve n N s) := by
  unfold refine
  refine Ok.bind (P := fun t => KL n N NP d L0 b t) ?_ fun t ht => ?_
  · refine each_ok _ _ _ _ h fun i _ hi t ht => ?_
    refine (rd_any .rhs _ i (by rw [ht.sz.rhs]; exact hi)).bind fun v _ => ?_
    exact (wr_len .delta _ i _ (by rw [ht.sz.delta]; exact hi)).bind fun x hx => Ok.pure (ht.setDelta hx)
  refine Ok.bind (P := fun t => KL n N NP d L0 b t) ?_ fun u hu => ?_
  · refine each_ok _ _ _ _ ht fun i _ hi t ht => ?_
    unfold residRow
    refine (inactive_ok ht hi).bind fun b _ => ?_
    split
    · exact (wr_len .delta _ i _ (by rw [ht.sz.delta]; exact hi)).bind fun x hx => Ok.pure (ht.setDelta hx)
    · refine (rd_Ktp hp ht.sz (by omega)).bind fun lo hlo => ?_
      refine (rd_Ktp hp ht.sz (by omega)).bind fun hi' hhi => ?_
      subst hlo hhi
      refine each_ok _ _ _ _ ht fun k _ hk t ht => ?_
      have he := hp.Kt.entry hi hk
      unfold residEntry
      refine (rd_ix (.i .Kt) _ k (by rw [ht.sz.Kt.i]; exact he.1)).bind fun j hj => ?_
      rw [ht.sz.Kt.i] at hj
      have hjN : j < N := by rw [hj]; exact he.2
      refine (inactive_ok ht hjN).bind fun b _ => ?_
      split
      · exact Ok.pure ht
      · refine (rd_any (.x .Kt) _ k (by rw [ht.sz.Kt.x]; exact he.1)).bind fun x _ => ?_
        refine (rd_any .r _ j (by rw [ht.sz.r]; exact hjN)).bind fun rj _ => ?_
        refine (rd_any .delta _ i (by rw [ht.sz.delta]; exact hi)).bind fun dd _ => ?_
        exact (wr_len .delta _ i _ (by rw [ht.sz.delta]; exact hi)).bind fun x hx => Ok.pure (ht.setDelta hx)
  have hu' := hu.setDelta (hQ.solve u.L u.Dinv u.delta)
  refine each_ok _ _ _ _ hu' fun i _ hi t ht => ?_
  refine (rd_any .r _ i (by rw [ht.sz.r]; exact hi)).bind fun a _ => ?_
  refine (rd_any .delta _ i (by rw [ht.sz.delta]; exact hi)).bind fun b _ => ?_
  exact (wr_len .r _ i _ (by rw [ht.sz.r]; exact hi)).bind fun x hx => Ok.pure (ht.setR hx)

theorem linsolve_ok {Q : Qdldl R} (hQ : QdldlOK N d Q) (hp : Problem n N d) (h : KL n N NP d L0 b s) :
    Ok (fun t => KL n N NP d L0 b t) (linsolve F Q.solve n N s) := by
  have hnN := hp.nN
  unfold linsolve
  refine Ok.bind (P := fun t => KL n N NP d L0 b t) ?_ fun t ht => ?_
  · refine each_ok _ _ _ _ h fun i _ hi t ht => ?_
    refine (rd_any .dx _ i (by rw [ht.sz.dx]; exact hi)).bind fun v _ => ?_
    refine (wr_len .r _ i _ (by rw [ht.sz.r]; omega)).bind fun x hx => ?_
    exact (wr_len .rhs _ i _ (by rw [ht.sz.rhs]; omega)).bind fun y hy => Ok.pure ((ht.setR hx).setRhs hy)
  refine Ok.bind (P := fun t => KL n N NP d L0 b t) ?_ fun u hu => ?_
  · refine each_ok _ _ _ _ ht fun i _ hi t ht => ?_
    refine (wr_len .r _ i _ (by rw [ht.sz.r]; exact hi)).bind fun x hx => ?_
    exact (wr_len .rhs _ i _ (by rw [ht.sz.rhs]; exact hi)).bind fun y hy => Ok.pure ((ht.setR hx).setRhs hy)
  have hu' := hu.setR (hQ.solve u.L u.Dinv u.r)
  exact each_ok _ _ _ _ hu' fun _ _ _ t ht => refine_ok hQ hp ht

theorem fill_ok (hp : Problem n N d) {x y : List R} (hx : x.length = n) (hy : y.length = N - n) (h : KL n N NP d L0 b s) :
    Ok (fun t => KL n N NP d L0 b t) (fill F n N x y s) := by
  have hnN := hp.nN
  unfold fill
  refine Ok.bind (P := fun t => KL n N NP d L0 b t) ?_ fun t ht => ?_
  · refine each_ok _ _ _ _ h fun i _ hi t ht => ?_
    refine (rd_any .r _ i (by rw [ht.sz.r]; omega)).bind fun v _ => ?_
    exact (wr_len .dq _ i _ (by rw [ht.sz.dq]; exact hi)).bind fun x hx =>
      Ok.pure ⟨{ ht.sz with dq := hx.trans ht.sz.dq }, ht.L, ht.init⟩
  refine Ok.bind (P := fun t => KL n N NP d L0 b t) ?_ fun u hu => ?_
  · refine each_ok _ _ _ _ ht fun i _ hi t ht => ?_
    have key : ∀ (v w : R), Ok (fun t => KL n N NP d L0 b t) (do
        let dl ← wr .dl t.dl i v
        let du ← wr .du t.du i w
        (.ok { t with dl := dl, du := du } : Mem (St R))) := fun v w => by
      refine (wr_len .dl _ i _ (by rw [ht.sz.dl]; exact hi)).bind fun a ha => ?_
      exact (wr_len .du _ i _ (by rw [ht.sz.du]; exact hi)).bind fun b hb =>
        Ok.pure ⟨{ ht.sz with dl := ha.trans ht.sz.dl, du := hb.trans ht.sz.du }, ht.L, ht.init⟩
    unfold fillBounds
    refine (rd_any .a _ i (by rw [ht.sz.a]; exact hi)).bind fun ai _ => ?_
    split
    · exact (rd_any .r _ _ (by rw [ht.sz.r]; omega)).bind fun v _ => key _ _
    · split
      · refine (wr_len .dl _ i _ (by rw [ht.sz.dl]; exact hi)).bind fun a ha => ?_
        refine (rd_any .r _ _ (by rw [ht.sz.r]; omega)).bind fun v _ => ?_
        exact (wr_len .du _ i _ (by rw [ht.sz.du]; exact hi)).bind fun b hb =>
          Ok.pure ⟨{ ht.sz with dl := ha.trans ht.sz.dl, du := hb.trans ht.sz.du }, ht.L, ht.init⟩
      · exact key _ _
  refine Ok.bind (P := fun t => KL n N NP d L0 b t) ?_ fun v hv => ?_
  · refine each_ok _ _ _ _ hu fun j _ hj t ht => ?_
    unfold fillP
    refine (rd_ix (.p .dP) _ j (by rw [ht.sz.dP.p, hp.P.len]; omega)).bind fun lo hlo => ?_
    refine (rd_ix (.p .dP) _ (j + 1) (by rw [ht.sz.dP.p, hp.P.len]; omega)).bind fun hi hhi => ?_
    rw [ht.sz.dP.p] at hlo hhi
    subst hlo hhi
    refine each_ok _ _ _ _ ht fun k _ hk t ht => ?_
    have he := hp.P.entry hj hk
    refine (rd_ix (.i .dP) _ k (by rw [ht.sz.dP.i]; exact he.1)).bind fun i hii => ?_
    rw [ht.sz.dP.i] at hii
    have hin : i < n := by rw [hii]; exact he.2
    refine (rd_any .r _ i (by rw [ht.sz.r]; omega)).bind fun ri _ => ?_
    refine (rd_any .solx _ j (by rw [hx]; exact hj)).bind fun xj _ => ?_
    refine (rd_any .solx _ i (by rw [hx]; exact hin)).bind fun xi _ => ?_
    refine (rd_any .r _ j (by rw [ht.sz.r]; omega)).bind fun rj _ => ?_
    exact (wr_len (.x .dP) _ k _ (by rw [ht.sz.dP.x]; exact he.1)).bind fun z hz =>
      Ok.pure ⟨{ ht.sz with dP := ⟨ht.sz.dP.p, ht.sz.dP.i, hz.trans ht.sz.dP.x⟩ }, ht.L, ht.init⟩
  refine each_ok _ _ _ _ hv fun j _ hj t ht => ?_
  unfold fillA
  refine (rd_ix (.p .dA) _ j (by rw [ht.sz.dA.p, hp.A.len]; omega)).bind fun lo hlo => ?_
  refine (rd_ix (.p .dA) _ (j + 1) (by rw [ht.sz.dA.p, hp.A.len]; omega)).bind fun hi hhi => ?_
  rw [ht.sz.dA.p] at hlo hhi
  subst hlo hhi
  refine each_ok _ _ _ _ ht fun k _ hk t ht => ?_
  have he := hp.A.entry hj hk
  refine (rd_ix (.i .dA) _ k (by rw [ht.sz.dA.i]; exact he.1)).bind fun i hii => ?_
  rw [ht.sz.dA.i] at hii
  have him : i < N - n := by rw [hii]; exact he.2
  have hput : ∀ v : R, Ok (fun t => KL n N NP d L0 b t) (do
      let z ← wr (.x .dA) t.dA.x k v
      (.ok { t with dA := { t.dA with x := z } } : Mem (St R))) := fun v =>
    (wr_len (.x .dA) _ k _ (by rw [ht.sz.dA.x]; exact he.1)).bind fun z hz =>
      Ok.pure ⟨{ ht.sz with dA := ⟨ht.sz.dA.p, ht.sz.dA.i, hz.trans ht.sz.dA.x⟩ }, ht.L, ht.init⟩
  refine (rd_any .a _ i (by rw [ht.sz.a]; exact him)).bind fun ai _ => ?_
  split
  · exact hput _
  · refine (rd_any .r _ _ (by rw [ht.sz.r]; omega)).bind fun ri _ => ?_
    refine (rd_any .solx _ j (by rw [hx]; exact hj)).bind fun xj _ => ?_
    refine (rd_any .soly _ i (by rw [hy]; exact him)).bind fun yi _ => ?_
    refine (rd_any .r _ j (by rw [ht.sz.r]; omega)).bind fun rj _ => ?_
    exact hput _

theorem uncanonOne_ok (b : Block R) (m : Arr) (e : List R) (dp : List R) (hb : b.changes = true → BlockOK e.length NP b)
    (hd : dp.length = NP) : Ok (fun v => v.length = NP) (uncanonOne F b m e dp) := by
  unfold uncanonOne
  split
  · rename_i hc
    have hb := hb hc
    refine each_ok (fun v : List R => v.length = NP) _ _ _ hd fun j _ hj v hv => ?_
    refine (rd_ix (.p .map) _ j (by rw [hb.lines.len]; omega)).bind fun lo hlo => ?_
    refine (rd_ix (.p .map) _ (j + 1) (by rw [hb.lines.len]; omega)).bind fun hi hhi => ?_
    subst hlo hhi
    refine each_ok (fun v : List R => v.length = NP) _ _ _ hv fun k _ hk v hv => ?_
    have he := hb.lines.entry hj hk
    refine (rd_ix (.i .map) _ k he.1).bind fun c hcc => ?_
    have hcN : c < v.length := by rw [hv, hcc]; exact he.2
    refine (rd_any .dp _ c hcN).bind fun o _ => ?_
    refine (rd_any (.x .map) _ k (by rw [hb.x]; exact he.1)).bind fun x _ => ?_
    refine (rd_any m _ j (by have := hb.rows; omega)).bind fun w _ => ?_
    exact (wr_len .dp _ c _ hcN).mono fun v' hv' => hv'.trans hv
  · exact Ok.pure hd

theorem uncanon_ok {M : Maps R} (hM : MapsOK n N NP d M) (h : KL n N NP d L0 b s) :
    Ok (fun t => KL n N NP d L0 b t) (uncanon F n NP M s) := by
  unfold uncanon
  refine (fillWith_ok .dp 0 NP F.zero s.dp (by rw [h.sz.dp])).bind fun v0 h0 => ?_
  refine (uncanonOne_ok M.q .dq s.dq v0 (by rw [h.sz.dq]; exact hM.q) (h0.1.trans h.sz.dp)).bind fun v1 h1 => ?_
  refine (uncanonOne_ok M.l .dl s.dl v1 (by rw [h.sz.dl]; exact hM.l) h1).bind fun v2 h2 => ?_
  refine (uncanonOne_ok M.u .du s.du v2 (by rw [h.sz.du]; exact hM.u) h2).bind fun v3 h3 => ?_
  refine (uncanonOne_ok M.P (.x .dP) s.dP.x v3 (by rw [h.sz.dP.x]; exact hM.P) h3).bind fun v4 h4 => ?_
  refine (uncanonOne_ok M.A (.x .dA) s.dA.x v4 (by rw [h.sz.dA.x]; exact hM.A) h4).bind fun v5 h5 => ?_
  refine (fillWith_ok .dx 0 n F.zero s.dx (by rw [h.sz.dx])).bind fun v6 h6 => ?_
  exact Ok.pure ⟨{ h.sz with dp := h5, dx := h6.1.trans h.sz.dx }, h.L, h.init⟩

end Verif.Lemmas.GradMem
