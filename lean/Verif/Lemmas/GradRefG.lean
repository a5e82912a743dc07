import Verif.Lemmas.GradRefF
/-!
Lemmas for C94: canonical gradients, user gradients, whole calls.
-/
namespace Verif.Lemmas.GradRef
open Verif.Model.GradMem Verif.Spec.GradMem Verif.Lemmas.GradMem Verif.Spec.GradRef
open Verif.Model.Factor (upd loop)

variable {R : Type} [Field R] [DecidableEq R] [LT R] [DecidableRel (fun x y : R => x < y)] {sqrt : R → R} {eps tol : R}
  {n N NP : Nat} {d : Patterns} {s : St R}

/-- Replacing the canonical gradients. -/
def fills (s : St R) (dq dl du xP xA : List R) : St R :=
  { s with dq := dq, dl := dl, du := du, dP := { s.dP with x := xP }, dA := { s.dA with x := xA } }

theorem fill_wp' (x y : List R) (s : St R) :
    Wp (fun t => ∃ dq dl du xP xA, t = fills s dq dl du xP xA ∧
      (⟨arr dq, arr dl, arr du, arr xP, arr xA⟩ : Verif.Model.Grad.DCanon R) =
        Verif.Model.Grad.fill n N (flags s.a) (csc s.dP) (csc s.dA) (arr x) (arr y) (arr s.r) (workspace s).g)
      (fill (exact sqrt eps tol) n N x y s) := by
  unfold fill
  refine Wp.bind (P := fun t => ∃ dq, t = fills s dq s.dl s.du s.dP.x s.dA.x ∧
    arr dq = (loop 0 n).foldl (fun d i => upd d i (- arr s.r i)) (arr s.dq)) ?_ ?_
  · refine each_wp (fun (t : St R) (f : Nat → R) => ∃ dq, t = fills s dq s.dl s.du s.dP.x s.dA.x ∧ arr dq = f) 0 n
      ⟨s.dq, rfl, rfl⟩ ?_
    rintro i - - _ _ ⟨dq, rfl, rfl⟩
    refine (rdA _ s.r i).bind fun v hv => ?_
    refine (wrA _ dq i _).bind fun dq' hd => Wp.pure ⟨dq', rfl, ?_⟩
    rw [hd.1, hv]
    rfl
  rintro _ ⟨dq, rfl, hq⟩
  refine Wp.bind (P := fun t => ∃ dl du, t = fills s dq dl du s.dP.x s.dA.x ∧
    arr dl = (loop 0 (N - n)).foldl (fun d i => upd d i (if flags s.a i = -1 then arr s.r (n + i) else 0)) (arr s.dl) ∧
    arr du = (loop 0 (N - n)).foldl (fun d i => upd d i (if flags s.a i = -1 then 0 else if flags s.a i = 1 then arr s.r (n + i) else 0))
      (arr s.du)) ?_ ?_
  · refine (each_wp (fun (t : St R) (f : (Nat → R) × (Nat → R)) => ∃ dl du, t = fills s dq dl du s.dP.x s.dA.x ∧ arr dl = f.1 ∧ arr du = f.2)
      (g := fun f i => (upd f.1 i (if flags s.a i = -1 then arr s.r (n + i) else 0),
        upd f.2 i (if flags s.a i = -1 then 0 else if flags s.a i = 1 then arr s.r (n + i) else 0))) 0 (N - n)
      (t := (arr s.dl, arr s.du)) ⟨s.dl, s.du, rfl, rfl, rfl⟩ ?_).mono ?_
    · rintro i - - _ ⟨f1, f2⟩ ⟨dl, du, rfl, h1, h2⟩
      simp only at h1 h2
      unfold fillBounds
      refine (rdF _ s.a i).bind fun ai hai => ?_
      simp only
      rw [← hai]
      by_cases e1 : ai = -1
      · rw [if_pos e1, if_pos e1, if_pos e1]
        refine (rdA _ s.r (n + i)).bind fun v hv => ?_
        refine (wrA _ dl i _).bind fun dl' hdl => ?_
        refine (wrA _ du i _).bind fun du' hdu => Wp.pure ⟨dl', du', rfl, ?_, ?_⟩
        · rw [hdl.1, hv, h1]
        · rw [hdu.1, h2]; rfl
      · rw [if_neg e1, if_neg e1, if_neg e1]
        by_cases e2 : ai = 1
        · rw [if_pos e2, if_pos e2]
          refine (wrA _ dl i _).bind fun dl' hdl => ?_
          refine (rdA _ s.r (n + i)).bind fun v hv => ?_
          refine (wrA _ du i _).bind fun du' hdu => Wp.pure ⟨dl', du', rfl, ?_, ?_⟩
          · rw [hdl.1, h1]; rfl
          · rw [hdu.1, hv, h2]
        · rw [if_neg e2, if_neg e2]
          refine (wrA _ dl i _).bind fun dl' hdl => ?_
          refine (wrA _ du i _).bind fun du' hdu => Wp.pure ⟨dl', du', rfl, ?_, ?_⟩
          · rw [hdl.1, h1]; rfl
          · rw [hdu.1, h2]; rfl
    · rintro _ ⟨dl, du, rfl, h1, h2⟩
      have split : ∀ (ks : List Nat) (f : (Nat → R) × (Nat → R)) (g1 g2 : Nat → R),
          ks.foldl (fun (f : (Nat → R) × (Nat → R)) i => (upd f.1 i (g1 i), upd f.2 i (g2 i))) f =
          (ks.foldl (fun d i => upd d i (g1 i)) f.1, ks.foldl (fun d i => upd d i (g2 i)) f.2) := by
        intro ks
        induction ks with
        | nil => intro f g1 g2; rfl
        | cons k ks ih => intro f g1 g2; rw [List.foldl_cons, ih]; rfl
      rw [split _ _ (fun i => if flags s.a i = -1 then arr s.r (n + i) else 0)
        (fun i => if flags s.a i = -1 then 0 else if flags s.a i = 1 then arr s.r (n + i) else 0)] at h1 h2
      exact ⟨dl, du, rfl, h1, h2⟩
  rintro _ ⟨dl, du, rfl, hl, hu⟩
  refine Wp.bind (P := fun t => ∃ xP, t = fills s dq dl du xP s.dA.x ∧
    arr xP = (loop 0 n).foldl (fun d j => (loop ((csc s.dP).p j) ((csc s.dP).p (j + 1))).foldl
      (fun d k => upd d k (-(1 / 2) * (arr s.r ((csc s.dP).i k) * arr x j + arr x ((csc s.dP).i k) * arr s.r j))) d) (arr s.dP.x)) ?_ ?_
  · refine each_wp (fun (t : St R) (f : Nat → R) => ∃ xP, t = fills s dq dl du xP s.dA.x ∧ arr xP = f) 0 n ⟨s.dP.x, rfl, rfl⟩ ?_
    rintro j - - _ _ ⟨xP, rfl, rfl⟩
    unfold fillP
    refine (rdA _ s.dP.p j).bind fun lo hlo => ?_
    refine (rdA _ s.dP.p (j + 1)).bind fun hi hhi => ?_
    subst hlo hhi
    refine each_wp (fun (t : St R) (f : Nat → R) => ∃ xP, t = fills s dq dl du xP s.dA.x ∧ arr xP = f)
      (g := fun d k => upd d k (-(1 / 2) * (arr s.r ((csc s.dP).i k) * arr x j + arr x ((csc s.dP).i k) * arr s.r j)))
      _ _ ⟨xP, rfl, rfl⟩ ?_
    rintro k - - _ _ ⟨xP, rfl, rfl⟩
    refine (rdA _ s.dP.i k).bind fun i hi => ?_
    refine (rdA _ s.r i).bind fun ri hri => ?_
    refine (rdA _ x j).bind fun xj hxj => ?_
    refine (rdA _ x i).bind fun xi hxi => ?_
    refine (rdA _ s.r j).bind fun rj hrj => ?_
    refine (wrA _ xP k _).bind fun v hv => Wp.pure ⟨v, rfl, ?_⟩
    rw [hv.1, hri, hxj, hxi, hrj, hi]
    rfl
  rintro _ ⟨xP, rfl, hP⟩
  refine (each_wp (fun (t : St R) (f : Nat → R) => ∃ xA, t = fills s dq dl du xP xA ∧ arr xA = f)
    (g := fun d j => (loop ((csc s.dA).p j) ((csc s.dA).p (j + 1))).foldl
      (fun d k => upd d k (if flags s.a ((csc s.dA).i k) = 0 then 0
        else - (arr s.r (n + (csc s.dA).i k) * arr x j + arr y ((csc s.dA).i k) * arr s.r j))) d) 0 n (t := arr s.dA.x)
      ⟨s.dA.x, rfl, rfl⟩ ?_).mono ?_
  · rintro j - - _ _ ⟨xA, rfl, rfl⟩
    unfold fillA
    refine (rdA _ s.dA.p j).bind fun lo hlo => ?_
    refine (rdA _ s.dA.p (j + 1)).bind fun hi hhi => ?_
    subst hlo hhi
    refine each_wp (fun (t : St R) (f : Nat → R) => ∃ xA, t = fills s dq dl du xP xA ∧ arr xA = f)
      (g := fun d k => upd d k (if flags s.a ((csc s.dA).i k) = 0 then 0
        else - (arr s.r (n + (csc s.dA).i k) * arr x j + arr y ((csc s.dA).i k) * arr s.r j))) _ _ ⟨xA, rfl, rfl⟩ ?_
    rintro k - - _ _ ⟨xA, rfl, rfl⟩
    refine (rdA _ s.dA.i k).bind fun i hi => ?_
    refine (rdF _ s.a i).bind fun ai hai => ?_
    have hi' : (csc s.dA).i k = i := hi.symm
    rw [hi', ← hai]
    by_cases e : ai = 0
    · rw [if_pos e, if_pos e]
      refine (wrA _ xA k _).bind fun v hv => Wp.pure ⟨v, rfl, hv.1⟩
    · rw [if_neg e, if_neg e]
      refine (rdA _ s.r (n + i)).bind fun ri hri => ?_
      refine (rdA _ x j).bind fun xj hxj => ?_
      refine (rdA _ y i).bind fun yi hyi => ?_
      refine (rdA _ s.r j).bind fun rj hrj => ?_
      refine (wrA _ xA k _).bind fun v hv => Wp.pure ⟨v, rfl, ?_⟩
      rw [hv.1, hri, hxj, hyi, hrj]
      rfl
  · rintro _ ⟨xA, rfl, hA⟩
    refine ⟨dq, dl, du, xP, xA, rfl, ?_⟩
    rw [hq, hl, hu, hP, hA]
    rfl

theorem fill_congr {P P' A A' : Verif.Model.Factor.CscL R} (a : Nat → Int) (x y r : Nat → R) (g : Verif.Model.Grad.DCanon R) (h1 : P.p = P'.p)
    (h2 : P.i = P'.i) (h3 : A.p = A'.p) (h4 : A.i = A'.i) :
    Verif.Model.Grad.fill n N a P A x y r g = Verif.Model.Grad.fill n N a P' A' x y r g := by
  unfold Verif.Model.Grad.fill
  rw [h1, h2, h3, h4]

/-! ### user gradients -/

theorem sumFold_wp {f : List R → Nat → Mem (List R)} (e : Nat → Nat → R) (lo hi : Nat) (v : List R)
    (hf : ∀ k, lo ≤ k → k < hi → ∀ v, Wp (fun v' => arr v' = fun c => arr v c + e k c) (f v k)) :
    Wp (fun v' => arr v' = fun c => arr v c + ∑ k ∈ Finset.Ico lo hi, e k c) (each lo hi v f) := by
  by_cases h : lo ≤ hi
  · refine count_wp (fun k v' => arr v' = fun c => arr v c + ∑ k ∈ Finset.Ico lo k, e k c) lo hi h (by simp) ?_
    intro k h1 h2 v' hv
    refine (hf k h1 h2 v').mono fun v'' hv' => ?_
    rw [hv', hv]
    funext c
    rw [Finset.sum_Ico_succ_top h1, add_assoc]
  · unfold each
    rw [show hi - lo = 0 by omega, Finset.Ico_eq_empty (by omega)]
    exact Wp.pure (by simp)

theorem uncanonOne_wp (b : Block R) (m : Arr) (e dp : List R) :
    Wp (fun v => arr v = fun c => arr dp c + transposed b (arr e) c) (uncanonOne (exact sqrt eps tol) b m e dp) := by
  unfold uncanonOne transposed
  by_cases hc : b.changes = true
  · rw [if_pos hc]
    simp only [if_pos hc]
    have := sumFold_wp (f := fun dp j => do
      let lo ← rd (.p .map) b.map.p j
      let hi ← rd (.p .map) b.map.p (j + 1)
      each lo hi dp fun dp k => do
        let c ← rd (.i .map) b.map.i k
        let o ← rd .dp dp c
        let x ← rd (.x .map) b.map.x k
        let v ← rd m e j
        wr .dp dp c ((exact sqrt eps tol).add o ((exact sqrt eps tol).mul x v)))
      (fun j c => ∑ k ∈ Finset.Ico (arr b.map.p j) (arr b.map.p (j + 1)), if arr b.map.i k = c then arr b.map.x k * arr e j else 0)
      0 b.rows dp ?_
    · rw [Finset.range_eq_Ico]
      exact this
    intro j _ _ v
    refine (rdA _ b.map.p j).bind fun lo hlo => ?_
    refine (rdA _ b.map.p (j + 1)).bind fun hi hhi => ?_
    subst hlo hhi
    refine sumFold_wp (fun k c => if arr b.map.i k = c then arr b.map.x k * arr e j else 0) _ _ v ?_
    intro k _ _ v
    refine (rdA _ b.map.i k).bind fun c hc => ?_
    refine (rdA _ v c).bind fun o ho => ?_
    refine (rdA _ b.map.x k).bind fun x hx => ?_
    refine (rdA _ e j).bind fun w hw => ?_
    refine (wrA _ v c _).mono fun v' hv => ?_
    rw [hv.1, ho, hx, hw, hc]
    funext q
    unfold upd
    by_cases hq : q = arr b.map.i k
    · rw [if_pos hq, if_pos hq.symm, hq]; rfl
    · rw [if_neg hq, if_neg (Ne.symm hq), add_zero]
  · rw [if_neg hc]
    simp only [if_neg hc, add_zero]
    exact Wp.pure rfl

theorem uncanon_wp (M : Maps R) (h : Inv n N NP d s) :
    Wp (fun t => ∃ dp dx, t = { s with dp := dp, dx := dx } ∧ arr dp = userGrad M (workspace s).g ∧ dx = List.replicate n 0)
      (uncanon (exact sqrt eps tol) n NP M s) := by
  unfold uncanon
  refine (fillAll_wp _ s.dp NP h.sz.dp).bind fun v0 h0 => ?_
  refine (uncanonOne_wp M.q _ s.dq v0).bind fun v1 h1 => ?_
  refine (uncanonOne_wp M.l _ s.dl v1).bind fun v2 h2 => ?_
  refine (uncanonOne_wp M.u _ s.du v2).bind fun v3 h3 => ?_
  refine (uncanonOne_wp M.P _ s.dP.x v3).bind fun v4 h4 => ?_
  refine (uncanonOne_wp M.A _ s.dA.x v4).bind fun v5 h5 => ?_
  refine (fillAll_wp _ s.dx n h.sz.dx).bind fun v6 h6 => Wp.pure ⟨v5, v6, rfl, ?_, ?_⟩
  · rw [h5, h4, h3, h2, h1, h0.1]
    funext c
    unfold userGrad workspace
    simp only [zero_add]
  · rw [← map_arr v6 n h6.2, h6.1, List.map_const', List.length_range]

/-! ### calls -/

theorem gradient_ref {Q : Qdldl R} {M : Maps R} {P A : Csc R} (hQ : QdldlOK N d Q) (hS : SolveOK N Q.solve) (hp : Problem n N d)
    (hM : MapsOK n N NP d M) (hK : ix d.pK N = d.iK.length) (eP : P.p = d.pP) (eiP : P.i = d.iP) (eA : A.p = d.pA) (eiA : A.i = d.iA)
    {c : Call R} (hc : OpOK n N d (.grad c)) (h : Between n N NP d s) :
    Ok (fun t => Inv n N NP d t ∧ t.init = false ∧ workspace t =
        Verif.Model.Grad.gradCall (factorOf N Q.factor) sqrt eps tol n N (csc P) (csc A) (callOf c s.dx).f (callOf c s.dx).x
          (callOf c s.dx).y (callOf c s.dx).dx (workspace s) ∧
        t.dx = List.replicate n 0 ∧ arr t.dp = userGrad M (workspace t).g)
      (gradient (exact sqrt eps tol) Q n N NP M c s) := by
  refine (gradient_ok finite_exact hQ hp hM hc h).and ?_
  obtain ⟨hP, hA, hx, hy⟩ := hc
  unfold gradient
  refine (prologue_ref hQ hp hK hP hA h).wp.bind ?_
  rintro t ⟨⟨hI1, hin1⟩, hw1, hdx1⟩
  refine (active_ref hp hy hI1).bind ?_
  rintro u ⟨hI2, hw2, hdx2, hin2⟩
  refine ((linsolve_ok hQ hp (L0 := u.L) (b := u.init) ⟨hI2.sz, rfl, rfl⟩).and (linsolve_wp hS hp hI2)).wp.bind ?_
  rintro _ ⟨hk3, r, rhs, delta, rfl, -, -, -, hl⟩
  refine ((fill_ok hp hx hy hk3).and (fill_wp' c.x c.y _)).wp.bind ?_
  rintro _ ⟨hk4, dq, dl, du, xP, xA, rfl, hf⟩
  refine (uncanon_wp M (hk4.inv hI2 rfl)).mono ?_
  rintro _ ⟨dp, dx, rfl, hdp, hdx⟩
  refine ⟨hin2.trans hin1, ?_, hdx, hdp⟩
  unfold Verif.Model.Grad.gradCall
  simp only
  rw [← hw1]
  have k1 : csc t.K = (workspace t).kkt.K := rfl
  have k2 : ws t = (workspace t).W := rfl
  have k3 : flags t.a = (workspace t).a := rfl
  rw [k1, k2, k3] at hw2
  generalize ht : Verif.Model.Factor.activeUpdate sqrt tol n N (workspace t).kkt.K (arr c.y) ⟨(workspace t).W, (workspace t).a⟩ = q at hw2
  have ea : flags u.a = q.a := congrArg Verif.Model.Grad.GradWs.a hw2
  have eW : ws u = q.W := congrArg Verif.Model.Grad.GradWs.W hw2
  have ek : (workspace u).kkt = (workspace t).kkt := by rw [hw2]
  have eKt : csc u.Kt = (workspace t).kkt.Kt := congrArg Verif.Model.Grad.Kkt.Kt ek
  have ed : arr u.delta = (workspace t).delta := congrArg Verif.Model.Grad.GradWs.delta hw2
  have eg : (workspace u).g = (workspace t).g := by rw [hw2]
  have ei : u.init = (workspace t).init := congrArg Verif.Model.Grad.GradWs.init hw2
  have ex : u.dx = s.dx := hdx2.trans hdx1
  rw [ea, eW, eKt, ed, ex] at hl
  have hq : Verif.Model.Factor.activeUpdate sqrt tol n N (workspace t).kkt.K (callOf c s.dx).y ⟨(workspace t).W, (workspace t).a⟩ = q := ht
  rw [hq]
  have hl1 : arr r = (Verif.Model.Grad.linsolve n N q.a q.W (workspace t).kkt.Kt (callOf c s.dx).dx (workspace t).delta).r :=
    congrArg Verif.Model.Grad.Lin.r hl
  have hl2 : arr delta = (Verif.Model.Grad.linsolve n N q.a q.W (workspace t).kkt.Kt (callOf c s.dx).dx (workspace t).delta).delta :=
    congrArg Verif.Model.Grad.Lin.delta hl
  rw [← hl1, ← hl2]
  have hf' : (⟨arr dq, arr dl, arr du, arr xP, arr xA⟩ : Verif.Model.Grad.DCanon R) =
      Verif.Model.Grad.fill n N q.a (csc P) (csc A) (callOf c s.dx).x (callOf c s.dx).y (arr r) (workspace t).g := by
    rw [hf, ← eg, ← ea]
    refine fill_congr _ _ _ _ _ ?_ ?_ ?_ ?_
    · show arr u.dP.p = arr P.p
      rw [hI2.sz.dP.p, eP]
    · show arr u.dP.i = arr P.i
      rw [hI2.sz.dP.i, eiP]
    · show arr u.dA.p = arr A.p
      rw [hI2.sz.dA.p, eA]
    · show arr u.dA.i = arr A.i
      rw [hI2.sz.dA.i, eiA]
  rw [← hf', ← ei, ← ek, ← ea, ← eW]
  rfl

theorem run_ref {Q : Qdldl R} {M : Maps R} {P A : Csc R} (hQ : QdldlOK N d Q) (hS : SolveOK N Q.solve) (hp : Problem n N d)
    (hM : MapsOK n N NP d M) (hK : ix d.pK N = d.iK.length) (eP : P.p = d.pP) (eiP : P.i = d.iP) (eA : A.p = d.pA) (eiA : A.i = d.iA) :
    ∀ (ops : List (Op R)) (s : St R), (∀ op ∈ ops, OpOK n N d op) → Between n N NP d s →
    Ok (fun t => Between n N NP d t ∧ workspace t = Verif.Model.Grad.runGrad (factorOf N Q.factor) sqrt eps tol n N (csc P) (csc A)
      (workspace s) (calls n s.dx ops)) (run (exact sqrt eps tol) Q n N NP M s ops) := by
  intro ops
  induction ops with
  | nil => intro s _ h; exact Ok.pure ⟨h, rfl⟩
  | cons op ops ih =>
    intro s ho h
    unfold run
    rw [List.foldlM_cons]
    have ho' : ∀ op ∈ ops, OpOK n N d op := fun q hq => ho q (List.mem_cons_of_mem _ hq)
    have hop := ho op List.mem_cons_self
    cases op with
    | delta k v =>
      refine Ok.bind (P := fun t => Between n N NP d t ∧ t = { s with dx := s.dx.set k v }) ?_ ?_
      · refine (step_ok finite_exact hQ hp hM hop h).and ?_
        unfold step
        refine (wr_wp _ s.dx k v).bind fun dx hdx => Wp.pure ?_
        rw [hdx.2]
      rintro _ ⟨hb, rfl⟩
      exact ih _ ho' hb
    | grad c =>
      refine Ok.bind (gradient_ref (sqrt := sqrt) (eps := eps) (tol := tol) hQ hS hp hM hK eP eiP eA eiA hop h) ?_
      rintro t ⟨hI, hin, hw, hdx, -⟩
      refine (ih t ho' ⟨hI.sz, fun _ => hI⟩).mono ?_
      rintro u ⟨hu, hwu⟩
      refine ⟨hu, ?_⟩
      rw [hwu, hw, hdx]
      rfl

end Verif.Lemmas.GradRef
