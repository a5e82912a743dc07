import Verif.Spec.UpdateStructure
/-!
Lemmas relating the emitted text of the update block to its specification.
-/
namespace Verif.Lemmas
open Verif.Model Verif.Spec

/-! ### Conditions -/

/-- The condition text is meaningful: not empty, and no `e && p1 || p2`. -/
def condOK (lg : Logic) : Bool :=
  (lg.extra.isSome || !lg.params.isEmpty) &&
  !(lg.extra.isSome && lg.extraOp == some .and && lg.op == some .or && decide (2 ≤ lg.params.length))

theorem evalC_flags_and (ev : CTok → Bool) (ps : List CId) (hps : ps ≠ []) (conj disj : Bool) :
    evalC ev conj disj ((ps.map CTok.flag).intersperse .andand)
      = some (disj || (conj && ps.all fun p => ev (.flag p))) := by
  induction ps generalizing conj with
  | nil => exact absurd rfl hps
  | cons p ps ih =>
    cases ps with
    | nil => simp [evalC]
    | cons p' ps =>
      have := ih (by simp) (conj && ev (.flag p))
      simp only [List.map_cons, List.intersperse_cons₂] at this ⊢
      rw [evalC, this]
      · simp [Bool.and_assoc]
      all_goals simp

theorem evalC_flags_or (ev : CTok → Bool) (ps : List CId) (hps : ps ≠ []) (disj : Bool) :
    evalC ev true disj ((ps.map CTok.flag).intersperse .oror)
      = some (disj || (ps.any fun p => ev (.flag p))) := by
  induction ps generalizing disj with
  | nil => exact absurd rfl hps
  | cons p ps ih =>
    cases ps with
    | nil => simp [evalC]
    | cons p' ps =>
      have := ih (by simp) (disj || (true && ev (.flag p)))
      simp only [List.map_cons, List.intersperse_cons₂] at this ⊢
      rw [evalC, this]
      · simp [Bool.or_assoc]
      all_goals simp

theorem evalC_extra_or (ev : CTok → Bool) (e : Extra) (rest : List CTok) :
    evalC ev true false (.extra e :: .oror :: rest) = evalC ev true (ev (.extra e)) rest := by
  simp [evalC]

theorem evalC_extra_and (ev : CTok → Bool) (e : Extra) (rest : List CTok) :
    evalC ev true false (.extra e :: .andand :: rest) = evalC ev (ev (.extra e)) false rest := by
  simp [evalC]

theorem evalC_emitCond (ev : CTok → Bool) (lg : Logic) (h : condOK lg = true) :
    evalC ev true false (emitCond lg)
      = some (fires true lg (fun p => ev (.flag p)) (fun e => ev (.extra e))) := by
  obtain ⟨ps, op, fif, extra, eop⟩ := lg
  cases extra with
  | none =>
    have hps : ps ≠ [] := by
      intro h0; simp [condOK, h0] at h
    rcases op with _ | _ | _
    · simp [emitCond, fires, flagsHold, opTok, evalC_flags_and _ _ hps]
    · simp [emitCond, fires, flagsHold, opTok, evalC_flags_and _ _ hps]
    · simp [emitCond, fires, flagsHold, opTok, evalC_flags_or _ _ hps]
  | some e =>
    cases ps with
    | nil => simp [emitCond, fires, evalC]
    | cons p ps =>
      have hform : emitCond ⟨p :: ps, op, fif, some e, eop⟩
          = .extra e :: opTok eop .oror ::
            ((p :: ps).map CTok.flag).intersperse (opTok op .andand) := by
        simp [emitCond]
      rw [hform]
      rcases eop with _ | _ | _
      · simp only [opTok, evalC_extra_or]
        rcases op with _ | _ | _
        · simp only [opTok]; rw [evalC_flags_and _ _ (by simp)]; simp [fires, flagsHold]
        · simp only [opTok]; rw [evalC_flags_and _ _ (by simp)]; simp [fires, flagsHold]
        · simp only [opTok]; rw [evalC_flags_or _ _ (by simp)]; simp [fires, flagsHold]
      · simp only [opTok, evalC_extra_and]
        rcases op with _ | _ | _
        · simp only [opTok]; rw [evalC_flags_and _ _ (by simp)]; simp [fires, flagsHold]
        · simp only [opTok]; rw [evalC_flags_and _ _ (by simp)]; simp [fires, flagsHold]
        · cases ps with
          | nil => simp [evalC, fires, flagsHold]
          | cons p' ps => simp [condOK] at h
      · simp only [opTok, evalC_extra_or]
        rcases op with _ | _ | _
        · simp only [opTok]; rw [evalC_flags_and _ _ (by simp)]; simp [fires, flagsHold]
        · simp only [opTok]; rw [evalC_flags_and _ _ (by simp)]; simp [fires, flagsHold]
        · simp only [opTok]; rw [evalC_flags_or _ _ (by simp)]; simp [fires, flagsHold]

/-! ### Parsing -/

/-- Canonical text of a program. -/
def render : Prog → List Tok
  | .skip => []
  | .call f r => .call f :: render r
  | .ite c t e r =>
      .ifOpen c :: (render t ++ .close ::
        ((if e = .skip then [] else .elseOpen :: (render e ++ [.close])) ++ render r))

theorem render_seq (p q : Prog) : render (p.seq q) = render p ++ render q := by
  induction p with
  | skip => rfl
  | call f r ih => simp [Prog.seq, render, ih]
  | ite c t e r _ _ ih => simp [Prog.seq, render, ih]

theorem seq_skip (p : Prog) : p.seq .skip = p := by
  induction p with
  | skip => rfl
  | call f r ih => simp [Prog.seq, ih]
  | ite c t e r _ _ ih => simp [Prog.seq, ih]

theorem seq_assoc (p q r : Prog) : (p.seq q).seq r = p.seq (q.seq r) := by
  induction p with
  | skip => rfl
  | call f s ih => simp [Prog.seq, ih]
  | ite c t e s _ _ ih => simp [Prog.seq, ih]

theorem seq_eq_skip (p q : Prog) : p.seq q = .skip ↔ p = .skip ∧ q = .skip := by
  cases p <;> simp [Prog.seq]

/-- What may follow a statement list. -/
def Stops (rest : List Tok) : Prop := rest = [] ∨ ∃ ts, rest = .close :: ts

theorem render_append_not_else (p : Prog) (rest : List Tok) (h : Stops rest) (ts : List Tok) :
    render p ++ rest ≠ .elseOpen :: ts := by
  cases p <;> rcases h with h | ⟨_, h⟩ <;> simp [render, h]

theorem parse_render (p : Prog) : ∀ (fuel : Nat) (rest : List Tok), Stops rest →
    (render p).length < fuel → parseStmts fuel (render p ++ rest) = some (p, rest) := by
  induction p with
  | skip =>
    intro fuel rest h hf
    obtain ⟨n, rfl⟩ : ∃ n, fuel = n + 1 := ⟨fuel - 1, by omega⟩
    rcases h with h | ⟨ts, h⟩ <;> subst h <;> simp [render, parseStmts]
  | call f r ih =>
    intro fuel rest h hf
    obtain ⟨n, rfl⟩ : ∃ n, fuel = n + 1 := ⟨fuel - 1, by omega⟩
    simp only [render, List.length_cons] at hf
    simp only [render, List.cons_append, parseStmts]
    rw [ih n rest h (by omega)]
  | ite c t e r iht ihe ihr =>
    intro fuel rest h hf
    obtain ⟨n, rfl⟩ : ∃ n, fuel = n + 1 := ⟨fuel - 1, by omega⟩
    by_cases he : e = .skip
    · subst he
      simp only [render, if_true, List.length_cons, List.length_append, List.length_nil] at hf
      simp only [render, if_true, List.cons_append, List.nil_append, List.append_assoc, parseStmts]
      rw [iht n _ (Or.inr ⟨_, rfl⟩) (by omega)]
      have hr := ihr n rest h (by omega)
      have hne := render_append_not_else r rest h
      split
      · rename_i heq
        simp only [Option.some.injEq, Prod.mk.injEq, List.cons.injEq, true_and] at heq
        exact absurd heq.2 (hne _)
      · rename_i heq
        simp only [Option.some.injEq, Prod.mk.injEq, List.cons.injEq, true_and] at heq
        obtain ⟨rfl, rfl⟩ := heq
        rw [hr]
      · rename_i h2
        exact absurd rfl (h2 _ _)
    · simp only [render, if_neg he, List.length_cons, List.length_append, List.length_nil] at hf
      simp only [render, if_neg he, List.cons_append, List.append_assoc, parseStmts,
        List.nil_append]
      rw [iht n _ (Or.inr ⟨_, rfl⟩) (by omega)]
      have h2 := ihe n (.close :: (render r ++ rest)) (Or.inr ⟨_, rfl⟩) (by omega)
      have hr := ihr n rest h (by omega)
      simp only [h2, hr]

theorem parseBlock_render (p : Prog) : parseBlock (render p) = some p := by
  have := parse_render p ((render p).length + 1) [] (Or.inl rfl) (by omega)
  simp only [List.append_nil] at this
  simp [parseBlock, this]

/-! ### The tree that is meant -/

/-- The program meant by a list of update functions. -/
def tree (pus : Pus) (never : List CId) : Nat → Option (List CId) → Prog
  | _, none => .skip
  | 0, _ => .skip
  | fuel + 1, some fs =>
      (initFirst fs).foldl (init := Prog.skip) fun acc f =>
        acc.seq <| match pus.lookup f with
          | none => .skip
          | some lg =>
              if never.contains f then tree pus never fuel lg.fif
              else .ite (emitCond lg) (.call f .skip) (tree pus never fuel lg.fif) .skip

/-- Tree of one function. -/
def treeFn (pus : Pus) (never : List CId) (fuel : Nat) (f : CId) : Prog :=
  match pus.lookup f with
  | none => .skip
  | some lg =>
      if never.contains f then tree pus never fuel lg.fif
      else .ite (emitCond lg) (.call f .skip) (tree pus never fuel lg.fif) .skip

theorem tree_succ (pus : Pus) (never : List CId) (fuel : Nat) (fs : List CId) :
    tree pus never (fuel + 1) (some fs)
      = (initFirst fs).foldl (fun acc f => acc.seq (treeFn pus never fuel f)) .skip := rfl

/-- The nesting is expressible: below the top level, functions that never fire do not produce a
second `else`. -/
def nestOK (pus : Pus) (never : List CId) : Nat → Bool → Option (List CId) → Bool
  | _, _, none => true
  | 0, _, some _ => false
  | fuel + 1, deep, some fs =>
      (fs.all fun f => match pus.lookup f with
        | none => false
        | some lg => nestOK pus never fuel (deep || !never.contains f) lg.fif) &&
      (!deep ||
        (if fs.any (fun f => !never.contains f)
         then fs.all (fun f => !never.contains f || treeFn pus never fuel f == .skip)
         else decide ((fs.filter fun f => !(treeFn pus never fuel f == .skip)).length ≤ 1)))

theorem exec_seq {σ : Type} (ev : σ → CTok → Bool) (doCall : CId → σ → σ) (p q : Prog) (s : σ) :
    exec ev doCall (p.seq q) s = (exec ev doCall p s).bind (exec ev doCall q) := by
  induction p generalizing s with
  | skip => rfl
  | call f r ih => simp [Prog.seq, exec, ih]
  | ite c t e r _ _ ih =>
    simp only [Prog.seq, exec]
    cases evalC (ev s) true false c with
    | none => rfl
    | some v =>
      cases v <;> simp only [Option.bind_assoc] <;> congr 1 <;> funext s' <;> exact ih s'

theorem foldl_seq_shift (g : CId → Prog) (fs : List CId) (acc : Prog) :
    fs.foldl (fun a f => a.seq (g f)) acc = acc.seq (fs.foldl (fun a f => a.seq (g f)) .skip) := by
  induction fs generalizing acc with
  | nil => simp [seq_skip]
  | cons f fs ih =>
    simp only [List.foldl_cons]
    rw [ih, ih (Prog.skip.seq (g f)), seq_assoc]
    rfl

theorem foldl_seq_cons (g : CId → Prog) (f : CId) (fs : List CId) :
    (f :: fs).foldl (fun a f => a.seq (g f)) .skip
      = (g f).seq (fs.foldl (fun a f => a.seq (g f)) .skip) := by
  simp only [List.foldl_cons]
  rw [foldl_seq_shift]; rfl

/-! ### Text without mutation -/

/-- The structure with `'P'` removed. -/
def norm (quad : Bool) (pus : Pus) : Pus := pus.map fun kv => (kv.1, dropP quad kv.2)

theorem lookup_norm (quad : Bool) (pus : Pus) (f : CId) :
    (norm quad pus).lookup f = (pus.lookup f).map (dropP quad) := by
  induction pus with
  | nil => rfl
  | cons kv pus ih =>
    obtain ⟨k, l⟩ := kv
    simp only [norm, List.map_cons, List.lookup_cons] at ih ⊢
    cases h : f == k with
    | true => simp
    | false => simp only; exact ih

theorem dropP_idem (quad : Bool) (lg : Logic) (h : lg.params.count .P ≤ 1) :
    dropP quad (dropP quad lg) = dropP quad lg := by
  unfold dropP
  split
  · rename_i h1
    have h2 : ¬ CId.P ∈ lg.params.erase CId.P := by
      intro h3
      have h4 := List.count_pos_iff.mpr h3
      rw [List.count_erase_self] at h4
      omega
    simp [h2]
  · rfl

theorem dropP_count (quad : Bool) (lg : Logic) (h : lg.params.count .P ≤ 1) :
    (dropP quad lg).params.count .P ≤ 1 := by
  unfold dropP
  split
  · exact Nat.le_trans (List.Sublist.count_le _ List.erase_sublist) h
  · exact h

theorem dropP_fif (quad : Bool) (lg : Logic) : (dropP quad lg).fif = lg.fif := by
  unfold dropP; split <;> rfl

/-- Invariant of the mutated structure relative to the original one. -/
def MutInv (quad : Bool) (pus0 pus : Pus) : Prop :=
  norm quad pus = norm quad pus0 ∧ ∀ kv ∈ pus, kv.2.params.count .P ≤ 1

theorem mem_of_lookup {pus : Pus} {f : CId} {lg : Logic} (h : pus.lookup f = some lg) :
    (f, lg) ∈ pus := by
  induction pus with
  | nil => simp at h
  | cons kv pus ih =>
    obtain ⟨k, l⟩ := kv
    simp only [List.lookup_cons] at h
    cases hk : f == k with
    | true =>
      simp only [hk, Option.some.injEq] at h
      have := eq_of_beq hk
      subst this; subst h; simp
    | false =>
      simp only [hk] at h
      exact List.mem_cons_of_mem _ (ih h)

theorem norm_set (quad : Bool) (pus : Pus) (f : CId) (lg : Logic)
    (hnd : (pus.map Prod.fst).Nodup)
    (hl : pus.lookup f = some lg) (hc : lg.params.count .P ≤ 1) :
    norm quad (pus.set f (dropP quad lg)) = norm quad pus := by
  simp only [norm, Pus.set, List.map_map]
  apply List.map_congr_left
  intro kv hkv
  obtain ⟨k, l⟩ := kv
  simp only [Function.comp]
  by_cases hk : k = f
  · subst hk
    have hm := mem_of_lookup hl
    have : l = lg := by
      clear hl hc
      induction pus with
      | nil => simp at hkv
      | cons kv pus ih =>
        simp only [List.map_cons, List.nodup_cons] at hnd
        rcases List.mem_cons.mp hkv with h1 | h1 <;> rcases List.mem_cons.mp hm with h2 | h2
        · rw [← h1] at h2; exact (Prod.mk.inj h2).2.symm
        · exact absurd (List.mem_map.mpr ⟨_, h2, by rw [← h1]⟩) hnd.1
        · exact absurd (List.mem_map.mpr ⟨_, h1, by rw [← h2]⟩) hnd.1
        · exact ih hnd.2 h1 h2
    subst this
    simp [dropP_idem quad l hc]
  · simp [hk]

theorem keys_norm (quad : Bool) (pus : Pus) : (norm quad pus).map Prod.fst = pus.map Prod.fst := by
  simp [norm, Function.comp_def]

theorem MutInv.set {quad : Bool} {pus0 pus : Pus} (h : MutInv quad pus0 pus)
    (hnd : (pus0.map Prod.fst).Nodup) {f : CId} {lg : Logic} (hl : pus.lookup f = some lg) :
    MutInv quad pus0 (pus.set f (dropP quad lg)) := by
  have hc := h.2 _ (mem_of_lookup hl)
  have hnd' : (pus.map Prod.fst).Nodup := by
    rw [← keys_norm quad pus, h.1, keys_norm]; exact hnd
  refine ⟨by rw [norm_set quad pus f lg hnd' hl hc, h.1], ?_⟩
  intro kv hkv
  simp only [Pus.set, List.mem_map] at hkv
  obtain ⟨kv', hkv', rfl⟩ := hkv
  split
  · exact dropP_count quad lg hc
  · exact h.2 _ hkv'

theorem MutInv.lookup {quad : Bool} {pus0 pus : Pus} (h : MutInv quad pus0 pus) (f : CId) :
    (pus.lookup f).map (dropP quad) = (norm quad pus0).lookup f := by
  rw [← lookup_norm, h.1]

/-! ### Emission -/

/-- Text of an `else` branch. -/
def elseText (t : Prog) : List Tok :=
  if t = .skip then [] else .elseOpen :: (render t ++ [.close])

/-- Text of a list of functions at a given depth. -/
def textAt (depth : Nat) (t : Prog) : List Tok :=
  if depth = 0 then render t else elseText t

theorem initFirst_perm (fs : List CId) : (initFirst fs).Perm fs := by
  unfold initFirst
  split
  · rename_i h
    exact (List.perm_cons_erase (by simpa using h)).symm
  · exact List.Perm.refl _

/-- Text contributed by one function. -/
def piece (pus : Pus) (never : List CId) (fuel depth : Nat) (f : CId) : List Tok :=
  match pus.lookup f with
  | none => []
  | some lg =>
      if never.contains f then textAt depth (tree pus never fuel lg.fif)
      else .ifOpen (emitCond lg) :: .call f :: .close :: elseText (tree pus never fuel lg.fif)

theorem piece_called (pus : Pus) (never : List CId) (fuel depth : Nat) (f : CId) (lg : Logic)
    (hl : pus.lookup f = some lg) (hn : never.contains f = false) :
    piece pus never fuel depth f = render (treeFn pus never fuel f) := by
  simp only [piece, treeFn, hl, hn, Bool.false_eq_true, if_false, render, elseText]
  simp

theorem piece_never (pus : Pus) (never : List CId) (fuel depth : Nat) (f : CId) (lg : Logic)
    (hl : pus.lookup f = some lg) (hn : never.contains f = true) :
    piece pus never fuel depth f = textAt depth (treeFn pus never fuel f) := by
  simp only [piece, treeFn, hl, hn, if_true]

theorem render_foldl (g : CId → Prog) (fs : List CId) :
    render (fs.foldl (fun a f => a.seq (g f)) .skip) = (fs.map fun f => render (g f)).flatten := by
  induction fs with
  | nil => rfl
  | cons f fs ih => rw [foldl_seq_cons, render_seq, ih]; rfl

theorem foldl_eq_skip (g : CId → Prog) (fs : List CId) (h : ∀ f ∈ fs, g f = .skip) :
    fs.foldl (fun (a : Prog) f => a.seq (g f)) Prog.skip = Prog.skip := by
  induction fs with
  | nil => rfl
  | cons f fs ih =>
    rw [foldl_seq_cons, h f (by simp), ih (fun f hf => h f (by simp [hf]))]; rfl

theorem elseText_flatten (g : CId → Prog) (fs : List CId)
    (h : (fs.filter fun f => !(g f == .skip)).length ≤ 1) :
    (fs.map fun f => elseText (g f)).flatten
      = elseText (fs.foldl (fun a f => a.seq (g f)) .skip) := by
  induction fs with
  | nil => rfl
  | cons f fs ih =>
    rw [foldl_seq_cons]
    by_cases hf : g f = .skip
    · have hf' : (g f == Prog.skip) = true := by simp [hf]
      simp only [List.filter_cons, hf', Bool.not_true, Bool.false_eq_true, if_false] at h
      simp only [List.map_cons, List.flatten_cons, ih h]
      simp [hf, elseText, Prog.seq]
    · have hf' : (g f == Prog.skip) = false := by simp [hf]
      simp only [List.filter_cons, hf', Bool.not_false, if_true, List.length_cons] at h
      have h0 : fs.filter (fun f => !(g f == .skip)) = [] := List.length_eq_zero_iff.mp (by omega)
      have h1 : ∀ x ∈ fs, g x = .skip := by
        intro x hx
        have := List.filter_eq_nil_iff.mp h0 x hx
        simpa using this
      rw [foldl_eq_skip g fs h1, seq_skip]
      have : (fs.map fun f => elseText (g f)).flatten = [] := by
        rw [List.flatten_eq_nil_iff]
        intro l hl
        obtain ⟨x, hx, rfl⟩ := List.mem_map.mp hl
        simp [h1 x hx, elseText]
      simp [this]

theorem flatten_pieces (pus : Pus) (never : List CId) (fuel depth : Nat) (fs : List CId)
    (h : nestOK pus never (fuel + 1) (decide (0 < depth)) (some fs) = true) :
    let we := decide (0 < depth) && fs.any (fun f => !never.contains f)
    (if we then [Tok.elseOpen] else []) ++
      ((initFirst fs).map (piece pus never fuel depth)).flatten ++
      (if we then [Tok.close] else [])
      = textAt depth (tree pus never (fuel + 1) (some fs)) := by
  simp only [nestOK, Bool.and_eq_true, List.all_eq_true] at h
  obtain ⟨hall, hdeep⟩ := h
  have hlk : ∀ f ∈ initFirst fs, ∃ lg, pus.lookup f = some lg := by
    intro f hf
    have := hall f ((initFirst_perm fs).mem_iff.mp hf)
    cases hl : pus.lookup f with
    | none => simp [hl] at this
    | some lg => exact ⟨lg, rfl⟩
  rw [tree_succ]
  by_cases hd : depth = 0
  · subst hd
    simp only [Nat.lt_irrefl, decide_false, Bool.false_and, Bool.false_eq_true, if_false,
      List.nil_append, List.append_nil, textAt, if_true, render_foldl]
    congr 1
    apply List.map_congr_left
    intro f hf
    obtain ⟨lg, hl⟩ := hlk f hf
    cases hn : never.contains f with
    | true => rw [piece_never pus never fuel 0 f lg hl hn]; rfl
    | false => rw [piece_called pus never fuel 0 f lg hl hn]
  · have hd' : 0 < depth := by omega
    simp only [hd', decide_true, Bool.not_true, Bool.false_or] at hdeep
    simp only [hd', decide_true, Bool.true_and, textAt, hd, if_false]
    by_cases ha : fs.any (fun f => !never.contains f) = true
    · rw [if_pos ha] at hdeep
      rw [if_pos ha, if_pos ha]
      have hp : ((initFirst fs).map (piece pus never fuel depth))
          = (initFirst fs).map fun f => render (treeFn pus never fuel f) := by
        apply List.map_congr_left
        intro f hf
        obtain ⟨lg, hl⟩ := hlk f hf
        cases hn : never.contains f with
        | false => rw [piece_called pus never fuel depth f lg hl hn]
        | true =>
          have h2 := List.all_eq_true.mp hdeep f ((initFirst_perm fs).mem_iff.mp hf)
          simp only [hn, Bool.not_true, Bool.false_or, beq_iff_eq] at h2
          rw [piece_never pus never fuel depth f lg hl hn, h2]
          simp [textAt, hd, elseText, render]
      rw [hp, ← render_foldl]
      obtain ⟨f, hf, hnf⟩ := List.any_eq_true.mp ha
      have hne : (initFirst fs).foldl (fun (a : Prog) f => a.seq (treeFn pus never fuel f)) Prog.skip ≠ Prog.skip := by
        intro h0
        have hmem := (initFirst_perm fs).mem_iff.mpr hf
        obtain ⟨lg, hl⟩ := hlk f hmem
        have hr := congrArg render h0
        rw [render_foldl] at hr
        simp only [render, List.flatten_eq_nil_iff] at hr
        have h3 := hr _ (List.mem_map.mpr ⟨f, hmem, rfl⟩)
        have hn : never.contains f = false := by simpa using hnf
        simp only [treeFn, hl, hn, Bool.false_eq_true, if_false, render] at h3
        cases h3
      simp [elseText, hne]
    · rw [if_neg ha] at hdeep
      rw [if_neg ha, if_neg ha]
      simp only [List.nil_append, List.append_nil]
      have hp : ((initFirst fs).map (piece pus never fuel depth))
          = (initFirst fs).map fun f => elseText (treeFn pus never fuel f) := by
        apply List.map_congr_left
        intro f hf
        obtain ⟨lg, hl⟩ := hlk f hf
        cases hn : never.contains f with
        | true =>
          rw [piece_never pus never fuel depth f lg hl hn]; simp [textAt, hd]
        | false =>
          exact absurd (List.any_eq_true.mpr ⟨f, (initFirst_perm fs).mem_iff.mp hf, by rw [hn]; rfl⟩) ha
      rw [hp]
      apply elseText_flatten
      have := ((initFirst_perm fs).filter fun f => !(treeFn pus never fuel f == .skip)).length_eq
      rw [this]
      exact of_decide_eq_true hdeep

/-- The emitted text is the canonical text of the intended tree. -/
theorem writeUpdate_eq (quad : Bool) (never : List CId) (pus0 : Pus)
    (hnd : (pus0.map Prod.fst).Nodup) :
    ∀ (fuel : Nat) (pus : Pus) (ofs : Option (List CId)) (depth : Nat),
      MutInv quad pus0 pus →
      nestOK (norm quad pus0) never fuel (decide (0 < depth)) ofs = true →
      ∃ pus', writeUpdate quad never fuel pus ofs depth
          = .ok (textAt depth (tree (norm quad pus0) never fuel ofs), pus')
        ∧ MutInv quad pus0 pus' := by
  intro fuel
  induction fuel with
  | zero =>
    intro pus ofs depth hm hn
    cases ofs with
    | none => exact ⟨pus, by simp [writeUpdate, tree, textAt, render, elseText], hm⟩
    | some fs => simp [nestOK] at hn
  | succ fuel ih =>
    intro pus ofs depth hm hn
    cases ofs with
    | none => exact ⟨pus, by simp [writeUpdate, tree, textAt, render, elseText], hm⟩
    | some fs =>
      have hpieces := flatten_pieces (norm quad pus0) never fuel depth fs hn
      simp only [nestOK, Bool.and_eq_true, List.all_eq_true] at hn
      have hall := hn.1
      have key : ∀ (gs : List CId), (∀ g ∈ gs, g ∈ fs) → ∀ (acc : List Tok) (p : Pus),
          MutInv quad pus0 p →
          ∃ p', gs.foldlM (init := (acc, p)) (fun (x : List Tok × Pus) f => do
              let lg0 ← x.2.get f
              let lg := dropP quad lg0
              let pus := x.2.set f lg
              if never.contains f then
                let (sub, pus) ← writeUpdate quad never fuel pus lg.fif depth
                return (x.1 ++ sub, pus)
              else
                let (sub, pus) ← writeUpdate quad never fuel pus lg.fif (depth + 1)
                return (x.1 ++ (Tok.ifOpen (emitCond lg) :: Tok.call f :: Tok.close :: sub), pus))
            = (Except.ok (acc ++ (gs.map (piece (norm quad pus0) never fuel depth)).flatten, p') :
                Except PyErr _)
            ∧ MutInv quad pus0 p' := by
        intro gs
        induction gs with
        | nil => intro _ acc p hp; exact ⟨p, by simp; rfl, hp⟩
        | cons g gs ihg =>
          intro hgs acc p hp
          have hg := hall g (hgs g (by simp))
          cases hlk : p.lookup g with
          | none =>
            have := hp.lookup g
            rw [hlk] at this
            simp only [Option.map_none] at this
            rw [← this] at hg
            simp at hg
          | some lg =>
            have hlk' := hp.lookup g
            rw [hlk] at hlk'
            simp only [Option.map_some] at hlk'
            rw [← hlk'] at hg
            simp only [dropP_fif] at hg
            have hset := hp.set hnd hlk
            have hget : p.get g = .ok lg := by simp [Pus.get, hlk]
            rw [List.foldlM_cons]
            simp only [hget]
            cases hnv : never.contains g with
            | true =>
              simp only [hnv, Bool.not_true, Bool.or_false] at hg
              obtain ⟨p1, h1, h1m⟩ := ih (p.set g (dropP quad lg)) lg.fif depth hset hg
              obtain ⟨p2, h2, h2m⟩ := ihg (fun x hx => hgs x (by simp [hx]))
                (acc ++ textAt depth (tree (norm quad pus0) never fuel lg.fif)) p1 h1m
              refine ⟨p2, ?_, h2m⟩
              simp only [bind, Except.bind, pure, Except.pure, dropP_fif] at h2 ⊢
              simp only [if_true, h1]
              rw [h2]
              simp only [List.map_cons, List.flatten_cons, piece, ← hlk', hnv, dropP_fif, if_true,
                List.append_assoc]
            | false =>
              have hd1 : decide (0 < depth + 1) = true := by simp
              simp only [hnv, Bool.not_false, Bool.or_true] at hg
              rw [← hd1] at hg
              obtain ⟨p1, h1, h1m⟩ := ih (p.set g (dropP quad lg)) lg.fif (depth + 1) hset hg
              obtain ⟨p2, h2, h2m⟩ := ihg (fun x hx => hgs x (by simp [hx]))
                (acc ++ (Tok.ifOpen (emitCond (dropP quad lg)) :: Tok.call g :: Tok.close ::
                  textAt (depth + 1) (tree (norm quad pus0) never fuel lg.fif))) p1 h1m
              refine ⟨p2, ?_, h2m⟩
              simp only [bind, Except.bind, pure, Except.pure, dropP_fif] at h2 ⊢
              simp only [Bool.false_eq_true, if_false, h1]
              rw [h2]
              have hnv' : ¬ g ∈ never := by simpa using hnv
              simp [piece, ← hlk', hnv', dropP_fif, textAt]
      obtain ⟨p', hfold, hm'⟩ := key (initFirst fs)
        (fun g hg => (initFirst_perm fs).mem_iff.mp hg) [] pus hm
      refine ⟨p', ?_, hm'⟩
      simp only [writeUpdate]
      simp only [List.nil_append] at hfold
      have hfold' := hfold
      simp only [initFirst] at hfold'
      simp only [bind, Except.bind, pure, Except.pure] at hfold' ⊢
      rw [hfold']
      simp only []
      congr 2

/-! ### Meaning of the text -/

/-- Firing condition as evaluated by the C program on a state. -/
def fireOf {σ : Type} (ev : σ → CTok → Bool) (lg : Logic) (s : σ) : Bool :=
  fires true lg (fun p => ev s (.flag p)) (fun e => ev s (.extra e))

theorem exec_foldl {σ : Type} (ev : σ → CTok → Bool) (doCall : CId → σ → σ) (g : CId → Prog)
    (h : CId → σ → σ) (fs : List CId)
    (hg : ∀ f ∈ fs, ∀ s, exec ev doCall (g f) s = some (h f s)) (s : σ) :
    exec ev doCall (fs.foldl (fun (a : Prog) f => a.seq (g f)) Prog.skip) s
      = some (fs.foldl (fun s f => h f s) s) := by
  induction fs generalizing s with
  | nil => rfl
  | cons f fs ih =>
    rw [foldl_seq_cons, exec_seq, hg f (by simp)]
    simp only [Option.bind_some, List.foldl_cons]
    exact ih (fun f hf => hg f (by simp [hf])) _

/-- All conditions that are printed are meaningful. -/
def condsOK (pus : Pus) (never : List CId) : Bool :=
  pus.all fun kv => never.contains kv.1 || condOK kv.2

theorem exec_tree {σ : Type} (ev : σ → CTok → Bool) (doCall : CId → σ → σ) (pus : Pus)
    (never : List CId) (hc : condsOK pus never = true) :
    ∀ (fuel : Nat) (ofs : Option (List CId)) (s : σ),
      exec ev doCall (tree pus never fuel ofs) s
        = some (run (fireOf ev) doCall pus never fuel ofs s) := by
  intro fuel
  induction fuel with
  | zero => intro ofs s; cases ofs <;> rfl
  | succ fuel ih =>
    intro ofs s
    cases ofs with
    | none => rfl
    | some fs =>
      rw [tree_succ, run]
      refine exec_foldl ev doCall (treeFn pus never fuel) (fun f s =>
        match pus.lookup f with
        | none => s
        | some lg =>
            if never.contains f then run (fireOf ev) doCall pus never fuel lg.fif s
            else if fireOf ev lg s then doCall f s
            else run (fireOf ev) doCall pus never fuel lg.fif s) (initFirst fs) ?_ s
      intro f _ s
      unfold treeFn
      cases hl : pus.lookup f with
      | none => rfl
      | some lg =>
        simp only []
        cases hn : never.contains f with
        | true => simp only [if_true]; exact ih _ _
        | false =>
          have hok : condOK lg = true := by
            have := List.all_eq_true.mp hc _ (mem_of_lookup hl)
            simp only [hn, Bool.false_or] at this
            exact this
          simp only [Bool.false_eq_true, if_false, exec, evalC_emitCond _ _ hok]
          have hfe : fires true lg (fun p => ev s (.flag p)) (fun e => ev s (.extra e))
              = fireOf ev lg s := rfl
          rw [hfe]
          cases fireOf ev lg s with
          | true => simp [exec]
          | false => simp [exec, ih]

theorem nestOK_perm (pus : Pus) (never : List CId) (fuel : Nat) (fs gs : List CId)
    (hp : gs.Perm fs) (h : nestOK pus never fuel false (some fs) = true) :
    nestOK pus never fuel false (some gs) = true := by
  cases fuel with
  | zero => simp [nestOK] at h
  | succ fuel =>
    simp only [nestOK, Bool.and_eq_true, List.all_eq_true] at h ⊢
    exact ⟨fun f hf => h.1 f (hp.mem_iff.mp hf), by simp⟩

/-- The emitted block means what the structure says, for every order of the root functions. -/
theorem text_meaning {σ : Type} (quad : Bool) (pus : Pus) (never roots order : List CId)
    (fuel : Nat) (ev : σ → CTok → Bool) (doCall : CId → σ → σ)
    (hnd : (pus.map Prod.fst).Nodup) (hcount : ∀ kv ∈ pus, kv.2.params.count .P ≤ 1)
    (hnest : nestOK (norm quad pus) never fuel false (some roots) = true)
    (hcond : condsOK (norm quad pus) never = true) (hperm : order.Perm roots) :
    ∃ toks pus', writeUpdate quad never fuel pus (some order) 0 = .ok (toks, pus') ∧
      ∀ s, execText ev doCall toks s
        = some (run (fireOf ev) doCall (norm quad pus) never fuel (some order) s) := by
  obtain ⟨pus', hw, _⟩ := writeUpdate_eq quad never pus hnd fuel pus (some order) 0 ⟨rfl, hcount⟩
    (nestOK_perm _ _ _ _ _ hperm hnest)
  refine ⟨_, pus', hw, fun s => ?_⟩
  simp only [textAt, if_true, execText, parseBlock_render, Option.bind_some]
  exact exec_tree ev doCall _ never hcond fuel _ s

end Verif.Lemmas
