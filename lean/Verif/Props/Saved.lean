import Verif.Model.Saved
import Mathlib.Data.List.Dedup
import Mathlib.Data.List.Infix
/-!
C63: what the Python solve method stores in the problem and returns.
-/
namespace Verif.Props
open Verif.Model Verif.Model.Saved

variable {R : Type}

/-- The distinct constraints in the order of their first occurrence. -/
def firsts : List Nat → List Nat
  | [] => []
  | c :: cs => c :: (firsts cs).filter fun d => d ≠ c

/-- The object after a solve holds a value for every stored variable of the problem and none for its others. -/
def PrimSaved (f : PyFile) (vars : List String) (r : Res R) (o : PObj R) : Prop :=
  ∀ n ∈ vars, o.prim n = if n ∈ f.vars then some (r.prim n) else none

/-- Every constraint of the problem holds its own dual value; `D` is the dual value of a constraint. -/
def DualSaved (cons : List Nat) (D : Nat → List R) (o : PObj R) : Prop := ∀ c ∈ cons, o.dual c = some (D c)

/-! ### ids -/

theorem put_keys (d : IdMap) (k v : Nat) :
    (put d k v).map Prod.fst = if k ∈ d.map Prod.fst then d.map Prod.fst else d.map Prod.fst ++ [k] := by
  unfold put
  by_cases h : k ∈ d.map Prod.fst
  · rw [if_pos (by simpa using h), if_pos h, List.map_map]
    apply List.map_congr_left
    intro e _
    simp only [Function.comp]
    split
    · rename_i he; exact he.symm
    · rfl
  · rw [if_neg (by simpa using h), if_neg h]; simp

theorem firsts_filter (l : List Nat) (p : Nat → Bool) : firsts (l.filter p) = (firsts l).filter p := by
  induction l with
  | nil => rfl
  | cons a l ih =>
    rw [List.filter_cons]
    by_cases h : p a = true
    · rw [if_pos h, firsts, ih, firsts, List.filter_cons, if_pos h, List.filter_filter, List.filter_filter]
      congr 1
      apply List.filter_congr
      intro x _
      exact Bool.and_comm _ _
    · rw [if_neg h, ih, firsts, List.filter_cons, if_neg h, List.filter_filter]
      apply List.filter_congr
      intro x _
      by_cases hx : x = a
      · subst hx; simp [h]
      · simp [hx]

theorem mem_firsts {l : List Nat} {c : Nat} : c ∈ firsts l ↔ c ∈ l := by
  induction l with
  | nil => simp [firsts]
  | cons a l ih =>
    simp only [firsts, List.mem_cons, List.mem_filter, ih, decide_eq_true_eq]
    by_cases h : c = a <;> simp [h]

theorem firsts_nodup (l : List Nat) : (firsts l).Nodup := by
  induction l with
  | nil => simp [firsts]
  | cons a l ih =>
    refine List.nodup_cons.2 ⟨by simp, ih.filter _⟩

theorem firsts_length (l : List Nat) : (firsts l).length ≤ l.length := by
  induction l with
  | nil => simp [firsts]
  | cons a l ih =>
    simp only [firsts, List.length_cons]
    have := List.length_filter_le (fun d => decide (d ≠ a)) (firsts l)
    omega

theorem foldl_put_keys (f : Nat → Nat) : ∀ (cons : List Nat) (d : IdMap),
    (cons.foldl (fun d c => put d c (f c)) d).map Prod.fst =
      d.map Prod.fst ++ (firsts cons).filter fun c => c ∉ d.map Prod.fst
  | [], d => by simp [firsts]
  | c :: cs, d => by
    rw [List.foldl_cons, foldl_put_keys f cs, put_keys]
    by_cases h : c ∈ d.map Prod.fst
    · rw [if_pos h, firsts, List.filter_cons, if_neg (by simpa using h), List.filter_filter]
      congr 1
      apply List.filter_congr
      intro x _
      by_cases hx : x = c
      · subst hx; simp [h]
      · simp [hx]
    · rw [if_neg h, firsts, List.filter_cons, if_pos (by simpa using h), List.append_assoc, List.singleton_append,
        List.filter_filter]
      congr 2
      apply List.filter_congr
      intro x _
      by_cases hx : x = c <;> simp [hx]

/-- The dual variables are listed in the order of the first occurrences of the constraints. -/
theorem firstMap_keys (f : Nat → Nat) (cons : List Nat) : (firstMap f cons).map Prod.fst = firsts cons := by
  rw [firstMap, foldl_put_keys]
  simp

theorem firstMap_lookup (f : Nat → Nat) (cons : List Nat) (c : Nat) :
    (firstMap f cons).lookup c = if c ∈ cons then some (f c) else none := by
  have key : ∀ (cons : List Nat) (d : IdMap), (∀ e ∈ d, e.2 = f e.1) → ∀ e ∈ cons.foldl (fun d c => put d c (f c)) d, e.2 = f e.1 := by
    intro cons
    induction cons with
    | nil => intro d h; exact h
    | cons a cs ih =>
      intro d h
      refine ih _ fun e he => ?_
      simp only [put] at he
      split at he
      · obtain ⟨e', h', rfl⟩ := List.mem_map.1 he
        split
        · rfl
        · exact h e' h'
      · rcases List.mem_append.1 he with he | he
        · exact h e he
        · rw [List.mem_singleton] at he; subst he; rfl
  have hv := key cons [] (by simp)
  have hk := firstMap_keys f cons
  cases hl : (firstMap f cons).lookup c with
  | none =>
    rw [if_neg]
    intro hc
    rw [← mem_firsts, ← hk] at hc
    obtain ⟨e, he, rfl⟩ := List.mem_map.1 hc
    have := List.lookup_eq_none_iff.1 hl e he
    simp at this
  | some v =>
    have hm : (c, v) ∈ firstMap f cons := by
      obtain ⟨l₁, l₂, e, _⟩ := List.lookup_eq_some_iff.1 hl
      rw [e]; simp
    have hc : c ∈ cons := by
      rw [← mem_firsts, ← hk]; exact List.mem_map.2 ⟨_, hm, rfl⟩
    rw [if_pos hc]
    exact congrArg some (hv _ hm)

theorem mapM_follow {ms : List IdMap} {g : Nat → Nat} : ∀ {l : List Nat}, (∀ i ∈ l, follow ms i = .ok (g i)) →
    l.mapM (follow ms) = .ok (l.map g)
  | [], _ => rfl
  | a :: l, h => by
    rw [List.mapM_cons, h a (by simp), mapM_follow fun i hi => h i (List.mem_cons_of_mem _ hi)]
    rfl

/-- The canonical constraints that dual values are read from are those of the distinct constraints in order, if the first
reduction keeps the ids. The code does not apply its map. -/
theorem C63_ids_partial (cons : List Nat) (ms : List IdMap) (g : Nat → Nat)
    (hg : ∀ c ∈ cons, follow (firstMap id cons :: ms) c = .ok (g c)) :
    dualIds (firstMap id cons :: ms) = .ok ((firsts cons).map g) := by
  show ((firstMap id cons).map Prod.fst).mapM (follow ms) = _
  rw [firstMap_keys]
  refine mapM_follow fun i hi => ?_
  have hi' := mem_firsts.1 hi
  have := hg i hi'
  rw [follow, firstMap_lookup, if_pos hi'] at this
  exact this

/-- If the first reduction gives constraints new ids, dual values are looked up under the wrong ids: with two constraints
whose ids are exchanged their dual values are, too; with other ids generation raises. -/
theorem C63_fails_first_map :
    (∃ ms : List IdMap, ∃ f : Nat → Nat, follow (firstMap f [0, 1] :: ms) 0 = .ok 11 ∧ follow (firstMap f [0, 1] :: ms) 1 = .ok 10 ∧
      dualIds (firstMap f [0, 1] :: ms) = .ok [10, 11]) ∧
    (∃ ms : List IdMap, ∃ f : Nat → Nat, follow (firstMap f [0] :: ms) 0 = .ok 9 ∧
      dualIds (firstMap f [0] :: ms) = .error .keyError) :=
  ⟨⟨[[(0, 10), (1, 11)]], fun c => 1 - c, by decide, by decide, by rfl⟩, ⟨[[(5, 9)]], fun _ => 5, by decide, by rfl⟩⟩

/-! ### values -/

theorem saveVars_spec (f : PyFile) (r : Res R) (o : PObj R) :
    (saveVars f r o).dual = o.dual ∧ (saveVars f r o).value = o.value ∧ (saveVars f r o).status = o.status ∧
    ∀ n, (saveVars f r o).prim n = if n ∈ f.vars then some (r.prim n) else o.prim n := by
  unfold saveVars
  induction f.vars generalizing o with
  | nil => simp
  | cons a l ih =>
    rw [List.foldl_cons]
    obtain ⟨h1, h2, h3, h4⟩ := ih { o with prim := fun m => if m = a then some (r.prim a) else o.prim m }
    refine ⟨h1, h2, h3, fun n => ?_⟩
    rw [h4]
    by_cases hl : n ∈ l
    · simp [hl]
    · by_cases ha : n = a
      · subst ha; simp
      · simp [hl, ha]

/-- Value at a constraint after the first `n` lines: that of the last line for it. -/
def lastFor (cons : List Nat) (r : Res R) (c : Nat) : Nat → Option (List R)
  | 0 => none
  | n + 1 => if cons[n]? = some c then some (r.dual n) else lastFor cons r c n

theorem saveDuals_spec (cons : List Nat) (r : Res R) (o : PObj R) (ho : ∀ c ∈ cons, o.dual c = none) (n : Nat)
    (hn : n ≤ cons.length) :
    ∃ o', (List.range n).foldlM (saveDual cons r) o = .ok o' ∧ o'.prim = o.prim ∧ o'.value = o.value ∧ o'.status = o.status ∧
      ∀ c ∈ cons, o'.dual c = lastFor cons r c n := by
  induction n with
  | zero => exact ⟨o, rfl, rfl, rfl, rfl, ho⟩
  | succ n ih =>
    obtain ⟨o', h1, h2, h3, h4, h5⟩ := ih (by omega)
    have hc : cons[n]? = some cons[n] := List.getElem?_eq_getElem (by omega)
    refine ⟨{ o' with dual := fun c' => if c' = cons[n] then some (r.dual n) else o'.dual c' }, ?_, h2, h3, h4, fun c hm => ?_⟩
    · rw [List.range_succ, List.foldlM_append, h1]
      show (List.foldlM (saveDual cons r) o' [n]) = _
      rw [List.foldlM_cons]
      simp only [saveDual, hc]
      rfl
    · simp only [lastFor, hc, Option.some.injEq]
      by_cases h : c = cons[n]
      · simp [h]
      · rw [if_neg h, if_neg (fun e => h e.symm), h5 c hm]

/-- The primal values, the value, the status and what is returned, for any problem and any state before. In explicit
mode neither value nor status is set and the time is returned. -/
theorem C63_stored [DecidableEq R] [Neg R] (big : R) (f : PyFile) (vars : List String) (cons : List Nat) (r : Res R)
    (before : PObj R) (hn : f.nDual ≤ cons.length) :
    ∃ o ret, save big f vars cons r before = .ok (o, ret) ∧ PrimSaved f vars r o ∧
      (f.explicit = 0 → o.value = some (toVal big r.objVal) ∧ o.status = some r.status ∧ ret = .value (toVal big r.objVal)) ∧
      (f.explicit ≠ 0 → o.value = none ∧ o.status = none ∧ ret = .time r.time) ∧
      (∀ c ∈ cons, o.dual c = if f.explicit = 1 then none else lastFor cons r c f.nDual) := by
  obtain ⟨v1, v2, v3, v4⟩ := saveVars_spec f r (clear vars cons before)
  have hnone : ∀ c ∈ cons, (saveVars f r (clear vars cons before)).dual c = none := by
    intro c hc
    rw [v1]
    simp only [clear, if_pos hc]
  have main : ∃ o, saveDuals f cons r (saveVars f r (clear vars cons before)) = .ok o ∧
      o.prim = (saveVars f r (clear vars cons before)).prim ∧
      o.value = none ∧ o.status = none ∧ ∀ c ∈ cons, o.dual c = if f.explicit = 1 then none else lastFor cons r c f.nDual := by
    unfold saveDuals
    by_cases h1 : f.explicit = 1
    · rw [if_pos h1]
      exact ⟨_, rfl, rfl, v2, v3, fun c hc => by rw [if_pos h1, hnone c hc]⟩
    · rw [if_neg h1]
      obtain ⟨o, a, b, c, d, e⟩ := saveDuals_spec cons r _ hnone f.nDual hn
      exact ⟨o, a, b, c.trans v2, d.trans v3, fun c hc => by rw [if_neg h1, e c hc]⟩
  obtain ⟨o, h1, h2, h3, h4, h5⟩ := main
  unfold save
  rw [h1]
  have hp : PrimSaved f vars r o := fun n hn => by rw [h2, v4]; simp only [clear, if_pos hn]
  dsimp only
  by_cases h0 : f.explicit = 0
  · rw [if_pos h0]
    exact ⟨_, _, rfl, hp, fun _ => ⟨rfl, rfl, rfl⟩, fun h => absurd h0 h, h5⟩
  · rw [if_neg h0]
    exact ⟨_, _, rfl, hp, fun h => absurd h h0, fun _ => ⟨h3, h4, rfl⟩, h5⟩

/-- An objective value is returned as it is unless it is 1e30 or -1e30, which stand for infeasible and unbounded
minimization problems. -/
theorem C63_value [DecidableEq R] [Neg R] (big x : R) :
    (toVal big x = .fin x ↔ x ≠ big ∧ x ≠ -big) ∧ (∀ y, toVal big x = .fin y → y = x) ∧
    (toVal big x = .posInf ↔ x = big) ∧ (toVal big x = .negInf ↔ x ≠ big ∧ x = -big) := by
  unfold toVal
  by_cases h1 : x = big <;> by_cases h2 : x = -big <;> simp [h1, h2] <;> simp_all

theorem lastFor_some (cons : List Nat) (r : Res R) (c : Nat) :
    ∀ n j, j < n → cons[j]? = some c → (∀ k, j < k → k < n → cons[k]? ≠ some c) → lastFor cons r c n = some (r.dual j)
  | 0, _, h, _, _ => by omega
  | n + 1, j, hj, hc, hk => by
    rw [lastFor]
    by_cases e : j = n
    · subst e; rw [if_pos hc]
    · rw [if_neg (hk n (by omega) (by omega))]
      exact lastFor_some cons r c n j (by omega) hc fun k a b => hk k a (by omega)

/-- The last line for a constraint that occurs among the first `n`. -/
theorem lastFor_last (cons : List Nat) (r : Res R) (c : Nat) :
    ∀ n j, j < n → cons[j]? = some c → ∃ k, j ≤ k ∧ k < n ∧ cons[k]? = some c ∧ lastFor cons r c n = some (r.dual k)
  | 0, _, h, _ => by omega
  | n + 1, j, hj, hc => by
    rw [lastFor]
    by_cases e : cons[n]? = some c
    · rw [if_pos e]; exact ⟨n, by omega, by omega, e, rfl⟩
    · rw [if_neg e]
      have hjn : j ≠ n := fun x => e (x ▸ hc)
      obtain ⟨k, a, b, c', d⟩ := lastFor_last cons r c n j (by omega) hc
      exact ⟨k, a, by omega, c', d⟩

/-- Not an initial part: there is a constraint listed again before all distinct ones have occurred. -/
theorem firsts_not_prefix : ∀ (l : List Nat), ¬ firsts l <+: l →
    ∃ i j c, j < i ∧ i < (firsts l).length ∧ l[i]? = some c ∧ l[j]? = some c ∧ (firsts l)[j]? = some c := by
  intro l h
  have hex : ∃ i, i < (firsts l).length ∧ l[i]? ≠ (firsts l)[i]? := by
    by_contra hc
    push Not at hc
    apply h
    rw [List.prefix_iff_eq_take]
    apply List.ext_getElem?
    intro i
    rw [List.getElem?_take]
    by_cases hi : i < (firsts l).length
    · rw [if_pos hi, hc i hi]
    · rw [if_neg hi, List.getElem?_eq_none (by omega)]
  classical
  let i := Nat.find hex
  have hi := Nat.find_spec hex
  have hm : ∀ k < i, l[k]? = (firsts l)[k]? := by
    intro k hk
    by_contra hne
    exact Nat.find_min hex hk ⟨by have := hi.1; show k < _; omega, hne⟩
  have hil : i < l.length := lt_of_lt_of_le hi.1 (firsts_length l)
  -- the element at place i of the list occurs before
  have split : l = l.take i ++ l.drop i := (List.take_append_drop i l).symm
  have hfa : ∀ a b : List Nat, firsts (a ++ b) = firsts a ++ (firsts b).filter fun c => c ∉ a := by
    intro a b
    induction a with
    | nil => simp [firsts]
    | cons x a ih =>
      rw [List.cons_append, firsts, ih, firsts, List.filter_append, List.cons_append, List.filter_filter]
      congr 2
      apply List.filter_congr
      intro y _
      by_cases hy : y = x <;> simp [hy]
  by_cases hmem : l[i] ∈ l.take i
  · obtain ⟨j, hj, e⟩ := List.getElem_of_mem hmem
    rw [List.length_take] at hj
    have hji : j < i := by omega
    have hlj : l[j]? = some l[i] := by
      rw [← e, List.getElem_take, List.getElem?_eq_getElem]
    exact ⟨i, j, l[i], hji, hi.1, List.getElem?_eq_getElem hil, hlj, by rw [← hm j hji]; exact hlj⟩
  · exfalso
    apply hi.2
    have ht : firsts (l.take i) = l.take i := by
      have h1 : (l.take i).Nodup := by
        have : l.take i = (firsts l).take i := by
          apply List.ext_getElem?
          intro k
          rw [List.getElem?_take, List.getElem?_take]
          split
          · rename_i hk; exact hm k hk
          · rfl
        rw [this]
        exact (firsts_nodup l).sublist (List.take_sublist _ _)
      clear * - h1
      generalize l.take i = t at h1 ⊢
      induction t with
      | nil => rfl
      | cons a t ih =>
        rw [List.nodup_cons] at h1
        rw [firsts, ih h1.2, List.filter_eq_self.2]
        intro x hx
        have : x ≠ a := fun e => h1.1 (e ▸ hx)
        simpa using this
    have hd : l.drop i = l[i] :: l.drop (i + 1) := List.drop_eq_getElem_cons hil
    have hF : firsts l = l.take i ++ (firsts (l.drop i)).filter fun c => c ∉ l.take i := by
      conv_lhs => rw [split, hfa, ht]
    show l[i]? = (firsts l)[i]?
    rw [hF, List.getElem?_append_right (by rw [List.length_take]; omega), List.length_take,
      show i - min i l.length = 0 by omega, hd, firsts, List.filter_cons, if_pos (by simpa using hmem),
      List.getElem?_eq_getElem hil]
    rfl

/-- The full property: after any solve outside of the mode without duals, every constraint of the problem holds its own
dual value, whatever the problem. -/
def C63Claim : Prop :=
  ∀ (f : PyFile) (vars : List String) (cons : List Nat) (D : Nat → List Int) (r : Res Int) (before : PObj Int),
    f.explicit ≠ 1 → f.nDual = (firsts cons).length → (∀ i c, (firsts cons)[i]? = some c → r.dual i = D c) →
    ∃ o ret, save (10 ^ 30) f vars cons r before = .ok (o, ret) ∧ DualSaved cons D o

/-- Dual values are stored with their constraints, for all dual values, exactly if no constraint is listed again before
all distinct ones have been listed; dual variable `i` is that of the `i`-th distinct constraint (`C63_ids_partial`, C18). -/
theorem C63_dual_iff [DecidableEq R] [Neg R] [Nontrivial R] (big : R) (f : PyFile) (vars : List String) (cons : List Nat) (r0 : Res R)
    (before : PObj R) (he : f.explicit ≠ 1) (hn : f.nDual = (firsts cons).length) :
    (∀ (D : Nat → List R) (r : Res R), (∀ i c, (firsts cons)[i]? = some c → r.dual i = D c) →
      ∃ o ret, save big f vars cons r before = .ok (o, ret) ∧ DualSaved cons D o) ↔ firsts cons <+: cons := by
  have hle : f.nDual ≤ cons.length := hn ▸ firsts_length cons
  constructor
  · intro h
    by_contra hp
    obtain ⟨i, j, c, hji, hi, hci, hcj, hfj⟩ := firsts_not_prefix cons hp
    obtain ⟨a, b, hab⟩ := exists_pair_ne R
    let D : Nat → List R := fun d => if d = c then [a] else [b]
    let r : Res R := { r0 with dual := fun i => match (firsts cons)[i]? with | some d => D d | none => [] }
    obtain ⟨o, ret, h1, h2⟩ := h D r (fun i d hd => by simp only [r, hd])
    obtain ⟨o', ret', h1', _, _, _, h5⟩ := C63_stored big f vars cons r before hle
    rw [h1] at h1'
    cases h1'
    have hcm : c ∈ cons := List.mem_of_getElem? hci
    have hv := h2 c hcm
    rw [h5 c hcm, if_neg he] at hv
    obtain ⟨k, hk1, hk2, hk3, hk4⟩ := lastFor_last cons r c f.nDual i (by omega) hci
    rw [hk4] at hv
    have hfk : (firsts cons)[k]? = some (firsts cons)[k] := List.getElem?_eq_getElem (by omega)
    have hne : (firsts cons)[k] ≠ c := by
      intro e
      have hj : (firsts cons)[j]? = some (firsts cons)[k] := by rw [hfj, e]
      rw [List.getElem?_eq_getElem (by omega)] at hj
      have := (List.Nodup.getElem_inj_iff (firsts_nodup cons)).1 (Option.some.inj hj)
      omega
    simp only [r, hfk, D, if_neg hne, if_true, Option.some.injEq, List.cons.injEq, and_true] at hv
    exact hab hv.symm
  · intro hp D r hr
    obtain ⟨o, ret, h1, _, _, _, h5⟩ := C63_stored big f vars cons r before hle
    refine ⟨o, ret, h1, fun c hc => ?_⟩
    rw [h5 c hc, if_neg he]
    have hcf := mem_firsts.2 hc
    obtain ⟨j, hj, e⟩ := List.getElem_of_mem hcf
    have hfj : (firsts cons)[j]? = some c := by rw [List.getElem?_eq_getElem hj, e]
    have hsame : ∀ k, k < (firsts cons).length → cons[k]? = (firsts cons)[k]? := by
      intro k hk
      obtain ⟨t, ht⟩ := hp
      conv_lhs => rw [← ht]
      rw [List.getElem?_append_left hk]
    rw [lastFor_some cons r c f.nDual j (by omega) (by rw [hsame j hj, hfj]) ?_, hr j c hfj]
    intro k hk1 hk2 hk3
    rw [hsame k (by omega), List.getElem?_eq_getElem (by omega)] at hk3
    rw [List.getElem?_eq_getElem hj] at hfj
    have := (List.Nodup.getElem_inj_iff (firsts_nodup cons)).1 ((Option.some.inj hk3).trans (Option.some.inj hfj).symm)
    omega

/-- In particular if all constraints are distinct. -/
theorem C63_dual_partial [DecidableEq R] [Neg R] [Nontrivial R] (big : R) (f : PyFile) (vars : List String) (cons : List Nat)
    (before : PObj R) (he : f.explicit ≠ 1) (hd : cons.Nodup) (hn : f.nDual = cons.length) (D : Nat → List R) (r : Res R)
    (hr : ∀ i c, cons[i]? = some c → r.dual i = D c) :
    ∃ o ret, save big f vars cons r before = .ok (o, ret) ∧ DualSaved cons D o := by
  have hf : firsts cons = cons := by
    clear * - hd
    induction cons with
    | nil => rfl
    | cons a t ih =>
      rw [List.nodup_cons] at hd
      rw [firsts, ih hd.2, List.filter_eq_self.2]
      intro x hx
      have : x ≠ a := fun e => hd.1 (e ▸ hx)
      simpa using this
  refine (C63_dual_iff big f vars cons r before he (by rw [hf, hn])).2 (by rw [hf]) D r ?_
  rw [hf]; exact hr

/-- What a solve leaves in the problem and returns does not depend on earlier solves. -/
theorem C63_no_leak [DecidableEq R] [Neg R] (big : R) (f : PyFile) (vars : List String) (cons : List Nat) (r : Res R)
    (hn : f.nDual ≤ cons.length) (b b' : PObj R) :
    ∃ o o' ret, save big f vars cons r b = .ok (o, ret) ∧ save big f vars cons r b' = .ok (o', ret) ∧
      (∀ n ∈ vars, o.prim n = o'.prim n) ∧ (∀ c ∈ cons, o.dual c = o'.dual c) ∧ o.value = o'.value ∧ o.status = o'.status := by
  obtain ⟨o, ret, h1, h2, h3, h4, h5⟩ := C63_stored big f vars cons r b hn
  obtain ⟨o', ret', h1', h2', h3', h4', h5'⟩ := C63_stored big f vars cons r b' hn
  have key : o.value = o'.value ∧ o.status = o'.status ∧ ret = ret' := by
    by_cases h0 : f.explicit = 0
    · obtain ⟨a, b, c⟩ := h3 h0
      obtain ⟨a', b', c'⟩ := h3' h0
      exact ⟨a.trans a'.symm, b.trans b'.symm, c.trans c'.symm⟩
    · obtain ⟨a, b, c⟩ := h4 h0
      obtain ⟨a', b', c'⟩ := h4' h0
      exact ⟨a.trans a'.symm, b.trans b'.symm, c.trans c'.symm⟩
  obtain ⟨k1, k2, rfl⟩ := key
  exact ⟨o, o', ret, h1, h1', fun n hn => (h2 n hn).trans (h2' n hn).symm, fun c hc => (h5 c hc).trans (h5' c hc).symm, k1, k2⟩

/-- In explicit mode the value of the problem is not set; the method returns the time. -/
theorem C63_fails_explicit [DecidableEq R] [Neg R] (big : R) (f : PyFile) (vars : List String) (cons : List Nat) (r : Res R) (before : PObj R)
    (hn : f.nDual ≤ cons.length) (he : f.explicit ≠ 0) :
    ∃ o, save big f vars cons r before = .ok (o, .time r.time) ∧ o.value = none ∧ o.status = none := by
  obtain ⟨o, ret, h1, _, _, h4, _⟩ := C63_stored big f vars cons r before hn
  obtain ⟨a, b, rfl⟩ := h4 he
  exact ⟨o, h1, a, b⟩

/-! ### samples -/

def exRes : Res Int := ⟨fun n => if n = "x" then [1, 2] else [7], fun i => [10 + i], 42, "solved", 3⟩
def exOld : PObj Int := ⟨fun _ => some [0], fun _ => some [0], some .posInf, some "old"⟩

example : ∃ o ret, save (10 ^ 30) ⟨0, ["x", "y"], 2⟩ ["x", "y", "z"] [4, 9] exRes exOld = .ok (o, ret) ∧ o.prim "x" = some [1, 2] ∧
    o.prim "z" = none ∧ o.dual 4 = some [10] ∧ o.dual 9 = some [11] ∧ o.value = some (.fin 42) ∧ ret = .value (.fin 42) :=
  ⟨_, _, rfl, by decide, by decide, by decide, by decide, by decide, by decide⟩

/-- Listing a constraint again at the end does no harm. -/
example : firsts [4, 9, 4] = [4, 9] ∧ firsts [4, 9, 4] <+: [4, 9, 4] := by decide

/-- Ids that the first reduction keeps. -/
example : ∀ c ∈ [4, 9, 4], follow [firstMap id [4, 9, 4], [(4, 20), (9, 21)]] c = .ok (if c = 4 then 20 else 21) := by decide

/-- A constraint listed twice in a row: it gets the dual value of the next one, which gets none. -/
theorem C63_fails_twice : ∃ o ret, save (10 ^ 30) ⟨0, [], 2⟩ [] [4, 4, 9] exRes exOld = .ok (o, ret) ∧
    firsts [4, 4, 9] = [4, 9] ∧ o.dual 4 = some [11] ∧ o.dual 9 = none :=
  ⟨_, _, rfl, by decide, by decide, by decide⟩

theorem C63_fails : ¬ C63Claim := by
  intro h
  have hp : ¬ firsts [4, 4, 9] <+: [4, 4, 9] := by decide
  exact hp ((C63_dual_iff (10 ^ 30 : Int) ⟨0, [], 2⟩ [] [4, 4, 9] exRes exOld (by decide) (by decide)).1
    fun D r hr => h ⟨0, [], 2⟩ [] _ D r exOld (by decide) (by decide) hr)

end Verif.Props
