import Verif.Spec.Text
import Mathlib.Tactic.Linarith
import Mathlib.Tactic.Ring
import Mathlib.Tactic.FieldSimp
import Mathlib.Tactic.NormNum
import Mathlib.Algebra.Order.Ring.Rat
import Mathlib.Data.List.Basic
import Mathlib.Data.List.Infix
import Mathlib.Algebra.Order.Floor.Ring
namespace Verif.Lemmas.Text
open Verif.Model.Text Verif.Spec.Text

/-! ### find -/

theorem find_some (e : Txt) : ∀ (t : Txt) (i : Nat), find e t = some i →
    (∃ post, t = t.take i ++ e ++ post) ∧ ∀ pre post, t = pre ++ e ++ post → i ≤ pre.length := by
  intro t
  induction t with
  | nil =>
    intro i h
    unfold find at h
    by_cases he : e = []
    · rw [if_pos he] at h
      cases h
      exact ⟨⟨[], by simp [he]⟩, fun _ _ _ => Nat.zero_le _⟩
    · rw [if_neg he] at h; cases h
  | cons c t ih =>
    intro i h
    unfold find at h
    by_cases hp : e.isPrefixOf (c :: t) = true
    · rw [if_pos hp] at h
      cases h
      obtain ⟨post, hpost⟩ := List.isPrefixOf_iff_prefix.1 hp
      exact ⟨⟨post, by simpa using hpost.symm⟩, fun _ _ _ => Nat.zero_le _⟩
    · rw [if_neg hp] at h
      cases hf : find e t with
      | none => rw [hf] at h; cases h
      | some j =>
        rw [hf] at h
        cases h
        obtain ⟨⟨post, h1⟩, h2⟩ := ih j hf
        refine ⟨⟨post, ?_⟩, ?_⟩
        · rw [List.take_succ_cons, List.cons_append, List.cons_append, ← h1]
        · intro pre post h
          cases pre with
          | nil =>
            exfalso
            apply hp
            rw [List.isPrefixOf_iff_prefix]
            exact ⟨post, by simpa using h.symm⟩
          | cons a pre =>
            rw [List.cons_append, List.cons_append] at h
            have := h2 pre post (List.cons.inj h).2
            simpa using this

theorem find_none (e : Txt) : ∀ (t : Txt), find e t = none → ∀ pre post, t ≠ pre ++ e ++ post := by
  intro t
  induction t with
  | nil =>
    intro h pre post heq
    unfold find at h
    by_cases he : e = []
    · rw [if_pos he] at h; cases h
    · have := heq.symm
      simp at this
      exact he this.2.1
  | cons c t ih =>
    intro h pre post heq
    unfold find at h
    by_cases hp : e.isPrefixOf (c :: t) = true
    · rw [if_pos hp] at h; cases h
    · rw [if_neg hp] at h
      have hf : find e t = none := by
        cases hf : find e t with
        | none => rfl
        | some j => rw [hf] at h; cases h
      cases pre with
      | nil =>
        apply hp
        rw [List.isPrefixOf_iff_prefix]
        exact ⟨post, by simpa using heq.symm⟩
      | cons a pre =>
        rw [List.cons_append, List.cons_append] at heq
        exact ih hf pre post (List.cons.inj heq).2

/-! ### replacement -/

theorem replaceGo_skip (old new : Txt) : ∀ (a t : Txt), replaceGo old new a.length (a ++ t) = replaceGo old new 0 t := by
  intro a
  induction a with
  | nil => intro t; rfl
  | cons c a ih => intro t; exact ih t

theorem replaceGo_hit (old new t : Txt) (h : old ≠ []) :
    replaceGo old new 0 (old ++ t) = new ++ replaceGo old new 0 t := by
  obtain ⟨c, o, rfl⟩ := List.exists_cons_of_ne_nil h
  rw [List.cons_append]
  rw [show replaceGo (c :: o) new 0 (c :: (o ++ t)) = if (c :: o).isPrefixOf (c :: (o ++ t)) then
    new ++ replaceGo (c :: o) new ((c :: o).length - 1) (o ++ t) else c :: replaceGo (c :: o) new 0 (o ++ t) from rfl]
  rw [if_pos (show (c :: o).isPrefixOf (c :: (o ++ t)) = true from List.isPrefixOf_iff_prefix.2 ⟨t, rfl⟩), List.length_cons, Nat.add_sub_cancel, replaceGo_skip]

theorem replaceGo_lit (old new t : Txt) (c : Char) (h : ¬ old <+: c :: t) :
    replaceGo old new 0 (c :: t) = c :: replaceGo old new 0 t := by
  rw [show replaceGo old new 0 (c :: t) = if old.isPrefixOf (c :: t) then
    new ++ replaceGo old new (old.length - 1) t else c :: replaceGo old new 0 t from rfl]
  rw [if_neg (fun hh => h (List.isPrefixOf_iff_prefix.1 hh))]

theorem comparable_of_prefix_append {a σ s : Txt} (h : a <+: σ ++ s) : Comparable a σ := by
  rcases List.prefix_or_prefix_of_prefix h (List.prefix_append σ s) with h | h
  · exact Or.inl h
  · exact Or.inr h

/-- A block with none of whose ends the old text is comparable is copied. -/
theorem replaceGo_block (old new : Txt) : ∀ (b t : Txt), (∀ σ ∈ b.tails, σ ≠ [] → ¬ Comparable old σ) →
    replaceGo old new 0 (b ++ t) = b ++ replaceGo old new 0 t := by
  intro b
  induction b with
  | nil => intro t _; rfl
  | cons c b ih =>
    intro t h
    rw [List.cons_append, replaceGo_lit, ih t, List.cons_append]
    · intro σ hσ
      exact h σ (by rw [List.tails_cons]; exact List.mem_cons_of_mem _ hσ)
    · intro hp
      exact h (c :: b) (by rw [List.tails_cons]; exact List.mem_cons_self ..) (by simp)
        (comparable_of_prefix_append (by rwa [List.cons_append]))

theorem simul_block {reps : List (Txt × Txt)} : ∀ (b s out : Txt),
    (∀ r ∈ reps, ∀ σ ∈ b.tails, σ ≠ [] → ¬ Comparable r.1 σ) → Simul reps (b ++ s) out →
    ∃ out', out = b ++ out' ∧ Simul reps s out' := by
  intro b
  induction b with
  | nil => intro s out _ h; exact ⟨out, rfl, h⟩
  | cons c b ih =>
    intro s out hb h
    rw [List.cons_append] at h
    generalize ht : c :: (b ++ s) = t at h
    cases h with
    | nil => cases ht
    | hit r t' out' hr h' =>
      exfalso
      apply hb r hr (c :: b) (by rw [List.tails_cons]; exact List.mem_cons_self ..) (by simp)
      exact comparable_of_prefix_append (s := s) (by rw [List.cons_append, ht]; exact List.prefix_append _ _)
    | lit c' t' out' hn h' =>
      obtain ⟨rfl, rfl⟩ := List.cons.inj ht
      obtain ⟨o, e, hs⟩ := ih s out' (fun r hr σ hσ => hb r hr σ (by
        rw [List.tails_cons]; exact List.mem_cons_of_mem _ hσ)) h'
      exact ⟨o, by rw [e]; rfl, hs⟩

/-- Either a text in front of the result was there before, or it meets the new text. -/
theorem prefix_replaceGo (old new : Txt) (ho : old ≠ []) : ∀ (n : Nat) (t u : Txt), t.length ≤ n →
    u <+: replaceGo old new 0 t → u <+: t ∨ ∃ a τ, u = a ++ τ ∧ τ ≠ [] ∧ Comparable new τ := by
  intro n
  induction n with
  | zero =>
    intro t u hn h
    have : t = [] := by cases t <;> simp_all
    subst this
    exact Or.inl h
  | succ n ih =>
    intro t u hn h
    cases u with
    | nil => exact Or.inl (List.nil_prefix)
    | cons c u =>
      by_cases hp : old <+: t
      · obtain ⟨t', rfl⟩ := hp
        rw [replaceGo_hit old new t' ho] at h
        exact Or.inr ⟨[], c :: u, rfl, by simp, (comparable_of_prefix_append h).symm⟩
      · cases t with
        | nil => exact Or.inl h
        | cons d t =>
          rw [replaceGo_lit old new t d hp] at h
          obtain ⟨rfl, h'⟩ := List.cons_prefix_cons.1 h
          rcases ih t u (by simp at hn; omega) h' with h1 | ⟨a, τ, h1, h2, h3⟩
          · exact Or.inl (List.cons_prefix_cons.2 ⟨rfl, h1⟩)
          · exact Or.inr ⟨c :: a, τ, by rw [h1]; rfl, h2, h3⟩

theorem comparable_refl (a : Txt) : Comparable a a := Or.inl (List.prefix_refl a)

theorem simul_step (r : Txt × Txt) (rs : List (Txt × Txt)) (hr : r.1 ≠ []) (hrs : ∀ s ∈ rs, s.1 ≠ [])
    (ha : ∀ s ∈ rs, Apart r s) (hp : rs.Pairwise Apart) : ∀ (n : Nat) (text out : Txt), text.length ≤ n →
    Simul rs (replaceGo r.1 r.2 0 text) out → Simul (r :: rs) text out := by
  intro n
  induction n with
  | zero =>
    intro text out hn h
    have : text = [] := by cases text <;> simp_all
    subst this
    generalize ht : replaceGo r.1 r.2 0 [] = t at h
    have : t = [] := ht ▸ rfl
    subst this
    generalize ht : ([] : Txt) = t at h
    cases h with
    | nil => exact Simul.nil
    | hit s t' out' hs h' =>
      exact absurd (List.append_eq_nil_iff.1 ht.symm).1 (hrs s hs)
    | lit c t' out' hn h' => cases ht
  | succ n ih =>
    intro text out hn h
    by_cases h1 : r.1 <+: text
    · obtain ⟨t, rfl⟩ := h1
      rw [replaceGo_hit _ _ _ hr] at h
      obtain ⟨out', e, h'⟩ := simul_block r.2 _ out (fun s hs => (ha s hs).1) h
      subst e
      refine Simul.hit r t out' (List.mem_cons_self ..) (ih t out' ?_ h')
      have : 0 < r.1.length := List.length_pos_iff.2 hr
      simp at hn; omega
    · by_cases h2 : ∃ s ∈ rs, s.1 <+: text
      · obtain ⟨s, hs, t, rfl⟩ := h2
        have hpos : 0 < s.1.length := List.length_pos_iff.2 (hrs s hs)
        rw [replaceGo_block r.1 r.2 s.1 t (ha s hs).2.1] at h
        generalize ht : s.1 ++ replaceGo r.1 r.2 0 t = u at h
        cases h with
        | nil => exact absurd (List.append_eq_nil_iff.1 ht).1 (hrs s hs)
        | hit s' t' out' hs' h' =>
          have hc : Comparable s'.1 s.1 := comparable_of_prefix_append (s := replaceGo r.1 r.2 0 t) (by
            rw [ht]; exact List.prefix_append _ _)
          have heq : s' = s := by
            by_contra hne
            have hfull : ∀ x : Txt, x ∈ x.tails := fun x => (List.mem_tails _ _).2 (List.suffix_refl x)
            have hpw : Apart s' s ∨ Apart s s' := by
              rcases List.pairwise_iff_getElem.1 hp with hg
              obtain ⟨i, hi, e1⟩ := List.getElem_of_mem hs'
              obtain ⟨j, hj, e2⟩ := List.getElem_of_mem hs
              rcases Nat.lt_trichotomy i j with hl | hl | hl
              · exact Or.inl (by have := hg i j hi hj hl; rwa [e1, e2] at this)
              · subst hl; exact absurd (e1.symm.trans e2) hne
              · exact Or.inr (by have := hg j i hj hi hl; rwa [e1, e2] at this)
            rcases hpw with hA | hA
            · exact hA.2.1 s.1 (hfull _) (hrs s hs) hc
            · exact hA.2.1 s'.1 (hfull _) (hrs s' hs') hc.symm
          subst heq
          have := List.append_cancel_left ht
          subst this
          exact Simul.hit s' t out' (List.mem_cons_of_mem _ hs) (ih t out' (by simp at hn; omega) h')
        | lit c t' out' hn' h' =>
          exact absurd ⟨_, ht⟩ (hn' s hs)
      · cases text with
        | nil => exact ih [] out (by simp) h
        | cons c t =>
          rw [replaceGo_lit _ _ _ _ h1] at h
          generalize ht : c :: replaceGo r.1 r.2 0 t = u at h
          cases h with
          | nil => cases ht
          | hit s t' out' hs h' =>
            exfalso
            obtain ⟨d, o, ho⟩ := List.exists_cons_of_ne_nil (hrs s hs)
            rw [ho, List.cons_append] at ht
            obtain ⟨rfl, ht'⟩ := List.cons.inj ht
            rcases prefix_replaceGo r.1 r.2 hr t.length t o (le_refl _) ⟨t', ht'.symm⟩ with hh | ⟨a, τ, e1, e2, e3⟩
            · exact h2 ⟨s, hs, by rw [ho]; exact List.cons_prefix_cons.2 ⟨rfl, hh⟩⟩
            · refine (ha s hs).2.2 τ ?_ e2 e3
              rw [ho, List.tail_cons, List.mem_tails, e1]
              exact List.suffix_append _ _
          | lit c' t' out' hn' h' =>
            obtain ⟨rfl, rfl⟩ := List.cons.inj ht
            refine Simul.lit c t out' ?_ (ih t out' (by simp at hn; omega) h')
            intro s hs
            rcases List.mem_cons.1 hs with rfl | hs
            · exact h1
            · exact fun hh => h2 ⟨s, hs, hh⟩

theorem simul_nil : ∀ text : Txt, Simul [] text text
  | [] => Simul.nil
  | c :: t => Simul.lit c t t (by simp) (simul_nil t)

/-! ### numbers -/

theorem digitVal_digit : ∀ n < 10, digitVal (digit n) = some n := by decide

theorem digitsVal_append (a : Txt) (c : Char) : digitsVal (a ++ [c]) =
    (digitsVal a).bind fun x => (digitVal c).map fun d => 10 * x + d := by
  unfold digitsVal
  rw [List.foldlM_append]
  cases List.foldlM (fun a c => Option.map (fun d => 10 * a + d) (digitVal c)) 0 a with
  | none => rfl
  | some x =>
    rw [Option.bind_eq_bind, Option.bind_some, List.foldlM_cons, Option.bind_some]
    cases digitVal c <;> rfl

theorem natStr_val (n : Nat) : digitsVal (natStr n) = some n ∧ natStr n ≠ [] := by
  induction n using Nat.strong_induction_on with
  | _ n ih =>
    rw [natStr]
    by_cases h : n < 10
    · rw [dif_pos h]
      refine ⟨?_, by simp⟩
      have : [digit n] = [] ++ [digit n] := rfl
      rw [this, digitsVal_append, digitVal_digit n h]
      simp [digitsVal]
    · rw [dif_neg h]
      refine ⟨?_, by simp⟩
      rw [digitsVal_append, (ih (n / 10) (by omega)).1, digitVal_digit _ (Nat.mod_lt _ (by omega))]
      simp only [Option.bind_some, Option.map_some, Option.some.injEq]
      omega

theorem padStr_length (k : Nat) : ∀ n, (padStr k n).length = k := by
  induction k with
  | zero => intro n; rfl
  | succ k ih => intro n; simp [padStr, ih]

theorem padStr_val (k : Nat) : ∀ n, digitsVal (padStr k n) = some (n % 10 ^ k) := by
  induction k with
  | zero => intro n; simp [padStr, digitsVal, Nat.mod_one]
  | succ k ih =>
    intro n
    rw [padStr, digitsVal_append, ih, digitVal_digit _ (Nat.mod_lt _ (by omega))]
    simp only [Option.bind_some, Option.map_some, Option.some.injEq]
    rw [pow_succ, Nat.mul_comm (10 ^ k) 10, Nat.mod_mul]
    omega

theorem digit_ne (n : Nat) : digit n ≠ '.' ∧ digit n ≠ '-' := by
  unfold digit
  split <;> decide

theorem natStr_chars (n : Nat) : ∀ c ∈ natStr n, c ≠ '.' ∧ c ≠ '-' := by
  induction n using Nat.strong_induction_on with
  | _ n ih =>
    rw [natStr]
    by_cases h : n < 10
    · rw [dif_pos h]
      intro c hc
      rw [List.mem_singleton] at hc
      subst hc
      exact digit_ne n
    · rw [dif_neg h]
      intro c hc
      rw [List.mem_append, List.mem_singleton] at hc
      rcases hc with hc | rfl
      · exact ih (n / 10) (by omega) c hc
      · exact digit_ne _

theorem takeWhile_int (a b : Txt) (h : ∀ c ∈ a, c ≠ '.' ∧ c ≠ '-') :
    (a ++ '.' :: b).takeWhile (· ≠ '.') = a ∧ (a ++ '.' :: b).dropWhile (· ≠ '.') = '.' :: b := by
  induction a with
  | nil => simp
  | cons c a ih =>
    have hc := (h c (List.mem_cons_self ..)).1
    obtain ⟨h1, h2⟩ := ih (fun c hc => h c (List.mem_cons_of_mem _ hc))
    constructor
    · rw [List.cons_append, List.takeWhile_cons, if_pos (by simpa using hc), h1]
    · rw [List.cons_append, List.dropWhile_cons, if_pos (by simpa using hc), h2]

theorem litVal_fmt (neg : Bool) (n k : Nat) :
    litVal ((if neg then ['-'] else []) ++ natStr (n / 10 ^ k) ++ ['.'] ++ padStr k n) =
      some ((if neg then -1 else 1) * ((n : ℚ) / 10 ^ k)) := by
  have hc := natStr_chars (n / 10 ^ k)
  obtain ⟨hv, hne⟩ := natStr_val (n / 10 ^ k)
  obtain ⟨t1, t2⟩ := takeWhile_int (natStr (n / 10 ^ k)) (padStr k n) hc
  have hhead : (natStr (n / 10 ^ k) ++ '.' :: padStr k n).head? ≠ some '-' := by
    obtain ⟨d, l, hl⟩ := List.exists_cons_of_ne_nil hne
    rw [hl]
    simp
    exact (hc d (by rw [hl]; exact List.mem_cons_self ..)).2
  have hval : ((n / 10 ^ k : Nat) : ℚ) + ((n % 10 ^ k : Nat) : ℚ) / 10 ^ k = (n : ℚ) / 10 ^ k := by
    have h10 : (10 : ℚ) ^ k ≠ 0 := by positivity
    have : (n : ℚ) = ((10 ^ k : Nat) : ℚ) * ((n / 10 ^ k : Nat) : ℚ) + ((n % 10 ^ k : Nat) : ℚ) := by
      rw [← Nat.cast_mul, ← Nat.cast_add, Nat.div_add_mod]
    rw [this]
    push_cast
    field_simp
  have body : ∀ s : Txt, s = natStr (n / 10 ^ k) ++ '.' :: padStr k n →
      s.takeWhile (· ≠ '.') = natStr (n / 10 ^ k) ∧ (s.dropWhile (· ≠ '.')).tail = padStr k n := by
    intro s hs
    rw [hs, t2]
    exact ⟨t1, rfl⟩
  cases neg with
  | false =>
    simp only [Bool.false_eq_true, if_false, List.nil_append, List.append_assoc, List.singleton_append]
    unfold litVal
    simp only [if_neg hhead]
    obtain ⟨b1, b2⟩ := body _ rfl
    rw [b1, b2, if_neg hne, hv, padStr_val, padStr_length]
    simp only [hhead, if_false, hval]
  | true =>
    simp only [if_true, List.append_assoc, List.singleton_append]
    unfold litVal
    simp only [List.cons_append, List.nil_append, List.head?_cons, if_true, List.tail_cons]
    obtain ⟨b1, b2⟩ := body _ rfl
    rw [b1, b2, if_neg hne, hv, padStr_val, padStr_length]
    simp only [hval]

theorem roundEven_err (q : ℚ) (hq : 0 ≤ q) : |(roundEven q : ℚ) - q| ≤ 1 / 2 := by
  have h0 : (0 : Int) ≤ ⌊q⌋ := Int.floor_nonneg.2 hq
  have hf : ((⌊q⌋.toNat : Nat) : ℚ) = (⌊q⌋ : ℚ) := by
    have : ((⌊q⌋.toNat : Nat) : Int) = ⌊q⌋ := Int.toNat_of_nonneg h0
    exact_mod_cast congrArg (Int.cast : Int → ℚ) this
  have h1 : (⌊q⌋ : ℚ) ≤ q := Int.floor_le q
  have h2 : q < ⌊q⌋ + 1 := Int.lt_floor_add_one q
  unfold roundEven
  simp only [hf]
  by_cases c1 : q - ⌊q⌋ < 1 / 2
  · rw [if_pos c1, hf, abs_le]
    constructor <;> linarith
  · rw [if_neg c1]
    by_cases c2 : 1 / 2 < q - ⌊q⌋
    · rw [if_pos c2]
      push_cast
      rw [hf, abs_le]
      constructor <;> linarith
    · rw [if_neg c2]
      by_cases c3 : ⌊q⌋.toNat % 2 = 0
      · rw [if_pos c3, hf, abs_le]
        constructor <;> linarith
      · rw [if_neg c3]
        push_cast
        rw [hf, abs_le]
        constructor <;> linarith

end Verif.Lemmas.Text
