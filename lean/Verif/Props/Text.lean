import Verif.Lemmas.Text
import Mathlib.Data.List.Nodup
/-!
C44 (numbers survive printing), C49 (text helpers), C53 (struct initialisers).
-/
namespace Verif.Props
open Verif.Model.Text Verif.Spec.Text Verif.Lemmas.Text

/-! ### C49 -/

/-- C49 (cutting): if the expression occurs, the result is a prefix of the text that is followed by the
expression, and no earlier occurrence exists; if it does not occur, the text is unchanged. -/
theorem C49_cut (text e : Txt) :
    (∀ pre post, text = pre ++ e ++ post → ∃ post', text = cutFromExpr text e ++ e ++ post' ∧
      ∀ pre post, text = pre ++ e ++ post → (cutFromExpr text e).length ≤ pre.length) ∧
    ((∀ pre post, text ≠ pre ++ e ++ post) → cutFromExpr text e = text) := by
  constructor
  · intro pre post h
    unfold cutFromExpr
    cases hf : find e text with
    | none => exact absurd h (find_none e text hf pre post)
    | some i =>
      obtain ⟨⟨post', h1⟩, h2⟩ := find_some e text i hf
      refine ⟨post', h1, fun pre post h => ?_⟩
      rw [List.length_take]
      exact Nat.le_trans (Nat.min_le_left _ _) (h2 pre post h)
  · intro h
    unfold cutFromExpr
    cases hf : find e text with
    | none => rfl
    | some i =>
      obtain ⟨⟨post', h1⟩, _⟩ := find_some e text i hf
      exact absurd h1 (h _ _)

example : cutFromExpr "int a;\n#ifdef X\n#ifdef X".toList "#ifdef X".toList = "int a;\n".toList := by decide

/-- C49 (replacing): if the replacements do not interact, applying them one after the other is the
simultaneous replacement. -/
theorem C49_replace (reps : List (Txt × Txt)) (hn : ∀ r ∈ reps, r.1 ≠ []) (ha : reps.Pairwise Apart) (text : Txt) :
    Simul reps text (multipleReplace text reps) := by
  induction reps generalizing text with
  | nil => exact simul_nil text
  | cons r rs ih =>
    obtain ⟨h1, h2⟩ := List.pairwise_cons.1 ha
    have hr := hn r (List.mem_cons_self ..)
    have hrs : ∀ s ∈ rs, s.1 ≠ [] := fun s hs => hn s (List.mem_cons_of_mem _ hs)
    refine simul_step r rs hr hrs h1 h2 text.length text _ (le_refl _) ?_
    have := ih hrs h2 (replaceAll r.1 r.2 text)
    rw [← show replaceAll r.1 r.2 text = replaceGo r.1 r.2 0 text from if_neg hr]
    exact this

/-- C49: simultaneous replacement determines its result, for old texts none of which is a prefix of
another (so the theorem above says which text comes out). -/
theorem C49_simul_unique (reps : List (Txt × Txt)) (hn : ∀ r ∈ reps, r.1 ≠ [])
    (hp : ∀ r ∈ reps, ∀ s ∈ reps, r.1 <+: s.1 → r = s) (text o1 o2 : Txt)
    (h1 : Simul reps text o1) (h2 : Simul reps text o2) : o1 = o2 := by
  induction h1 generalizing o2 with
  | nil =>
    generalize ht : ([] : Txt) = t at h2
    cases h2 with
    | nil => rfl
    | hit r t' out hr _ => exact absurd (List.append_eq_nil_iff.1 ht.symm).1 (hn r hr)
    | lit c t' out _ _ => cases ht
  | hit r t out hr _ ih =>
    generalize ht : r.1 ++ t = u at h2
    cases h2 with
    | nil => exact absurd (List.append_eq_nil_iff.1 ht).1 (hn r hr)
    | hit s t' out' hs h' =>
      have : r = s := by
        rcases List.prefix_or_prefix_of_prefix (List.prefix_append r.1 t) (ht ▸ List.prefix_append s.1 t') with h | h
        · exact hp r hr s hs h
        · exact (hp s hs r hr h).symm
      subst this
      have := List.append_cancel_left ht
      subst this
      rw [ih _ h']
    | lit c t' out' hn' h' => exact absurd ⟨_, ht⟩ (hn' r hr)
  | lit c t out hl _ ih =>
    generalize ht : c :: t = u at h2
    cases h2 with
    | nil => cases ht
    | hit s t' out' hs h' => exact absurd ⟨_, ht.symm⟩ (hl s hs)
    | lit c' t' out' hn' h' =>
      obtain ⟨rfl, rfl⟩ := List.cons.inj ht
      rw [ih _ h']

/-- The replacements for the makefile of SCS (scs.py:158-164). -/
def scsReps : List (Txt × Txt) :=
  [(" include/".toList, " ${CMAKE_CURRENT_SOURCE_DIR}/include/".toList),
   (" src/".toList, " ${CMAKE_CURRENT_SOURCE_DIR}/src/".toList),
   (" ${LINSYS}/".toList, " ${CMAKE_CURRENT_SOURCE_DIR}/${LINSYS}/".toList)]

example : (∀ r ∈ scsReps, r.1 ≠ []) ∧ scsReps.Pairwise Apart ∧
    (∀ r ∈ scsReps, ∀ s ∈ scsReps, r.1 <+: s.1 → r = s) := by decide

/-- Replacements that interact are not simultaneous: swapping two names one after the other merges them. -/
theorem C49_interacting_fails :
    let reps := [("a".toList, "b".toList), ("b".toList, "a".toList)]
    ¬ Simul reps "ab".toList (multipleReplace "ab".toList reps) := by
  intro reps h
  have h' : Simul reps "ab".toList "ba".toList :=
    Simul.hit ("a".toList, "b".toList) _ _ (by decide)
      (Simul.hit ("b".toList, "a".toList) [] [] (by decide) Simul.nil)
  have := C49_simul_unique reps (by decide) (by decide) _ _ _ h h'
  revert this
  decide

/-! ### C44 -/

theorem shows_fin (neg : Bool) (mag : ℚ) (h : 0 ≤ mag) : Shows (fmt20 (.fin neg mag)) (.fin neg mag) := by
  refine ⟨_, _, litVal_fmt neg (roundEven (mag * 10 ^ 20)) 20, rfl, ?_, ?_⟩
  · have he := roundEven_err (mag * 10 ^ 20) (by positivity)
    have h10 : (0 : ℚ) < 10 ^ 20 := by positivity
    have key : |(roundEven (mag * 10 ^ 20) : ℚ) / 10 ^ 20 - mag| ≤ 1 / 2 / 10 ^ 20 := by
      have : (roundEven (mag * 10 ^ 20) : ℚ) / 10 ^ 20 - mag = ((roundEven (mag * 10 ^ 20) : ℚ) - mag * 10 ^ 20) / 10 ^ 20 := by
        field_simp
      rw [this, abs_div, abs_of_pos h10]
      exact div_le_div_of_nonneg_right he h10.le
    cases neg with
    | false => simpa using key
    | true =>
      simp only [if_true]
      rw [← mul_sub, abs_mul]
      simpa using key
  · have hhead : ∀ n : Nat, ∀ l : Txt, (natStr n ++ l).head? ≠ some '-' := by
      intro n l
      obtain ⟨d, r, hd⟩ := List.exists_cons_of_ne_nil (natStr_val n).2
      rw [hd]
      simp only [List.cons_append, List.head?_cons, ne_eq, Option.some.injEq]
      exact (natStr_chars n d (by rw [hd]; exact List.mem_cons_self ..)).2
    cases neg with
    | false =>
      simp only [fmt20, Bool.false_eq_true, if_false, List.nil_append, List.append_assoc, iff_false]
      exact hhead _ _
    | true => simp [fmt20]

/-- A number that the generator may have to print: non-negative magnitude, not NaN. -/
def Num : FVal → Prop
  | .fin _ mag => 0 ≤ mag
  | .inf _ => True
  | .nan => False

/-- C44 for every array of canonical parameters: as many initialisers as entries, each showing its entry
up to `0.5e-20` with the right sign, infinities as `±1e30`. -/
theorem C44_canonical (v : List FVal) (hv : ∀ x ∈ v, Num x) :
    (canonInit v).length = v.length ∧
    ∀ (i : Nat) (x : FVal), v[i]? = some x → ∃ t, (canonInit v)[i]? = some t ∧ Shows t x := by
  refine ⟨by simp [canonInit, vecInit], fun i x hi => ?_⟩
  refine ⟨fmt20 (replaceInf x), by simp [canonInit, vecInit, hi], ?_⟩
  have hx := hv x (List.mem_of_getElem? hi)
  cases x with
  | fin neg mag => exact shows_fin neg mag hx
  | inf neg => exact shows_fin neg big30 (by unfold big30; norm_num)
  | nan => exact absurd hx id

/-- C44 for the array of user parameters and for the constant `d`; both are printed without replacing
infinities, so only finite values are covered (see `C44_fails`). -/
theorem C44_partial (v : List FVal) (hv : ∀ x ∈ v, ∃ neg mag, x = .fin neg mag ∧ 0 ≤ mag) :
    (paramsInit v).length = v.length ∧
    (∀ (i : Nat) (x : FVal), v[i]? = some x → ∃ t, (paramsInit v)[i]? = some t ∧ Shows t x) ∧
    ∀ x ∈ v, Shows (dInit x) x := by
  refine ⟨by simp [paramsInit, vecInit], fun i x hi => ⟨fmt20 x, by simp [paramsInit, vecInit, hi], ?_⟩, fun x hx => ?_⟩
  · obtain ⟨neg, mag, rfl, h⟩ := hv x (List.mem_of_getElem? hi)
    exact shows_fin neg mag h
  · obtain ⟨neg, mag, rfl, h⟩ := hv x hx
    exact shows_fin neg mag h

/-- C44 fails for infinite user parameters: the initialiser printed is not a number. -/
theorem C44_fails : ∃ v : List FVal, (∀ x ∈ v, Num x) ∧ ∃ t ∈ paramsInit v, litVal t = none :=
  ⟨[.inf false], by simp [Num], ['i', 'n', 'f'], by simp [paramsInit, vecInit, fmt20], by decide⟩

/-- C44 for sparse matrices: index arrays are printed exactly. -/
theorem C44_indices (indices indptr : List Nat) (data : List FVal) :
    (∀ (i k : Nat), indices[i]? = some k → ∃ t, (matInit indices indptr data).1[i]? = some t ∧ digitsVal t = some k) ∧
    (∀ (i k : Nat), indptr[i]? = some k → ∃ t, (matInit indices indptr data).2.1[i]? = some t ∧ digitsVal t = some k) ∧
    (matInit indices indptr data).1.length = indices.length ∧
    (matInit indices indptr data).2.1.length = indptr.length ∧
    digitsVal (matInit indices indptr data).2.2.2 = some data.length ∧
    ((∀ x ∈ data, Num x) → ∀ (i : Nat) (x : FVal), data[i]? = some x →
      ∃ t, (matInit indices indptr data).2.2.1[i]? = some t ∧ Shows t x) := by
  refine ⟨fun i k h => ⟨natStr k, by simp [matInit, intInit, h], (natStr_val k).1⟩,
    fun i k h => ⟨natStr k, by simp [matInit, intInit, h], (natStr_val k).1⟩, by simp [matInit, intInit],
    by simp [matInit, intInit], (natStr_val _).1, fun hv => (C44_canonical data hv).2⟩

example : Num (.fin true (1 / 3)) ∧ Num (.inf true) ∧
    canonInit [.fin true (1 / 8), .inf true] =
      ["-0.12500000000000000000".toList, "-1000000000000000019884624838656.00000000000000000000".toList] := by
  refine ⟨by norm_num [Num], trivial, ?_⟩
  have h1 : roundEven (1 / 8 * 10 ^ 20) = 12500000000000000000 := by
    have : (1 / 8 * 10 ^ 20 : ℚ) = ((12500000000000000000 : Nat) : ℚ) := by norm_num
    unfold roundEven
    rw [this, Int.floor_natCast, Int.toNat_natCast]
    simp only [sub_self]
    rw [if_pos (by norm_num)]
  have h2 : roundEven (big30 * 10 ^ 20) = 100000000000000001988462483865600000000000000000000 := by
    have : (big30 * 10 ^ 20 : ℚ) = ((100000000000000001988462483865600000000000000000000 : Nat) : ℚ) := by
      unfold big30; norm_num
    unfold roundEven
    rw [this, Int.floor_natCast, Int.toNat_natCast]
    simp only [sub_self]
    rw [if_pos (by norm_num)]
  simp only [canonInit, vecInit, List.map_cons, List.map_nil, replaceInf, fmt20, h1, h2]
  have n0 : natStr (12500000000000000000 / 10 ^ 20) = ['0'] := by rw [natStr]; rfl
  have n1 : natStr (100000000000000001988462483865600000000000000000000 / 10 ^ 20) =
      "1000000000000000019884624838656".toList := by
    norm_num
    repeat (rw [natStr]; norm_num [digit])
    decide
  rw [n0, n1]
  decide

/-! ### C53 -/

theorem fieldValue_map {α : Type} (name : α → String) (val : α → String × String) (l : List α)
    (hn : (l.map name).Nodup) (a : α) (ha : a ∈ l) :
    fieldValue (l.map fun a => (name a, val a)) (name a) = some (val a) := by
  unfold fieldValue
  have h : ∀ r : List α, (∀ b ∈ r, ∀ c ∈ r, name b = name c → b = c) → a ∈ r →
      ((r.map fun a => (name a, val a)).find? (fun l => l.1 = name a)).map (·.2) = some (val a) := by
    intro r
    induction r with
    | nil => intro _ h; cases h
    | cons b r ih =>
      intro hi h
      by_cases hb : name b = name a
      · have : b = a := hi b (List.mem_cons_self ..) a h hb
        subst this
        simp
      · rw [List.map_cons, List.find?_cons]
        simp only [hb, decide_false]
        refine ih (fun x hx y hy => hi x (List.mem_cons_of_mem _ hx) y (List.mem_cons_of_mem _ hy)) ?_
        rcases List.mem_cons.1 h with e | h
        · subst e; exact absurd rfl hb
        · exact h
  rw [← List.map_reverse]
  refine h l.reverse ?_ (List.mem_reverse.2 ha)
  intro b hb c hc he
  exact List.inj_on_of_nodup_map hn (List.mem_reverse.1 hb) (List.mem_reverse.1 hc) he

theorem structDef_map {α : Type} (name cast val : α → String) (l : List α) :
    structDef (l.map name) (l.map cast) (l.map val) =
      l.map fun a => (name a, if val a = "0" ∨ val a = "SCS_NULL" then "" else cast a, val a) := by
  unfold structDef
  induction l with
  | nil => rfl
  | cons a l ih => simp only [List.map_cons, List.zip_cons_cons, List.zipWith_cons_cons, ih]

/-- C53: with as many casts and values as fields, and different fields, the `i`-th field is initialised by
the `i`-th value, without cast if the value is NULL and with the `i`-th cast otherwise. -/
theorem C53_struct (fields casts values : List String) (hc : casts.length = fields.length)
    (hv : values.length = fields.length) (hn : fields.Nodup) (i : Nat) (f c v : String)
    (h1 : fields[i]? = some f) (h2 : casts[i]? = some c) (h3 : values[i]? = some v) :
    fieldValue (structDef fields casts values) f =
      some (if v = "0" ∨ v = "SCS_NULL" then "" else c, v) ∧
    (structDef fields casts values).length = fields.length := by
  have hl : ∀ (fs cs vs : List String), cs.length = fs.length → vs.length = fs.length →
      ∃ l : List (String × String × String), l.map (·.1) = fs ∧ l.map (·.2.1) = cs ∧ l.map (·.2.2) = vs := by
    intro fs
    induction fs with
    | nil => intro cs vs hc hv; exact ⟨[], rfl, by simp_all, by simp_all⟩
    | cons f fs ih =>
      intro cs vs hc hv
      cases cs with
      | nil => simp at hc
      | cons c cs =>
        cases vs with
        | nil => simp at hv
        | cons v vs =>
          obtain ⟨l, e1, e2, e3⟩ := ih cs vs (by simpa using hc) (by simpa using hv)
          exact ⟨(f, c, v) :: l, by simp [e1], by simp [e2], by simp [e3]⟩
  obtain ⟨l, rfl, rfl, rfl⟩ := hl fields casts values hc hv
  rw [structDef_map]
  refine ⟨?_, by simp⟩
  rw [List.getElem?_map] at h1 h2 h3
  cases ha : l[i]? with
  | none => rw [ha] at h1; cases h1
  | some a =>
    rw [ha] at h1 h2 h3
    cases h1; cases h2; cases h3
    exact fieldValue_map (fun a : String × String × String => a.1)
      (fun a => (if a.2.2 = "0" ∨ a.2.2 = "SCS_NULL" then "" else a.2.1, a.2.2)) l hn a (List.mem_of_getElem? ha)

/-- C53 for the structs of primal and dual variables, canonical parameters (both copies) and parameter
deltas: each object's field is initialised by this object's own value. -/
theorem C53_objects (pre solx suffix : String) (st : Bool) :
    (∀ (vars : List VarDesc), (vars.map (·.name)).Nodup → ∀ v ∈ vars, ∃ c,
      fieldValue (primStruct pre solx st vars) v.name = some (c, primValue pre solx st v) ∧ (v.size = 1 → c = "")) ∧
    (∀ (vars : List DualDesc), (vars.map (·.name)).Nodup → ∀ v ∈ vars, ∃ c,
      fieldValue (dualStruct pre st vars) v.name = some (c, dualValue pre st v) ∧ (v.initSize = 1 → c = "")) ∧
    (∀ (ps : List CanonDesc), (ps.map (·.id)).Nodup → ∀ p ∈ ps, ∃ c,
      fieldValue (canonStruct pre suffix ps) p.id = some (c, canonValue pre suffix p) ∧ (p.empty = true → c = "")) ∧
    (∀ (cols : List (Nat × String)), (cols.map (·.2)).Nodup → ∀ p ∈ cols, ∃ c,
      fieldValue (deltaStruct pre cols) p.2 = some (c, "&" ++ pre ++ "cpg_dp + " ++ toString p.1)) := by
  refine ⟨fun vars hn v hv => ?_, fun vars hn v hv => ?_, fun ps hn p hp => ?_, fun cols hn p hp => ?_⟩
  · unfold primStruct
    rw [structDef_map]
    refine ⟨_, fieldValue_map (fun v : VarDesc => v.name) _ vars hn v hv, fun h => ?_⟩
    rw [if_pos (Or.inl (show primValue pre solx st v = "0" from if_pos h))]
  · unfold dualStruct
    rw [structDef_map]
    refine ⟨_, fieldValue_map (fun v : DualDesc => v.name) _ vars hn v hv, fun h => ?_⟩
    rw [if_pos (Or.inl (show dualValue pre st v = "0" from if_pos h))]
  · unfold canonStruct
    rw [structDef_map]
    refine ⟨_, fieldValue_map (fun v : CanonDesc => v.id) _ ps hn p hp, fun h => ?_⟩
    rw [if_pos (Or.inl (show canonValue pre suffix p = "0" from if_pos h))]
  · unfold deltaStruct
    rw [structDef_map]
    exact ⟨_, fieldValue_map (fun c : Nat × String => c.2) _ cols hn p hp⟩

/-- What a field of a struct of variables stands for. -/
inductive FieldTarget where
  /-- a number, initially zero -/
  | zero
  /-- the array that belongs to the variable -/
  | own (array : String)
  /-- entries of a vector of the solver from an offset on -/
  | entry (vec : String) (offset : Nat)
  deriving DecidableEq

/-- The C expression for it. -/
def FieldTarget.text : FieldTarget → String
  | .zero => "0"
  | .own a => "&" ++ a
  | .entry v k => "&" ++ v ++ " + " ++ toString k

/-- A primal variable with several entries can be read in place only if the solver's memory does not move and holds its
entries as they are; symmetric variables are held as triangles. -/
def primTarget (pre solx : String) (st : Bool) (v : VarDesc) : FieldTarget :=
  match v.size, v.sym, st with
  | 1, _, _ => .zero
  | _, false, true => .entry solx v.offset
  | _, _, _ => .own (pre ++ v.name)

def dualTarget (pre : String) (st : Bool) (v : DualDesc) : FieldTarget :=
  match v.initSize, st with
  | 1, _ => .zero
  | _, true => .entry v.vec v.offset
  | _, false => .own (pre ++ v.name)

/-- Canonical parameters are NULL if they are empty, the constant is a number, all others have arrays. -/
def canonText (pre suffix : String) (p : CanonDesc) : String :=
  match p.empty, decide (p.id = "d") with
  | true, _ => "0"
  | false, true => p.printed
  | false, false => (FieldTarget.own (pre ++ "canon_" ++ p.id ++ suffix)).text

theorem text_null (t : FieldTarget) : (t.text = "0" ∨ t.text = "SCS_NULL") ↔ t = .zero := by
  have hamp : ∀ s : String, ¬ ("&" ++ s = "0" ∨ "&" ++ s = "SCS_NULL") := by
    intro s h
    rcases h with h | h <;>
    · have := congrArg String.toList h
      rw [String.toList_append] at this
      revert this
      simp
  cases t with
  | zero => exact ⟨fun _ => rfl, fun _ => .inl rfl⟩
  | own a => exact ⟨fun h => absurd h (hamp a), nofun⟩
  | entry v k =>
    refine ⟨fun h => absurd h ?_, nofun⟩
    unfold FieldTarget.text
    dsimp only
    rw [String.append_assoc, String.append_assoc]
    exact hamp _

theorem primValue_text (pre solx : String) (st : Bool) (v : VarDesc) :
    primValue pre solx st v = (primTarget pre solx st v).text := by
  unfold primValue primTarget
  by_cases h1 : v.size = 1
  · simp [h1, FieldTarget.text]
  · cases hs : v.sym <;> cases st <;> simp [h1, FieldTarget.text, String.append_assoc]

theorem dualValue_text (pre : String) (st : Bool) (v : DualDesc) :
    dualValue pre st v = (dualTarget pre st v).text := by
  unfold dualValue dualTarget
  by_cases h1 : v.initSize = 1
  · simp [h1, FieldTarget.text]
  · cases st <;> simp [h1, FieldTarget.text, String.append_assoc]

theorem dualTarget_zero (pre : String) (st : Bool) (v : DualDesc) : dualTarget pre st v = .zero ↔ v.initSize = 1 := by
  unfold dualTarget
  by_cases h1 : v.initSize = 1
  · simp [h1]
  · cases st <;> simp [h1]

/-- C53, what the values are: numbers start at zero; variables with several entries point to their place in the solver's
memory if they can be read there and to arrays of their own otherwise. Pointers are cast if the initial value is an array. -/
theorem C53_targets (pre solx suffix : String) (st : Bool) :
    (∀ (vars : List VarDesc), (vars.map (·.name)).Nodup → ∀ v ∈ vars,
      fieldValue (primStruct pre solx st vars) v.name =
        some (if primTarget pre solx st v = .zero ∨ v.initSize = 1 then "" else "(cpg_float *) ",
          (primTarget pre solx st v).text)) ∧
    (∀ (vars : List DualDesc), (vars.map (·.name)).Nodup → ∀ v ∈ vars,
      fieldValue (dualStruct pre st vars) v.name =
        some (if v.initSize = 1 then "" else "(cpg_float *) ", (dualTarget pre st v).text)) ∧
    (∀ (ps : List CanonDesc), (ps.map (·.id)).Nodup → ∀ p ∈ ps, ∃ c,
      fieldValue (canonStruct pre suffix ps) p.id = some (c, canonText pre suffix p)) := by
  refine ⟨fun vars hn v hv => ?_, fun vars hn v hv => ?_, fun ps hn p hp => ?_⟩
  · unfold primStruct
    rw [structDef_map, fieldValue_map (fun v : VarDesc => v.name) _ vars hn v hv, primValue_text]
    congr 2
    by_cases hz : primTarget pre solx st v = .zero
    · rw [if_pos ((text_null _).2 hz), if_pos (Or.inl hz)]
    · rw [if_neg fun h => hz ((text_null _).1 h)]
      simp [hz]
  · unfold dualStruct
    rw [structDef_map, fieldValue_map (fun v : DualDesc => v.name) _ vars hn v hv, dualValue_text]
    congr 2
    by_cases hz : dualTarget pre st v = .zero
    · rw [if_pos ((text_null _).2 hz), if_pos ((dualTarget_zero ..).1 hz)]
    · rw [if_neg fun h => hz ((text_null _).1 h)]
  · unfold canonStruct
    rw [structDef_map]
    have hv : canonText pre suffix p = canonValue pre suffix p := by
      unfold canonValue canonText
      cases he : p.empty <;> by_cases hd : p.id = "d" <;> simp [hd, FieldTarget.text, String.append_assoc]
    rw [hv]
    exact ⟨_, fieldValue_map (fun v : CanonDesc => v.id) _ ps hn p hp⟩

example : primTarget "p_" "sol_x" true ⟨"S", 4, 4, true, 3⟩ = .own "p_S" ∧
    primTarget "p_" "sol_x" true ⟨"x", 3, 3, false, 3⟩ = .entry "sol_x" 3 := by decide

/-- C53 for the struct of results: in every mode the field `prim` points to the primal variables, and
`dual`, `info` to theirs exactly if they are there. -/
theorem C53_result (pre : String) (explicit : Nat) (hasDual : Bool) :
    fieldValue (resultStruct pre explicit hasDual) "prim" = some ("", "&" ++ pre ++ "CPG_Prim") ∧
    fieldValue (resultStruct pre explicit hasDual) "dual" =
      (if hasDual = true ∧ explicit ≠ 1 then some ("", "&" ++ pre ++ "CPG_Dual") else none) ∧
    fieldValue (resultStruct pre explicit hasDual) "info" =
      (if explicit ≠ 1 ∧ explicit ≠ 2 then some ("", "&" ++ pre ++ "CPG_Info") else none) := by
  unfold resultStruct
  by_cases h1 : explicit = 1
  · subst h1
    simp [structDef, fieldValue]
  · by_cases h2 : explicit = 2
    · subst h2
      cases hasDual <;> simp [structDef, fieldValue]
    · cases hasDual <;> simp [structDef, fieldValue, h1, h2]

example : (["x", "y"].map id).Nodup ∧
    fieldValue (primStruct "p_" "sol_x" true [⟨"x", 3, 3, false, 0⟩, ⟨"t", 1, 1, false, 3⟩]) "t" = some ("", "0") := by
  decide

end Verif.Props
