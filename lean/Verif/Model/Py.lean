/-!
Exceptions as values: the Python exceptions that the modelled functions can raise.
-/
namespace Verif.Model

/-- Python exceptions raised by the modelled code. -/
inductive PyErr where
  | keyError
  | indexError
  | valueError
  | attributeError
  | assertionError
  | typeError
  | recursionError
  | osError
  deriving DecidableEq, Repr

instance {ε α} [DecidableEq ε] [DecidableEq α] : DecidableEq (Except ε α)
  | .ok a, .ok b => if h : a = b then isTrue (by rw [h]) else isFalse (by intro h'; cases h'; exact h rfl)
  | .error a, .error b =>
      if h : a = b then isTrue (by rw [h]) else isFalse (by intro h'; cases h'; exact h rfl)
  | .ok _, .error _ => isFalse (by intro h; cases h)
  | .error _, .ok _ => isFalse (by intro h; cases h)

/-! ### Dictionaries

A Python dict as an association list in insertion order. -/

/-- `d[k] = v`: an existing key keeps its position. -/
def dictSet {κ ν : Type} [DecidableEq κ] : List (κ × ν) → κ → ν → List (κ × ν)
  | [], k, v => [(k, v)]
  | (k', v') :: d, k, v => if k' = k then (k', v) :: d else (k', v') :: dictSet d k v

/-- `{k: v for k, v in l}`. -/
def dictOf {κ ν : Type} [DecidableEq κ] (l : List (κ × ν)) : List (κ × ν) :=
  l.foldl (fun d kv => dictSet d kv.1 kv.2) []

end Verif.Model
