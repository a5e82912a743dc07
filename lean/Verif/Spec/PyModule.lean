import Verif.Spec.Dispatch
import Verif.Model.PyModule
/-!
Specification for C65: words that may be used as a name in the generated C, C++ and Python files alike, and agreement between
the Python file, the bindings and the C++ structs.
-/
namespace Verif.Spec.PyModule
open Verif.Model.Text Verif.Spec.Dispatch Verif.Model.PyModule

/-- Keywords of C (C23), C++ (C++20, with alternative operators) and Python 3. -/
def keywords : List Txt := [
  -- C
  "alignas", "alignof", "auto", "bool", "break", "case", "char", "const", "constexpr", "continue", "default", "do", "double",
  "else", "enum", "extern", "false", "float", "for", "goto", "if", "inline", "int", "long", "nullptr", "register", "restrict",
  "return", "short", "signed", "sizeof", "static", "static_assert", "struct", "switch", "thread_local", "true", "typedef",
  "typeof", "typeof_unqual", "union", "unsigned", "void", "volatile", "while", "_Alignas", "_Alignof", "_Atomic", "_BitInt",
  "_Bool", "_Complex", "_Decimal128", "_Decimal32", "_Decimal64", "_Generic", "_Imaginary", "_Noreturn", "_Static_assert",
  "_Thread_local",
  -- C++
  "and", "and_eq", "asm", "bitand", "bitor", "catch", "char8_t", "char16_t", "char32_t", "class", "compl", "concept",
  "consteval", "constinit", "const_cast", "co_await", "co_return", "co_yield", "decltype", "delete", "dynamic_cast",
  "explicit", "export", "friend", "mutable", "namespace", "new", "noexcept", "not", "not_eq", "operator", "or", "or_eq",
  "private", "protected", "public", "reinterpret_cast", "requires", "static_cast", "template", "this", "throw", "try",
  "typeid", "typename", "using", "virtual", "wchar_t", "xor", "xor_eq",
  -- Python
  "False", "None", "True", "as", "assert", "async", "await", "def", "del", "elif", "except", "finally", "from", "global",
  "import", "in", "is", "lambda", "nonlocal", "pass", "raise", "with", "yield"].map String.toList

/-- A word that all three languages accept as a name. -/
def isWord (t : Txt) : Bool := isIdentifier t && !keywords.contains t

/-- The class is available in Python and has the attribute. -/
def HasAttr (b : Option (List (Txt × Txt))) (a : Txt) : Prop := ∃ l, b = some l ∧ a ∈ l.map Prod.fst

/-- The struct is written and has the member. -/
def HasMember (m : Option (List Txt)) (f : Txt) : Prop := ∃ l, m = some l ∧ f ∈ l

end Verif.Spec.PyModule
