import Verif.Spec.Tree

/-!
# Specification vocabulary: traits of type annotations

Nothing in this file refers to the model of the code.
-/

namespace AutoEnums.Spec

mutual
/-- The trait paths of all `impl A + B` types in a type, inner types first, bounds in order. -/
def boundPaths : Ty → List Path
  | .mk k kids => boundPathsL kids ++ (match k with | .implTrait bs => bs.filterMap id | _ => [])
def boundPathsL : List Ty → List Path
  | [] => []
  | t :: ts => boundPaths t ++ boundPathsL ts
end

/-- A path without generic arguments and leading `::`. -/
def bare (p : Path) : Path := ⟨false, p.segs.map fun s => ⟨s.ident, none⟩⟩

/-- A path as written without spaces. -/
def spelled (p : Path) : String := "::".intercalate (p.segs.map (·.ident))

/-- The traits the `type_analysis` feature supports. -/
def analysable : List String :=
  ["AsMut", "AsRef", "BufRead", "Clone", "Copy", "Coroutine", "Debug", "Deref", "DerefMut",
   "Display", "DoubleEndedIterator", "Eq", "Error", "ExactSizeIterator", "Extend", "Fn", "FnMut",
   "FnOnce", "FusedIterator", "Future", "Hash", "Index", "IndexMut", "Iterator", "Ord", "PartialEq",
   "PartialOrd", "RangeBounds", "Read", "Seek", "TrustedLen", "Write", "error::Error",
   "fmt::Binary", "fmt::Debug", "fmt::Display", "fmt::LowerExp", "fmt::LowerHex", "fmt::Octal",
   "fmt::Pointer", "fmt::UpperExp", "fmt::UpperHex", "fmt::Write", "io::BufRead", "io::Read",
   "io::Seek", "io::Write"]

/-- The traits inferred from an annotation: the supported ones among those named by `impl Trait`
types that are not already arguments. -/
def inferred (args : List Path) (ty : Ty) : List Path :=
  ((boundPaths ty).map bare).filter fun p => p ∉ args ∧ spelled p ∈ analysable

/-- The type annotation of a `let` statement or the return type of a function. -/
def annotationOf : Label → Option Ty
  | (.sLocal (.typed _ ty), _) => some ty
  | (.iFn _ ret, _) => ret
  | _ => none

end AutoEnums.Spec
