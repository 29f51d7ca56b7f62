import Verif.Spec.Result

/-!
# Specification vocabulary: code without anything to treat

Nothing in this file refers to the model of the code.
-/

namespace AutoEnums.Spec

/-- A node that the attribute has no business with: no `return`, no `?`, no call of the marker `m`,
and no helper attribute. -/
def quietHere (m : String) (l : Label) : Bool :=
  (match l.1 with
    | .eReturn | .eTry => false
    | .eMacro p _ => p != ⟨false, [⟨m, none⟩]⟩
    | _ => true) &&
  l.2.all fun a => !named "never" a && !named "nested" a

/-- No visible node of the tree is any business of the attribute. -/
def quiet (m : String) (n : Node) : Bool := (visible n).all (quietHere m)

def quietL (m : String) (ns : List Node) : Bool := (visibleL ns).all (quietHere m)

end AutoEnums.Spec
