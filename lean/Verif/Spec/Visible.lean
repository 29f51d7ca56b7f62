import Verif.Spec.Tree

/-!
# Specification vocabulary: code that is not inside macro calls or items

Nothing in this file refers to the model of the code.
-/

namespace AutoEnums.Spec

/-- Macro calls (their arguments are tokens) and nested items (separate scopes). -/
def hidesCode : Kind → Bool
  | .eMacro _ _ => true
  | .sMacro _ _ => true
  | .sItem _ => true
  | .eVerbatim _ => true
  | _ => false

mutual
/-- The labels of the nodes of a tree outside of macro calls and nested items, in source order. -/
def visible : Node → List Label
  | .mk k as ks => (k, as) :: if hidesCode k then [] else visibleL ks
def visibleL : List Node → List Label
  | [] => []
  | n :: ns => visible n ++ visibleL ns
end

/-- The attribute `#[s]`, `#[s(..)]` or `#[s = ..]`. -/
def named (s : String) (a : Attr) : Bool := a.path == ⟨false, [⟨s, none⟩]⟩

/-- Some node outside of macro calls and nested items has an attribute named `s`. -/
def hasAttr (s : String) (n : Node) : Bool := (visible n).any fun l => l.2.any (named s)

def hasAttrL (s : String) (ns : List Node) : Bool := (visibleL ns).any fun l => l.2.any (named s)

end AutoEnums.Spec
