import Verif.Visitor

/-!
# Specification: attributes that are not for the macro (C82)
-/

namespace AutoEnums.Spec

/-- `#[auto_enum]`, `#[never]`, `#[nested]` or `#[rec]`. -/
def forMacro (a : Attr) : Bool :=
  a.path.isIdent "auto_enum" || a.path.isIdent "never" || a.path.isIdent "nested" || a.path.isIdent "rec"

/-- Replaces each attribute that is not for the macro by those that `g` gives (other than attributes for the
macro).  Attributes for the macro stay where they are. -/
def reattach (g : Attr → List Attr) (as : List Attr) : List Attr :=
  as.flatMap fun a => if forMacro a then [a] else (g a).filter fun b => !forMacro b

mutual
/-- The tree with other attributes that are not for the macro. -/
def reattached (g : Attr → List Attr) : Node → Node
  | .mk k as ks => .mk k (reattach g as) (reattachedL g ks)
def reattachedL (g : Attr → List Attr) : List Node → List Node
  | [] => []
  | n :: ns => reattached g n :: reattachedL g ns
end

def reattachedInput (g : Attr → List Attr) : Input → Input
  | .stmt n => .stmt (reattached g n)
  | .expr n => .expr (reattached g n)
  | .invalid => .invalid

def reattachedOutput (g : Attr → List Attr) : Output → Output
  | .code n => .code (reattached g n)
  | o => o

/-- Drops the attributes that are not for the macro. -/
def dropped : Attr → List Attr := fun _ => []

end AutoEnums.Spec
