import Verif.Syntax

/-!
# Specification vocabulary: what a tree contains

Nothing in this file refers to the model of the code.
-/

namespace AutoEnums.Spec

/-- A node without its kids. -/
abbrev Label := Kind × List Attr

mutual
/-- The labels of all nodes of a tree in source order (a node before its kids), including what is
inside macro calls. -/
def labels : Node → List Label
  | .mk k as ks => (k, as) :: labelsL ks
/-- The labels of a sequence of trees. -/
def labelsL : List Node → List Label
  | [] => []
  | n :: ns => labels n ++ labelsL ns
end

/-- The sum of a weight over all nodes. -/
def weigh (w : Label → Nat) (n : Node) : Nat := ((labels n).map w).sum

def weighL (w : Label → Nat) (ns : List Node) : Nat := ((labelsL ns).map w).sum

/-- The path `Enum::Variant`. -/
def variantPath (en vn : Ident) : Path := ⟨false, [⟨en, none⟩, ⟨vn, none⟩]⟩

/-- The node is the expression `en::vn`. -/
def isUse (en vn : Ident) : Label → Nat
  | (.ePath false p, _) => if p = variantPath en vn then 1 else 0
  | _ => 0

/-- How many variants named `vn` the node declares for an enum named `en`. -/
def isDecl (en vn : Ident) : Label → Nat
  | (.sItem (.genEnum name _ vs _), _) => if name = en then (vs.map (·.1)).count vn else 0
  | _ => 0

/-- How often the constructor `en::vn` is used. -/
def uses (en vn : Ident) (n : Node) : Nat := weigh (isUse en vn) n

/-- How often a variant `en::vn` is declared by generated enums. -/
def decls (en vn : Ident) (n : Node) : Nat := weigh (isDecl en vn) n

/-- A generated enum. -/
structure GenEnum where
  name : Ident
  generics : List Ident
  variants : List (Ident × Ident)
  derives : List Path
deriving DecidableEq, Repr

/-- The generated enum declared by a node. -/
def enumOf : Label → Option GenEnum
  | (.sItem (.genEnum n g v d), _) => some ⟨n, g, v, d⟩
  | _ => none

/-- The generated enums of a tree, in source order. -/
def enums (n : Node) : List GenEnum := (labels n).filterMap enumOf

/-- All attributes of a tree. -/
def allAttrs (n : Node) : List Attr := (labels n).flatMap (·.2)

end AutoEnums.Spec
