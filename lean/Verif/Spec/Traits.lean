import Verif.Visitor

/-!
# Specification vocabulary: expansions up to the traits of an enum
-/

namespace AutoEnums.Spec

mutual
/-- The code with an empty list of traits in the declaration of the enum called `en`. -/
def hideTraits (en : Ident) : Node → Node
  | .mk k as ks => .mk (match k with
      | .sItem (.genEnum id vs fs ts) => .sItem (.genEnum id vs fs (if id = en then [] else ts))
      | k => k) as (hideTraitsL en ks)
def hideTraitsL (en : Ident) : List Node → List Node
  | [] => []
  | n :: ns => hideTraits en n :: hideTraitsL en ns
end

/-- The same for an outcome. -/
def hideTraitsOut (en : Ident) : Output → Output
  | .code n => .code (hideTraits en n)
  | o => o

/-- A `let` statement with a type. -/
def annotatedLet : Input → Bool
  | .stmt (.mk (.sLocal (.typed _ _)) _ _) => true
  | _ => false

/-- The code without the type of the `let` statement it consists of. -/
def dropType : Node → Node
  | .mk (.sLocal (.typed s _)) as ks => .mk (.sLocal (.plain s)) as ks
  | n => n

/-- The same for an outcome. -/
def dropTypeOut : Output → Output
  | .code n => .code (dropType n)
  | o => o

end AutoEnums.Spec
