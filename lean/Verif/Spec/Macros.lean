import Verif.Spec.Within
import Verif.Spec.Break

/-!
# Specification vocabulary: macro calls

Nothing in this file refers to the model of the code.
-/

namespace AutoEnums.Spec

/-- Calls of macros, as expressions or statements. -/
def isMacro : Kind → Bool
  | .eMacro _ _ | .sMacro _ _ => true
  | _ => false

mutual
/-- The calls of macros in the order of the source, not including those in the tokens of other macros or
in nested items. -/
def macrosOf : Node → List Node
  | .mk k as ks => if isMacro k then [.mk k as ks] else if hidesCode k then [] else macrosOfL ks
def macrosOfL : List Node → List Node
  | [] => []
  | n :: ns => macrosOf n ++ macrosOfL ns
end

/-- What becomes visible in the place of a macro call: the expression `m!(e)` is replaced by a
constructor call on `e`, so the calls in `e` become visible; other calls stay as they are, except for
helper attributes on expressions. -/
def unmark (m : String) : Node → List Node
  | .mk (.eMacro p t) as [e] =>
    if p = macroPath m then macrosOf e else [.mk (.eMacro p t) (strip as) [e]]
  | .mk (.eMacro p t) as ks => [.mk (.eMacro p t) (strip as) ks]
  | x => [x]

/-- A call of a constructor of `en`. -/
def IsConstruct (en : Ident) (e : Node) : Prop := ∃ as v a, e = construct as en v a

end AutoEnums.Spec
