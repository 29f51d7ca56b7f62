import Verif.Spec.Outside

/-!
# Specification vocabulary: expanding the attributes in a piece of code

Nothing in this file refers to the model of the code.
-/

namespace AutoEnums.Spec

mutual
/-- The second tree is the first one with every annotated expression and `let` replaced by what its
attribute makes of it, from the inside to the outside.  Nothing else changes.  `X` tells what an attribute
makes of its input if it is in the input of another one, and `X'` what if it is not; the flag tells
whether the node is an expression followed by `;`. -/
def InPlace (X X' : Expansion) (semi : Bool) : Node → Node → Prop
  | .mk k as ks, n' =>
    match innerAttr k as with
    | none => ∃ ks', (if hidesCode k then ks' = ks else InPlaceL X X' (endsIn k) ks ks') ∧ n' = .mk k as ks'
    | some a => ∃ toks ks', letArgs a.form = some toks ∧
        (if hidesCode k then ks' = ks else InPlaceL X X (endsIn k) ks ks') ∧
        X' toks semi (.mk k (dropFirst (named "auto_enum") as) ks') n'
def InPlaceL (X X' : Expansion) (semi : Bool) : List Node → List Node → Prop
  | [], ns' => ns' = []
  | n :: ns, ns' => ∃ m ms, ns' = m :: ms ∧ InPlace X X' semi n m ∧ InPlaceL X X' semi ns ms
end

end AutoEnums.Spec
