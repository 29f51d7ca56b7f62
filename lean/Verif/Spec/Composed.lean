import Verif.Spec.Owned

/-!
# Specification vocabulary: expanding the attributes in a piece of code one after the other

Of the model of the code this file uses only the macro itself (`autoEnum`).
-/

namespace AutoEnums.Spec

/-- `#[auto_enum]` with the given arguments and nothing around it expands the first node to the second; the
hash of the code decides the name of the enum. -/
def ExpandsAs (env : Env) (h : Nat) : Expansion := fun toks semi n n' =>
  ∃ f, autoEnum env f h toks (asInput semi n) = asOutput semi n n'

/-- The arguments of an inner attribute.  An expression needs `#[auto_enum(..)]`, on a `let` `#[auto_enum]`
will do. -/
def innerArgs : Kind → Meta → Option (List Tok)
  | .sLocal _, m => letArgs m
  | _, .list toks => some toks
  | _, _ => none

mutual
/-- The second tree is the first one with every annotated expression and `let` replaced by what the macro
makes of it, alone and with the arguments found there, from the inside to the outside.  The name of the enum
is made from the code as it was written.  Nothing else changes.  The flag tells whether the node is an
expression followed by `;`. -/
def Composed (env : Env) (semi : Bool) : Node → Node → Prop
  | .mk k as ks, n' =>
    match innerAttr k as with
    | none => ∃ ks', (if hidesCode k then ks' = ks else ComposedL env (endsIn k) ks ks') ∧ n' = .mk k as ks'
    | some a => ∃ toks ks', innerArgs k a.form = some toks ∧
        (if hidesCode k then ks' = ks else ComposedL env (endsIn k) ks ks') ∧
        ExpandsAs env (env.hash (.mk k (dropFirst (named "auto_enum") as) ks)) toks semi
          (.mk k (dropFirst (named "auto_enum") as) ks') n'
def ComposedL (env : Env) (semi : Bool) : List Node → List Node → Prop
  | [], ns' => ns' = []
  | n :: ns, ns' => ∃ m ms, ns' = m :: ms ∧ Composed env semi n m ∧ ComposedL env semi ns ms
end

/-- The same for the input of the macro. -/
def InputComposed (env : Env) (out : Node) : Input → Prop
  | .expr e => Composed env false e out
  | .stmt s => ∃ ks', ComposedL env false s.kids ks' ∧ out = .mk s.kind s.rawAttrs ks'
  | .invalid => False

end AutoEnums.Spec
