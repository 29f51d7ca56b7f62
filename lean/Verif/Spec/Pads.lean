import Verif.Spec.Operands

/-!
# Specification: added statements (C73)

One piece of code is another one with more statements in its blocks.
-/

namespace AutoEnums.Spec

/-- A statement in which the macro has nothing to do: without `return`, `?` and `break` outside of closures,
without macro calls in expressions other than those by qualified names, and without attributes of the macro. -/
def idleStmt (s : Node) : Bool := s.kind.isStmt && still false s

/-- A macro call has one argument. -/
def argOk : Kind → List Node → Bool
  | .eMacro _ _, ks => ks.length == 1
  | _, _ => true

mutual
/-- The second piece of code is the first one with the given statements without anything for the macro added in its blocks, in this
order, but none at the end of a block.  (They may also be added in the argument of a macro call that is an
expression; the model keeps those only of calls of the marker.) -/
inductive Pads : List Node → Node → Node → Prop
  | same {n : Node} : Pads [] n n
  | mk {ss : List Node} {k : Kind} {as : List Attr} {ks ks' : List Node} :
    argOk k ks = true → PadsL k.isBlockLike ss ks ks' → Pads ss (.mk k as ks) (.mk k as ks')
/-- The same for the parts of a piece of code; the flag tells whether they are the statements of a block. -/
inductive PadsL : Bool → List Node → List Node → List Node → Prop
  | nil {b : Bool} : PadsL b [] [] []
  | cons {b : Bool} {ss ts : List Node} {n n' : Node} {ns ns' : List Node} :
    Pads ss n n' → PadsL b ts ns ns' → PadsL b (ss ++ ts) (n :: ns) (n' :: ns')
  | add {ss : List Node} {s n : Node} {ns ns' : List Node} :
    idleStmt s = true → PadsL true ss (n :: ns) ns' → PadsL true (s :: ss) (n :: ns) (s :: ns')
end

/-- The same for the input of the macro. -/
inductive PadsInput (ss : List Node) : Input → Input → Prop
  | stmt {n n' : Node} : Pads ss n n' → PadsInput ss (.stmt n) (.stmt n')
  | expr {n n' : Node} : Pads ss n n' → PadsInput ss (.expr n) (.expr n')

/-- The same errors, or code that is the same but for the given statements, added in its blocks. -/
inductive PadsOutput (ss : List Node) : Output → Output → Prop
  | code {n n' : Node} : Pads ss n n' → PadsOutput ss (.code n) (.code n')
  | errors {es : List Err} : PadsOutput ss (.errors es) (.errors es)

end AutoEnums.Spec
