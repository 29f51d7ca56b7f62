import Verif.Spec.Operands

/-!
# Specification: what the attribute looks through (C72)

Parentheses, blocks, unsafe blocks and method calls around an expression.
-/

namespace AutoEnums.Spec

/-- An expression with a hole. -/
inductive Frame where
  /-- `(_)`. -/
  | paren
  /-- `'l: { s₁ .. sₙ _ }`; the label is optional. -/
  | block (label : Option String) (before : List Node)
  /-- `unsafe { s₁ .. sₙ _ }`. -/
  | unsafeBlock (before : List Node)
  /-- `_.m(a₁, .., aₙ)`. -/
  | methodCall (m : String) (args : List Node)

/-- The code beside the hole. -/
def Frame.rest : Frame → List Node
  | .paren => []
  | .block _ ss | .unsafeBlock ss => ss
  | .methodCall _ args => args

/-- The frame, with attributes `as`, around `e`. -/
def Frame.around (F : Frame) (as : List Attr) (e : Node) : Node :=
  match F with
  | .paren => .mk .eParen as [e]
  | .block l ss => .mk (.eBlock l) as (ss ++ [.mk (.sExpr false) [] [e]])
  | .unsafeBlock ss => .mk .eUnsafe as (ss ++ [.mk (.sExpr false) [] [e]])
  | .methodCall m args => .mk (.eMethodCall m) as (e :: args)

/-- Frames, each with its attributes, around `e`; the first is outermost. -/
def framed : List (Frame × List Attr) → Node → Node
  | [], e => e
  | (F, as) :: Fs, e => F.around as (framed Fs e)

/-- There is nothing to do for the macro in the code beside `e`, and the frames have none of its attributes. -/
def bareFrames (Fs : List (Frame × List Attr)) : Bool := Fs.all fun F => noHelp F.2 && stillL false F.1.rest

/-- `{ enum .. {..} body }`, or only `body` where there is no enum to declare. -/
def declare : Option Node → Node → Node
  | none, body => body
  | some item, body => .mk (.eBlock none) [] [item, .mk (.sExpr false) [] [body]]

end AutoEnums.Spec
