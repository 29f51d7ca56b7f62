import Verif.Spec.Enum

/-!
# Specification vocabulary: the edits an expansion may make

Nothing in this file refers to the model of the code.
-/

namespace AutoEnums.Spec

/-- The call `en::vn(e)` with the given attributes. -/
def construct (as : List Attr) (en vn : Ident) (e : Node) : Node :=
  .mk .eCall as [.mk (.ePath false (variantPath en vn)) [] [], e]

/-- `match e { ::core::result::Result::Ok(val) => val,
::core::result::Result::Err(err) => { return ::core::result::Result::Err(en::vn(err)); } }` -/
def tryMatch (as : List Attr) (en vn : Ident) (e : Node) : Node :=
  let path (l : List Ident) (lead : Bool) : Node :=
    .mk (.ePath false ⟨lead, l.map fun i => ⟨i, none⟩⟩) [] []
  .mk .eMatch as [e,
    .mk (.arm "::core::result::Result::Ok(val)") [] [path ["val"] false],
    .mk (.arm "::core::result::Result::Err(err)") [] [.mk (.eBlock none) [] [.mk (.sExpr true) []
      [.mk .eReturn [] [.mk .eCall [] [path ["core", "result", "Result", "Err"] true,
        construct [] en vn (path ["err"] false)]]]]]]

/-- A statement declaring a generated enum. -/
def enumStmt (e : GenEnum) : Node :=
  .mk (.sItem (.genEnum e.name e.generics e.variants e.derives)) [] []

/-- What an expansion is allowed to do. -/
structure Allow where
  /-- Branches, `break` and `return` values may be wrapped in constructors of this enum. -/
  wraps : Ident → Prop
  /-- `?` may be desugared with constructors of this enum. -/
  tries : Ident → Prop
  /-- Calls of this marker macro may be replaced by constructors of this enum. -/
  marks : Ident → String → Prop
  /-- Type annotations of `let` statements may be dropped. -/
  types : Prop

/-- The name of the `i`-th variant. -/
def IsVariant (vn : Ident) : Prop := ∃ i : Nat, vn = "__Variant" ++ toString i

/-- One edit, anywhere in the tree except inside items and the tokens of macros. -/
inductive Step (A : Allow) : Node → Node → Prop where
  /-- The value of a `break` or `return` is wrapped in a constructor. -/
  | wrapVal : A.wraps en → IsVariant vn → (k = .eReturn ∨ ∃ l, k = .eBreak l) →
      Step A (.mk k as (e :: rest)) (.mk k as (construct [] en vn e :: rest))
  /-- The body of an arm, after its guard `g`, is wrapped in a constructor. -/
  | wrapArm : A.wraps en → IsVariant vn → (g = [] ∨ ∃ c, g = [c]) →
      Step A (.mk (.arm p) as (g ++ [e])) (.mk (.arm p) as (g ++ [construct [] en vn e]))
  /-- The contents of a branch are wrapped as a block. -/
  | wrapBlock : A.wraps en → IsVariant vn → (k = .block ∨ ∃ l, k = .eBlock l) →
      Step A (.mk k as ss)
        (.mk k as [.mk (.sExpr false) [] [construct [] en vn (.mk (.eBlock none) [] ss)]])
  /-- A `break` or `return` without a value gets one. -/
  | unit : A.wraps en → IsVariant vn → (k = .eReturn ∨ ∃ l, k = .eBreak l) →
      Step A (.mk k as []) (.mk k as [construct [] en vn (.mk .eTuple [] [])])
  /-- `m!(e)` becomes a constructor call, keeping its attributes. -/
  | mark : A.marks en m → IsVariant vn →
      Step A (.mk (.eMacro ⟨false, [⟨m, none⟩]⟩ t) as [e]) (construct as en vn e)
  /-- `e?` is desugared. -/
  | tryOp : A.tries en → IsVariant vn → Step A (.mk .eTry as [e]) (tryMatch as en vn e)
  /-- A helper attribute of an expression, arm or `let` is deleted. -/
  | dropAttr : a.path = ⟨false, [⟨s, none⟩]⟩ → s ∈ ["auto_enum", "nested", "never"] →
      k.hasAttrs = true → Step A (.mk k (l1 ++ a :: l2) ks) (.mk k (l1 ++ l2) ks)
  /-- The annotation of a `let` is deleted. -/
  | dropType : A.types → Step A (.mk (.sLocal (.typed s ty)) as ks) (.mk (.sLocal (.plain s)) as ks)
  /-- The enum is declared in a block around an expression. -/
  | enumExpr (g : GenEnum) (e : Node) : WellFormed g →
      Step A e (.mk (.eBlock none) [] [enumStmt g, .mk (.sExpr false) [] [e]])
  /-- The enum is declared at the start of a function. -/
  | enumFn (g : GenEnum) : WellFormed g → Step A (.mk (.iFn name ret) as [.mk .block asb ss])
      (.mk (.iFn name ret) as [.mk .block asb (enumStmt g :: ss)])
  /-- Inside another node, from left to right unchanged siblings. -/
  | kid : k.isOpaque = false → Step A n n' →
      Step A (.mk k as (pre ++ n :: post)) (.mk k as (pre ++ n' :: post))

/-- A sequence of edits. -/
inductive Edit (A : Allow) : Node → Node → Prop where
  | refl (n : Node) : Edit A n n
  | step : Edit A a b → Step A b c → Edit A a c

/-- The marker name of an attribute with arguments `ts`. -/
def MarkerOf (ts : List Tok) (m : String) : Prop :=
  ∃ args, IsArgs ts args (some m) ∨ IsArgs ts args none ∧ m = "marker"

/-- `ts` are the arguments of an `auto_enum` attribute inside the input. -/
def InnerArgs (input : Node) (ts : List Tok) : Prop :=
  ∃ a ∈ allAttrs input, a.path = ⟨false, [⟨"auto_enum", none⟩]⟩ ∧
    (a.form = .list ts ∨ a.form = .path ∧ ts = [])

/-- The enum of an inner attribute, named after the hash of some code. -/
def InnerEnum (hash : Node → Nat) (input : Node) (en : Ident) : Prop :=
  (∃ ts, InnerArgs input ts) ∧ ∃ m, en = "__Enum" ++ toString (hash m)

/-- Marker calls belong to the attribute itself, with arguments `toks` and input hash `h`, or to an
inner attribute. -/
def MarkerCall (hash : Node → Nat) (h : Nat) (toks : List Tok) (input : Node) (en : Ident)
    (m : String) : Prop :=
  en = "__Enum" ++ toString h ∧ MarkerOf toks m ∨
    (∃ ts, InnerArgs input ts ∧ MarkerOf ts m) ∧ ∃ n, en = "__Enum" ++ toString (hash n)

/-- The edits of `#[auto_enum(toks)]` on `input`, whose hash is `h`. -/
def permitted (analysis : Bool) (hash : Node → Nat) (h : Nat) (toks : List Tok) (input : Node) :
    Allow where
  wraps en := en = "__Enum" ++ toString h ∨ InnerEnum hash input en
  tries en := en = "__Enum" ++ toString h ∨ InnerEnum hash input en
  marks := MarkerCall hash h toks input
  types := analysis = true

/-- The same, where the attribute itself replaces markers only. -/
def permittedSemi (analysis : Bool) (hash : Node → Nat) (h : Nat) (toks : List Tok)
    (input : Node) : Allow where
  wraps := InnerEnum hash input
  tries := InnerEnum hash input
  marks := MarkerCall hash h toks input
  types := analysis = true

/-- The path is one that edits can create: `__Enum..::__Variant..`, `val`, `err` or
`::core::result::Result::Err`. -/
def isSynthetic : Path → Bool
  | ⟨false, [⟨e, none⟩, ⟨v, none⟩]⟩ =>
    "__Enum".toList.isPrefixOf e.toList && "__Variant".toList.isPrefixOf v.toList
  | ⟨false, [⟨s, none⟩]⟩ => s == "val" || s == "err"
  | ⟨true, [⟨"core", none⟩, ⟨"result", none⟩, ⟨"Result", none⟩, ⟨"Err", none⟩]⟩ => true
  | _ => false

/-- What a node itself says, if it is something edits cannot create or remove.  No content: calls,
matches, tuples, expression statements, unlabelled blocks, `return`, `?`, the arms and paths of the
desugared `?`, markers and generated enums; of a `let`, the pattern without its type. -/
def content (marks : String → Bool) : Kind → Option Kind
  | .eCall | .eMatch | .eTuple | .sExpr _ | .eBlock none | .eReturn | .eTry => none
  | .sItem (.genEnum _ _ _ _) => none
  | .arm p => if p = "::core::result::Result::Ok(val)" ∨ p = "::core::result::Result::Err(err)"
      then none else some (.arm p)
  | .ePath false p => if isSynthetic p then none else some (.ePath false p)
  | .eMacro ⟨false, [⟨m, none⟩]⟩ t =>
    if marks m then none else some (.eMacro ⟨false, [⟨m, none⟩]⟩ t)
  | .sLocal (.typed s _) => some (.sLocal (.plain s))
  | k => some k

/-- The contents of all nodes, in source order. -/
def skeleton (marks : String → Bool) (n : Node) : List Kind :=
  ((labels n).map (·.1)).filterMap (content marks)

mutual
/-- The items, statement macros and macro calls other than those named in `marks`, in source order,
each with everything inside it. -/
def foreign (marks : String → Bool) : Node → List (Kind × List Node)
  | .mk k as ks =>
    match k with
    | .sItem (.user s) => [(.sItem (.user s), ks)]
    | .sItem (.genEnum _ _ _ _) => []
    | .sMacro p t => [(.sMacro p t, ks)]
    | .eVerbatim t => [(.eVerbatim t, ks)]
    | .eMacro p t =>
      match p with
      | ⟨false, [⟨m, none⟩]⟩ => if marks m then foreignL marks ks else [(.eMacro p t, ks)]
      | p => [(.eMacro p t, ks)]
    | _ => foreignL marks ks
def foreignL (marks : String → Bool) : List Node → List (Kind × List Node)
  | [] => []
  | n :: ns => foreign marks n ++ foreignL marks ns
end

end AutoEnums.Spec
