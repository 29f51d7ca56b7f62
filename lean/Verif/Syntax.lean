/-!
# Syntax trees

The part of `syn`'s syntax trees that `auto_enums` looks at.  A tree is a rose tree
`Node.mk kind attrs kids`; `kids` are listed in the order in which `syn::visit_mut`
visits them, so that the default traversal of every `VisitMut` implementation of the
crate is "visit the kids from left to right".
-/

namespace AutoEnums

abbrev Ident := String

/-- `syn::PathSegment`; `args` is the printed form of its generic arguments. -/
structure Seg where
  ident : Ident
  args : Option String := none
deriving DecidableEq, Repr

/-- `syn::Path`. -/
structure Path where
  lead : Bool := false
  segs : List Seg
deriving DecidableEq, Repr

/-- `syn::Path::is_ident`. -/
def Path.isIdent (p : Path) (s : String) : Bool :=
  match p.lead, p.segs with
  | false, [⟨i, none⟩] => i == s
  | _, _ => false

/-- A path consisting of the given plain identifiers (`utils.rs:11-13`, `path`). -/
def Path.ofIdents (l : List Ident) : Path := ⟨false, l.map fun i => ⟨i, none⟩⟩

/-- Tokens of attribute arguments.  Simplifications: a balanced `<..>` or `::<..>` generic argument list
is one token (`angle`); the keywords that `syn` allows in paths (`crate`, `self`, `super`, `Self`) are
`ident`s, so that `marker = crate` is not rejected here; other keywords and every other punctuation are
`other`. -/
inductive Tok where
  | ident (s : Ident)
  | angle (s : String)
  | colon2
  | comma
  | eq
  | other (s : String)
deriving DecidableEq, Repr

/-- `syn::Meta` without the path. -/
inductive Meta where
  | path
  | list (toks : List Tok)
  | nameValue
deriving DecidableEq, Repr

/-- `syn::Attribute`. -/
structure Attr where
  path : Path
  form : Meta
deriving DecidableEq, Repr

/-- The kinds of type syntax that the crate inspects (`mod.rs:157-195`,
`type_analysis.rs:18-36`).  The kids of a type node are the types inside it in visiting order. -/
inductive TyKind where
  /-- `impl A + B + 'a`: `some p` for a trait bound with path `p`, `none` for a lifetime. -/
  | implTrait (bounds : List (Option Path))
  /-- A path type; `angle = some colon2` when the last segment has `<..>` arguments, which then are
  the kids. Simplification: generic arguments of other segments are not represented. -/
  | path (qself : Bool) (p : Path) (angle : Option Bool)
  /-- A generic argument that is a type; one kid. -/
  | argType
  /-- Any other generic argument (lifetime, const, `Item = T`, ..). -/
  | argOther
  /-- Any other type (reference, tuple, ..). -/
  | other (s : String)
deriving DecidableEq, Repr

inductive Ty where
  | mk (kind : TyKind) (kids : List Ty)
deriving Repr

mutual
def Ty.decEq : (a b : Ty) → Decidable (a = b)
  | .mk k ks, .mk k' ks' =>
    match _root_.decEq k k', Ty.decEqL ks ks' with
    | isTrue h, isTrue h' => isTrue (by rw [h, h'])
    | isFalse h, _ => isFalse fun e => h (Ty.mk.inj e).1
    | _, isFalse h => isFalse fun e => h (Ty.mk.inj e).2
def Ty.decEqL : (a b : List Ty) → Decidable (a = b)
  | [], [] => isTrue rfl
  | [], _ :: _ => isFalse (by simp)
  | _ :: _, [] => isFalse (by simp)
  | x :: xs, y :: ys =>
    match Ty.decEq x y, Ty.decEqL xs ys with
    | isTrue h, isTrue h' => isTrue (by rw [h, h'])
    | isFalse h, _ => isFalse fun e => h (List.cons.inj e).1
    | _, isFalse h => isFalse fun e => h (List.cons.inj e).2
end

instance : DecidableEq Ty := Ty.decEq

/-- The pattern of a `let` statement: `Pat::Type` is distinguished (`mod.rs:128`). -/
inductive LetPat where
  | plain (s : String)
  | typed (s : String) (ty : Ty)
deriving DecidableEq, Repr

/-- Items.  `genEnum` is the enum generated by `Builder::build` (`context.rs:354-368`):
its name, type parameters, variants with the type of their single field, and the arguments of
`#[enum_derive(..)]`. -/
inductive ItemK where
  | user (text : String)
  | genEnum (name : Ident) (generics : List Ident) (variants : List (Ident × Ident))
      (derives : List Path)
deriving DecidableEq, Repr

/-- Kinds of syntax nodes.  The first group is one constructor per `syn::Expr` variant
(`utils.rs:221-260`), in the same order; `eVerbatim` is the only one without attributes. -/
inductive Kind where
  | eArray | eAssign
  /-- `async { stmts }`; kids: statements. -/
  | eAsync
  | eAwait | eBinary (op : String)
  /-- `'label: { stmts }`; kids: statements. -/
  | eBlock (label : Option String)
  /-- kids: the value, if any. -/
  | eBreak (label : Option String)
  /-- kids: callee, then arguments. -/
  | eCall
  | eCast (ty : String)
  /-- kids: the body. -/
  | eClosure (inputs : String)
  | eConst
  | eContinue (label : Option String)
  | eField (name : String)
  /-- kids: iterated expression, `block`. -/
  | eForLoop (label : Option String) (pat : String)
  | eGroup
  /-- kids: condition, `block`, and the else expression, if any. -/
  | eIf
  | eIndex | eInfer | eLet (pat : String) | eLit (text : String)
  /-- kids: `block`. -/
  | eLoop (label : Option String)
  /-- kids: the tokens parsed as an expression, or nothing when they do not parse. -/
  | eMacro (path : Path) (text : String)
  /-- kids: scrutinee, then `arm`s. -/
  | eMatch
  /-- kids: receiver, then arguments. -/
  | eMethodCall (name : String)
  | eParen
  | ePath (qself : Bool) (path : Path)
  | eRange | eReference | eRepeat
  /-- kids: the value, if any. -/
  | eReturn
  | eStruct (head : String)
  | eTry
  /-- kids: statements. -/
  | eTryBlock
  | eTuple | eUnary (op : String)
  /-- kids: statements. -/
  | eUnsafe
  /-- kids: condition, `block`. -/
  | eWhile (label : Option String)
  | eYield
  | eVerbatim (text : String)
  /-- `syn::Block`; kids: statements. -/
  | block
  /-- `syn::Arm`; kids: the guard, if any, then the body. -/
  | arm (pat : String)
  /-- `Stmt::Expr(expr, semi)`; kids: the expression. -/
  | sExpr (semi : Bool)
  /-- `Stmt::Local`; kids: nothing, the initialiser, or the initialiser and the `else` expression. -/
  | sLocal (pat : LetPat)
  | sItem (item : ItemK)
  | sMacro (path : Path) (text : String)
  /-- `Item::Fn` as the target of the attribute; kids: `block`. -/
  | iFn (name : String) (ret : Option Ty)
deriving DecidableEq, Repr

/-- A syntax tree. -/
inductive Node where
  | mk (kind : Kind) (attrs : List Attr) (kids : List Node)
deriving Repr

mutual
def Node.decEq : (a b : Node) → Decidable (a = b)
  | .mk k as ks, .mk k' as' ks' =>
    match _root_.decEq k k', _root_.decEq as as', Node.decEqL ks ks' with
    | isTrue h, isTrue h', isTrue h'' => isTrue (by rw [h, h', h''])
    | isFalse h, _, _ => isFalse fun e => h (Node.mk.inj e).1
    | _, isFalse h, _ => isFalse fun e => h (Node.mk.inj e).2.1
    | _, _, isFalse h => isFalse fun e => h (Node.mk.inj e).2.2
def Node.decEqL : (a b : List Node) → Decidable (a = b)
  | [], [] => isTrue rfl
  | [], _ :: _ => isFalse (by simp)
  | _ :: _, [] => isFalse (by simp)
  | x :: xs, y :: ys =>
    match Node.decEq x y, Node.decEqL xs ys with
    | isTrue h, isTrue h' => isTrue (by rw [h, h'])
    | isFalse h, _ => isFalse fun e => h (List.cons.inj e).1
    | _, isFalse h => isFalse fun e => h (List.cons.inj e).2
end

instance : DecidableEq Node := Node.decEq

namespace Kind

/-- The node is a `syn::Expr`. -/
def isExpr : Kind → Bool
  | block | arm _ | sExpr _ | sLocal _ | sItem _ | sMacro _ _ | iFn _ _ => false
  | _ => true

/-- The node is a `syn::Stmt`. -/
def isStmt : Kind → Bool
  | sExpr _ | sLocal _ | sItem _ | sMacro _ _ => true
  | _ => false

/-- `syn`'s default traversal does not look inside: macro tokens are not parsed, and every visitor
of the crate overrides `visit_item_mut` to do nothing (`visitor.rs:264,307,417,488`,
`expr.rs:195`). -/
def isOpaque : Kind → Bool
  | eMacro _ _ | sMacro _ _ | sItem _ | eVerbatim _ => true
  | _ => false

/-- The node has an attribute list that the crate's `Attrs` trait can see
(`utils.rs:147-260`; for `Stmt::Expr` see `Node.attrs`). -/
def hasAttrs : Kind → Bool
  | eVerbatim _ | block | sExpr _ | sItem _ | iFn _ _ => false
  | _ => true

/-- The kids are the statements of a block. -/
def isBlockLike : Kind → Bool
  | block | eBlock _ | eUnsafe | eAsync | eTryBlock | eConst => true
  | _ => false

end Kind

namespace Node

def kind : Node → Kind
  | mk k _ _ => k

def kids : Node → List Node
  | mk _ _ ks => ks

/-- The raw attribute field. -/
def rawAttrs : Node → List Attr
  | mk _ as _ => as

/-- `Attrs::attrs` (`utils.rs:147-218`): `Stmt::Expr` shows the attributes of its expression, items
and `Expr::Verbatim` show none. -/
def attrs : Node → List Attr
  | mk (.sExpr _) _ [e] => e.attrs
  | mk k as _ => if k.hasAttrs then as else []

def setAttrs : Node → List Attr → Node
  | mk k _ ks, as => mk k as ks

/-- Induction principle: a property holds of all trees if it holds of a tree whenever it holds of
its kids. -/
theorem ind {P : Node → Prop}
    (h : ∀ k as kids, (∀ c ∈ kids, P c) → P (.mk k as kids)) : ∀ t, P t := by
  intro t
  induction t using Node.rec (motive_2 := fun l => ∀ c ∈ l, P c) with
  | mk k as kids ih => exact h k as kids ih
  | nil => intros; contradiction
  | cons a b h1 h2 =>
    rename_i c hc
    cases hc with
    | head => exact h1
    | tail _ h => exact h2 c h

end Node

/-! ## Small constructors (`utils.rs:15-38`) -/

/-- `utils.rs:32-38`, `unit`. -/
def unitE : Node := .mk .eTuple [] []

/-- A path expression without attributes. -/
def pathE (p : Path) : Node := .mk (.ePath false p) [] []

/-- `utils.rs:19-21`, `expr_block`. -/
def exprBlock (stmts : List Node) : Node := .mk (.eBlock none) [] stmts

/-- `utils.rs:23-30`, `expr_call`. -/
def exprCall (attrs : List Attr) (p : Path) (arg : Node) : Node :=
  .mk .eCall attrs [pathE p, arg]

/-- `Stmt::Expr(e, None)`. -/
def tailS (e : Node) : Node := .mk (.sExpr false) [] [e]

/-- `Stmt::Expr(e, Some(;))`. -/
def semiS (e : Node) : Node := .mk (.sExpr true) [] [e]

/-- Left-to-right stateful visit of a list of nodes. -/
def mapA {σ : Type} (f : σ → Node → σ × Node) : σ → List Node → σ × List Node
  | s, [] => (s, [])
  | s, n :: ns =>
    let r := f s n
    let rs := mapA f r.1 ns
    (rs.1, r.2 :: rs.2)

/-- The default traversal `syn::visit_mut::visit_*_mut(visitor, node)`. -/
def walk {σ : Type} (f : σ → Node → σ × Node) (s : σ) : Node → σ × Node
  | .mk k as ks =>
    if k.isOpaque then (s, .mk k as ks)
    else
      let r := mapA f s ks
      (r.1, .mk k as r.2)

end AutoEnums
