import Verif.Visitor

/-!
# Specification vocabulary: changing names and text

The only parts of the model used are the types of trees, inputs and outputs.
-/

namespace AutoEnums.Spec

/-- A change of the text in a tree. -/
structure Respelling where
  /-- Literals, patterns, operators, types of casts, heads of struct expressions, inputs of closures, the text of
  items and of macro arguments, and the names of functions, methods and fields. -/
  text : String → String
  /-- Labels. -/
  label : String → String
  /-- Identifiers in the paths of expressions. -/
  ident : Ident → Ident
  /-- Macros that are called by a single name, and the names given to markers. -/
  mac : Ident → Ident
  /-- Attributes that are not for the macro: each is replaced by any number of others. -/
  other : Attr → List Attr := fun a => [a]

namespace Respelling

variable (ρ : Respelling)

/-- The identifiers and generic arguments of a path. -/
def path (p : Path) : Path := ⟨p.lead, p.segs.map fun s => ⟨ρ.ident s.ident, s.args.map ρ.text⟩⟩

def letPat : LetPat → LetPat
  | .plain s => .plain (ρ.text s)
  | .typed s ty => .typed (ρ.text s) ty

def item : ItemK → ItemK
  | .user t => .user (ρ.text t)
  | .genEnum id vs fs ts => .genEnum (ρ.ident id) vs fs ts

/-- The name of a macro. -/
def macPath : Path → Path
  | ⟨false, [⟨i, none⟩]⟩ => ⟨false, [⟨ρ.mac i, none⟩]⟩
  | p => p

/-- The names in `marker = name`. -/
def toks : List Tok → List Tok
  | .ident "marker" :: .eq :: .ident m :: l => .ident "marker" :: .eq :: .ident (ρ.mac m) :: toks l
  | t :: l => t :: toks l
  | [] => []

/-- The names given to markers in `#[auto_enum(..)]`. -/
def attr (a : Attr) : Attr :=
  match a.path.isIdent "auto_enum", a.form with
  | true, .list l => ⟨a.path, .list (ρ.toks l)⟩
  | _, _ => a

/-- The attribute means something to the macro. -/
def ours (a : Attr) : Bool := ["auto_enum", "never", "nested", "rec"].any fun s => a.path.isIdent s

/-- The attributes of a node.  Attributes that mean something to the macro neither come nor go. -/
def attrs (as : List Attr) : List Attr :=
  as.flatMap fun a => if ours a then [ρ.attr a] else (ρ.other a).filter fun b => !ours b

/-- The text of a node itself.  Types and the qualified paths of macros stay. -/
def kind : Kind → Kind
  | .eBinary op => .eBinary (ρ.text op)
  | .eBlock l => .eBlock (l.map ρ.label)
  | .eBreak l => .eBreak (l.map ρ.label)
  | .eCast ty => .eCast (ρ.text ty)
  | .eClosure i => .eClosure (ρ.text i)
  | .eContinue l => .eContinue (l.map ρ.label)
  | .eField n => .eField (ρ.text n)
  | .eForLoop l p => .eForLoop (l.map ρ.label) (ρ.text p)
  | .eLet p => .eLet (ρ.text p)
  | .eLit t => .eLit (ρ.text t)
  | .eLoop l => .eLoop (l.map ρ.label)
  | .eMacro p t => .eMacro (ρ.macPath p) (ρ.text t)
  | .eMethodCall n => .eMethodCall (ρ.text n)
  | .ePath q p => .ePath q (ρ.path p)
  | .eStruct h => .eStruct (ρ.text h)
  | .eUnary op => .eUnary (ρ.text op)
  | .eWhile l => .eWhile (l.map ρ.label)
  | .eVerbatim t => .eVerbatim (ρ.text t)
  | .arm p => .arm (ρ.text p)
  | .sLocal p => .sLocal (ρ.letPat p)
  | .sItem i => .sItem (ρ.item i)
  | .sMacro p t => .sMacro (ρ.macPath p) (ρ.text t)
  | .iFn n ret => .iFn (ρ.text n) ret
  | k => k

mutual
/-- The text and the attributes of all nodes of a tree. -/
def node : Node → Node
  | .mk k as ks => .mk (ρ.kind k) (ρ.attrs as) (nodes ks)
def nodes : List Node → List Node
  | [] => []
  | n :: ns => node n :: nodes ns
end

def input : Input → Input
  | .stmt n => .stmt (ρ.node n)
  | .expr n => .expr (ρ.node n)
  | .invalid => .invalid

/-- The name that "this marker name is already used" complains about. -/
def err : Err → Err
  | .dupMarkerName m => .dupMarkerName (ρ.mac m)
  | e => e

def output : Output → Output
  | .code n => .code (ρ.node n)
  | .errors l => .errors (l.map ρ.err)
  | o => o

/-- Different labels stay different, and so do different macros and markers; macros that mean something to the
macro stay what they are; identifiers in expressions that mean something to the macro stay what they
are, and no other identifier becomes one of them; names and text that the macro writes stay. -/
structure Harmless : Prop where
  labels : ∀ a b, ρ.label a = ρ.label b → a = b
  macros : ∀ a b, ρ.mac a = ρ.mac b → a = b
  knownMacros : ∀ x ∈ ["marker", "unreachable", "panic", "compile_error"], ρ.mac x = x
  known : ∀ x ∈ ["std", "core", "option", "Option", "None", "result", "Result", "Err"],
    ∀ y, ρ.ident y = x ↔ y = x
  vars : ρ.ident "val" = "val" ∧ ρ.ident "err" = "err"
  variants : ∀ n : Nat, ρ.ident ("__Variant" ++ toString n) = "__Variant" ++ toString n
  written : ∀ t ∈ ["::core::result::Result::Ok(val)", "::core::result::Result::Err(err)",
    "#[auto_enum] failed to generate error message"], ρ.text t = t

end Respelling

end AutoEnums.Spec
