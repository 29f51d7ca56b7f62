import Verif.Args
import Verif.Spec.Types
import Verif.Syntax
import Verif.Utils

/-! # Attributes that name all traits -/

namespace AutoEnums.Spec

/-- The arguments `toks`, read as in C22, name every supported trait of the `impl Trait` types in `ty`. -/
def namesAll (toks : List Tok) (ty : Ty) : Bool :=
  match parseArgs toks with
  | .ok a => (inferred a.args ty).isEmpty
  | .error _ => true

/-- The arguments of an attribute. -/
def argsOf (a : Attr) : List Tok :=
  match a.form with
  | .list toks => toks
  | _ => []

/-- If a statement is a `let` with a type, each `#[auto_enum]` on it names the traits of the type. -/
def namedHere : Kind → List Attr → Bool
  | .sLocal (.typed _ ty), as => as.all fun a => !a.is "auto_enum" || namesAll (argsOf a) ty
  | _, _ => true

mutual
/-- Everywhere in the tree, the attributes on `let`s name the traits of the types of these `let`s. -/
def wellNamed : Node → Bool
  | .mk k as ks => namedHere k as && wellNamedL ks
def wellNamedL : List Node → Bool
  | [] => true
  | n :: ns => wellNamed n && wellNamedL ns
end

end AutoEnums.Spec
