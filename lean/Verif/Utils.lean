import Verif.Syntax

/-!
# `utils.rs`: path comparison and attribute helpers
-/

namespace AutoEnums

/-- `mod.rs:25`. -/
def NAME : String := "auto_enum"
/-- `mod.rs:27`. -/
def NESTED : String := "nested"
/-- `mod.rs:29`. -/
def NEVER : String := "never"
/-- `context.rs:47`. -/
def DEFAULT_MARKER : String := "marker"

/-- `utils.rs:52-68`, `path_eq`.  (`expected` is never empty in the crate; the `unwrap` of
`expected_path.last()` is total here because `none` never equals an identifier.) -/
def pathEq (p : Path) (crates expected : List String) : Bool :=
  let ids := p.segs.map (·.ident)
  if ids.length = 1 ∧ ids.head? = expected.getLast? then true
  else if ids.length = expected.length + 1 then
    match ids with
    | c :: rest => crates.any (c == ·) && rest == expected
    | [] => false
  else false

/-- `attr.path().is_ident(ident)`. -/
def Attr.is (a : Attr) (s : String) : Bool := a.path.isIdent s

/-- `matches!(&attr.meta, Meta::Path(p) if p.is_ident(ident))`. -/
def Attr.isEmpty (a : Attr) (s : String) : Bool := a.is s && a.form == .path

/-- `utils.rs:132-134`, `any_attr`, on an attribute list. -/
def anyAttr (as : List Attr) (s : String) : Bool := as.any (·.is s)

/-- `utils.rs:136-138`, `any_empty_attr`, on an attribute list. -/
def anyEmptyAttr (as : List Attr) (s : String) : Bool := as.any (·.isEmpty s)

/-- `utils.rs:77-81`, `find_remove`: remove and return the first element satisfying `p`. -/
def findRemove {α : Type} (p : α → Bool) : List α → Option (α × List α)
  | [] => none
  | a :: as =>
    if p a then some (a, as)
    else match findRemove p as with
      | some (b, bs) => some (b, a :: bs)
      | none => none

namespace Node

/-- `utils.rs:132-134`. -/
def anyAttr (n : Node) (s : String) : Bool := AutoEnums.anyAttr n.attrs s

/-- `utils.rs:136-138`. -/
def anyEmptyAttr (n : Node) (s : String) : Bool := AutoEnums.anyEmptyAttr n.attrs s

/-- `utils.rs:142-144`, `find_remove_attr`.  Used by the crate on expressions, arms and `let`
statements only. -/
def findRemoveAttr (n : Node) (s : String) : Option (Attr × Node) :=
  match n with
  | .mk k as ks =>
    if k.hasAttrs then
      match findRemove (·.is s) as with
      | some (a, as') => some (a, .mk k as' ks)
      | none => none
    else none

end Node

end AutoEnums
