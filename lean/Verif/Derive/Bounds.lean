import Verif.Derive.Expand

/-!
# The headers of the generated implementations

The type parameters, where clauses and associated types produced by `derive_utils` and by the
hand-written `derive` functions, as data.  The source of `derive_utils` is not part of the
repository; what it does is read off the expansions recorded in `tests/expand`, with which
`ExpandSuite.lean` compares.  Simplification: bounds on the type parameters of the implementation
(`__T: ?Sized`, `__T: Send`) and the enum's own where clause are not represented.
-/

namespace AutoEnums.Derive

/-- The type `<ty as trait<args..>>::name`. -/
structure Proj where
  ty : List String
  trait : String
  args : List String
  name : String
deriving DecidableEq, Repr

/-- A predicate of a where clause. -/
inductive Bound where
  /-- `ty: trait<args.., name = proj..>` -/
  | trait (ty : List String) (trait : String) (args : List String) (eqs : List (String × Proj))
  /-- `ty: trait(__T) -> __U` -/
  | fn (ty : List String) (trait : String)
  /-- `ty: 'static` -/
  | static (ty : List String)
deriving DecidableEq, Repr

/-- The arguments of the implemented trait: its own parameters (`EnumImpl::from_trait`), or
`(__T,)` (`ops.rs:150`, `ops.rs:178` and `ops.rs:206`). -/
def Impl.args (i : Impl) : List String := if i.fnLike then ["(__T,)"] else i.params

/-- The associated types the bounds of the second and later variants equate with those of the
first one: the one of the supertrait given to `EnumImpl::from_trait` or `derive_trait` as third
argument, and those of the trait. -/
def equated (i : Impl) (fst : List String) : List (String × Proj) :=
  i.super.toList.map (fun n => (n, ⟨fst, i.superTrait, i.args, n⟩)) ++
    i.assoc.map fun n => (n, ⟨fst, i.trait, i.args, n⟩)

/-- The bounds on the types of the variants (`EnumImpl::from_trait`, `ops.rs:154`, `ops.rs:182`,
`ops.rs:210`). -/
def traitBounds (i : Impl) : List (List String) → List Bound
  | [] => []
  | ty :: tys =>
    if i.fnLike then (ty :: tys).map fun t => .fn t i.trait
    else .trait ty i.trait i.args [] :: tys.map fun t => .trait t i.trait i.args (equated i ty)

/-- The where clause of a trait implementation, with the predicates added in `error.rs:27`. -/
def bounds (d : Data) (i : Impl) : List Bound :=
  traitBounds i (d.variants.map (·.2)) ++
    if i.static then d.variants.map fun v => .static v.2 else []

/-- The associated types an implementation defines: those of the first variant's type. -/
def assocTypes (d : Data) (i : Impl) : List (String × Proj) :=
  match d.variants with
  | [] => []
  | v :: _ => i.assoc.map fun n => (n, ⟨v.2, i.trait, i.args, n⟩)

/-- The `Unpin` implementation (`enum_derive.rs:309-316`). -/
def unpinImpl : Impl := { path := "", names := [], trait := "::core::marker::Unpin" }

/-- The implemented traits and the where clauses of their implementations
(`enum_derive.rs:280-347`). -/
def headers (d : Data) (o : Output) : List (String × List Bound) :=
  o.impls.map (fun i => (i.trait, bounds d i)) ++
    if o.guard then [(unpinImpl.trait, bounds d unpinImpl)] else []

/-- The name of a generic parameter of the enum. -/
def Param.name (p : Param) : String :=
  match p.toks with
  | "const" :: n :: _ => n
  | n :: _ => n
  | [] => ""

/-- The names of the generic parameters of the implementations a `derive` function produces: one
implementation for a trait, four for `Transpose` (`transpose.rs:32-130`). -/
def implParams (d : Data) (i : Impl) : List (List String) :=
  let ps := d.params.map (·.name)
  if i.path = "ty_impls::transpose" then
    [ps, ps ++ (List.range d.variants.length).map fun k => "__E" ++ toString k,
      ps ++ ["__E"], ps ++ ["__T"]]
  else [ps ++ i.params]

end AutoEnums.Derive
