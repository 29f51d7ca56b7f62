import Verif.Spec.Derive
import Verif.Spec.Enum
import Verif.Derive.Bounds

/-!
# Specification vocabulary: which types implement which traits

The meaning of bounds, and the declarations of the supported traits in the libraries that declare
them.
-/

namespace AutoEnums.Spec

open Derive

/-- A declared trait: its path, the number of its type parameters, and its associated types
including those of its supertraits, each with the path of the trait declaring it. -/
structure TraitDecl where
  path : String
  arity : Nat := 0
  assoc : List (String × String) := []

/-- The declarations of the supported traits, by the spelling used to request them. -/
def declarations : List (String × TraitDecl) := [
  ("Iterator", { path := "::core::iter::Iterator", assoc := [("::core::iter::Iterator", "Item")] }),
  ("DoubleEndedIterator", { path := "::core::iter::DoubleEndedIterator", assoc := [("::core::iter::Iterator", "Item")] }),
  ("ExactSizeIterator", { path := "::core::iter::ExactSizeIterator", assoc := [("::core::iter::Iterator", "Item")] }),
  ("FusedIterator", { path := "::core::iter::FusedIterator", assoc := [("::core::iter::Iterator", "Item")] }),
  ("TrustedLen", { path := "::core::iter::TrustedLen", assoc := [("::core::iter::Iterator", "Item")] }),
  ("Extend", { path := "::core::iter::Extend", arity := 1 }),
  ("Future", { path := "::core::future::Future", assoc := [("::core::future::Future", "Output")] }),
  ("Read", { path := "::std::io::Read" }), ("io::Read", { path := "::std::io::Read" }),
  ("BufRead", { path := "::std::io::BufRead" }), ("io::BufRead", { path := "::std::io::BufRead" }),
  ("Write", { path := "::std::io::Write" }), ("io::Write", { path := "::std::io::Write" }),
  ("Seek", { path := "::std::io::Seek" }), ("io::Seek", { path := "::std::io::Seek" }),
  ("Deref", { path := "::core::ops::Deref", assoc := [("::core::ops::Deref", "Target")] }),
  ("DerefMut", { path := "::core::ops::DerefMut", assoc := [("::core::ops::Deref", "Target")] }),
  ("Index", { path := "::core::ops::Index", arity := 1, assoc := [("::core::ops::Index", "Output")] }),
  ("IndexMut", { path := "::core::ops::IndexMut", arity := 1, assoc := [("::core::ops::Index", "Output")] }),
  ("RangeBounds", { path := "::core::ops::RangeBounds", arity := 1 }),
  ("Fn", { path := "::core::ops::Fn", arity := 1, assoc := [("::core::ops::FnOnce", "Output")] }),
  ("FnMut", { path := "::core::ops::FnMut", arity := 1, assoc := [("::core::ops::FnOnce", "Output")] }),
  ("FnOnce", { path := "::core::ops::FnOnce", arity := 1, assoc := [("::core::ops::FnOnce", "Output")] }),
  ("Coroutine", { path := "::core::ops::Coroutine", arity := 1, assoc :=
    [("::core::ops::Coroutine", "Yield"), ("::core::ops::Coroutine", "Return")] }),
  ("AsRef", { path := "::core::convert::AsRef", arity := 1 }),
  ("AsMut", { path := "::core::convert::AsMut", arity := 1 }),
  ("Debug", { path := "::core::fmt::Debug" }), ("fmt::Debug", { path := "::core::fmt::Debug" }),
  ("Display", { path := "::core::fmt::Display" }), ("fmt::Display", { path := "::core::fmt::Display" }),
  ("fmt::Binary", { path := "::core::fmt::Binary" }), ("fmt::LowerExp", { path := "::core::fmt::LowerExp" }),
  ("fmt::LowerHex", { path := "::core::fmt::LowerHex" }), ("fmt::Octal", { path := "::core::fmt::Octal" }),
  ("fmt::Pointer", { path := "::core::fmt::Pointer" }), ("fmt::UpperExp", { path := "::core::fmt::UpperExp" }),
  ("fmt::UpperHex", { path := "::core::fmt::UpperHex" }), ("fmt::Write", { path := "::core::fmt::Write" }),
  ("Error", { path := "::std::error::Error" }),
  ("futures03::Stream", { path := "::futures::stream::Stream", assoc := [("::futures::stream::Stream", "Item")] }),
  ("futures03::Sink", { path := "::futures::sink::Sink", arity := 1, assoc := [("::futures::sink::Sink", "Error")] }),
  ("futures03::AsyncRead", { path := "::futures::io::AsyncRead" }),
  ("futures03::AsyncWrite", { path := "::futures::io::AsyncWrite" }),
  ("futures03::AsyncSeek", { path := "::futures::io::AsyncSeek" }),
  ("futures03::AsyncBufRead", { path := "::futures::io::AsyncBufRead" }),
  ("futures01::Future", { path := "::futures::future::Future", assoc :=
    [("::futures::future::Future", "Item"), ("::futures::future::Future", "Error")] }),
  ("futures01::Stream", { path := "::futures::stream::Stream", assoc :=
    [("::futures::stream::Stream", "Item"), ("::futures::stream::Stream", "Error")] }),
  ("futures01::Sink", { path := "::futures::sink::Sink", assoc :=
    [("::futures::sink::Sink", "SinkItem"), ("::futures::sink::Sink", "SinkError")] }),
  ("rayon::ParallelIterator", { path := "::rayon::iter::ParallelIterator", assoc :=
    [("::rayon::iter::ParallelIterator", "Item")] }),
  ("rayon::IndexedParallelIterator", { path := "::rayon::iter::IndexedParallelIterator", assoc :=
    [("::rayon::iter::ParallelIterator", "Item")] }),
  ("rayon::ParallelExtend", { path := "::rayon::iter::ParallelExtend", arity := 1 }),
  ("serde::Serialize", { path := "::serde::ser::Serialize" }),
  ("tokio1::AsyncRead", { path := "::tokio::io::AsyncRead" }), ("tokio1::AsyncWrite", { path := "::tokio::io::AsyncWrite" }),
  ("tokio1::AsyncSeek", { path := "::tokio::io::AsyncSeek" }), ("tokio1::AsyncBufRead", { path := "::tokio::io::AsyncBufRead" }),
  ("tokio03::AsyncRead", { path := "::tokio::io::AsyncRead" }), ("tokio03::AsyncWrite", { path := "::tokio::io::AsyncWrite" }),
  ("tokio03::AsyncSeek", { path := "::tokio::io::AsyncSeek" }), ("tokio03::AsyncBufRead", { path := "::tokio::io::AsyncBufRead" }),
  ("tokio02::AsyncRead", { path := "::tokio::io::AsyncRead" }), ("tokio02::AsyncWrite", { path := "::tokio::io::AsyncWrite" }),
  ("tokio02::AsyncSeek", { path := "::tokio::io::AsyncSeek" }), ("tokio02::AsyncBufRead", { path := "::tokio::io::AsyncBufRead" }),
  ("tokio01::AsyncRead", { path := "::tokio::io::AsyncRead" }), ("tokio01::AsyncWrite", { path := "::tokio::io::AsyncWrite" }),
  ("http_body1::Body", { path := "::http_body::Body", assoc :=
    [("::http_body::Body", "Data"), ("::http_body::Body", "Error")] })]

/-- The associated types that a bound on a trait can mention although a supertrait declares them:
the trait, the associated type and the declaring supertrait. -/
def inherited : List ((String × String) × String) := [
  (("::core::iter::DoubleEndedIterator", "Item"), "::core::iter::Iterator"),
  (("::core::iter::ExactSizeIterator", "Item"), "::core::iter::Iterator"),
  (("::core::iter::FusedIterator", "Item"), "::core::iter::Iterator"),
  (("::core::iter::TrustedLen", "Item"), "::core::iter::Iterator"),
  (("::core::ops::DerefMut", "Target"), "::core::ops::Deref"),
  (("::core::ops::IndexMut", "Output"), "::core::ops::Index"),
  (("::core::ops::Fn", "Output"), "::core::ops::FnOnce"),
  (("::core::ops::FnMut", "Output"), "::core::ops::FnOnce"),
  (("::rayon::iter::IndexedParallelIterator", "Item"), "::rayon::iter::ParallelIterator")]

/-- The trait declaring the associated type called `name` in a bound on `trait`. -/
def declarer (trait name : String) : String := (inherited.lookup (trait, name)).getD trait

/-- What the types occurring in an enum are, and which traits they implement.  Type arguments of
traits are explicit. -/
structure Typing (Ty : Type) where
  /-- The type some tokens stand for. -/
  denote : List String → Ty
  /-- The type implements the trait at the path with the type arguments. -/
  impls : Ty → String → List Ty → Prop
  /-- `<ty as trait<args..>>::name` -/
  assoc : Ty → String → List Ty → String → Ty
  /-- The type contains no references other than static ones. -/
  static : Ty → Prop

variable {Ty : Type}

/-- The type arguments written as `args`. -/
def Typing.args (T : Typing Ty) (args : List String) : List Ty := args.map fun a => T.denote [a]

/-- The type a projection stands for. -/
def Typing.proj (T : Typing Ty) (p : Proj) : Ty :=
  T.assoc (T.denote p.ty) p.trait (T.args p.args) p.name

/-- A predicate of a where clause holds if the type parameter `__U` is `u`.  `F: Fn(T) -> U` means
that `F: Fn<(T,)>` and that the associated type `Output` of `FnOnce<(T,)>` is `U`. -/
def Typing.Holds (T : Typing Ty) (u : Ty) : Bound → Prop
  | .trait ty tr args eqs =>
    T.impls (T.denote ty) tr (T.args args) ∧
      ∀ e ∈ eqs, T.assoc (T.denote ty) (declarer tr e.1) (T.args args) e.1 = T.proj e.2
  | .fn ty tr =>
    T.impls (T.denote ty) tr (T.args ["(__T,)"]) ∧
      T.assoc (T.denote ty) "::core::ops::FnOnce" (T.args ["(__T,)"]) "Output" = u
  | .static ty => T.static (T.denote ty)

/-- The implementation applies: its where clause holds for some choice of its parameter that is
neither a parameter of the enum nor an argument of the trait. -/
def Typing.Applies (T : Typing Ty) (bs : List Bound) : Prop := ∃ u, ∀ b ∈ bs, T.Holds u b

/-- The types of the variants. -/
def Typing.payloads (T : Typing Ty) (d : Data) : List Ty := d.variants.map fun v => T.denote v.2

/-- All types implement the trait, with the same associated types. -/
structure Typing.Uniform (T : Typing Ty) (t : TraitDecl) (args : List Ty) (tys : List Ty) :
    Prop where
  impls : ∀ ty ∈ tys, T.impls ty t.path args
  assoc : ∀ ty ∈ tys, ∀ ty' ∈ tys, ∀ a ∈ t.assoc, T.assoc ty a.1 args a.2 = T.assoc ty' a.1 args a.2

/-- Types implementing a trait implement its supertraits, which take the same type arguments. -/
def Typing.Closed (T : Typing Ty) : Prop :=
  ∀ s s' t t', Needs s s' → (s, t) ∈ declarations → (s', t') ∈ declarations →
    ∀ ty args, T.impls ty t.path args → T.impls ty t'.path args

/-- The name begins with two underscores. -/
def Reserved (s : String) : Prop := s.toList.take 2 = ['_', '_']

instance (s : String) : Decidable (Reserved s) := inferInstanceAs (Decidable (_ = _))

/-- No generic parameter is declared twice: not in an implementation, and not in a method and the
implementation around it. -/
def NoClash (d : Data) (i : Impl) : Prop :=
  ∀ ps ∈ implParams d i, ps.Nodup ∧ ∀ m ∈ i.generics, m.2.Nodup ∧ ∀ p ∈ m.2, p ∉ ps

/-- What `#[enum_derive]` is given of an enum generated by `#[auto_enum]`. -/
def GenEnum.data (e : GenEnum) : Data :=
  { ident := e.name, params := e.generics.map fun g => { toks := [g] },
    variants := e.variants.map fun v => (v.1, [v.2]) }

end AutoEnums.Spec
