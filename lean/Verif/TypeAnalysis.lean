import Verif.Context

/-!
# `type_analysis.rs`
-/

namespace AutoEnums

/-- `TRAITS` (`type_analysis.rs:43-93`). -/
def TRAITS : List String := [
  "Clone", "Copy", "PartialEq", "Eq", "PartialOrd", "Ord", "Hash",
  "AsRef", "AsMut", "Debug", "fmt::Debug", "Display", "fmt::Display", "fmt::Binary",
  "fmt::LowerExp", "fmt::LowerHex", "fmt::Octal", "fmt::Pointer", "fmt::UpperExp", "fmt::UpperHex",
  "fmt::Write", "Iterator", "DoubleEndedIterator", "ExactSizeIterator", "FusedIterator",
  "TrustedLen", "Extend", "Deref", "DerefMut", "Index", "IndexMut", "RangeBounds", "Fn", "FnMut",
  "FnOnce", "Coroutine", "Future",
  "Read", "io::Read", "BufRead", "io::BufRead", "Write", "io::Write", "Seek", "io::Seek", "Error",
  "error::Error"]

/-- The trait path without generic arguments and leading `::` (`type_analysis.rs:24`). -/
def plainPath (p : Path) : Path := Path.ofIdents (p.segs.map (·.ident))

/-- The printed path with the spaces removed (`type_analysis.rs:25-26`), for a plain path. -/
def trimmed (p : Path) : String := String.intercalate "::" (p.segs.map (·.ident))

/-- The loop over the bounds of one `impl Trait` (`type_analysis.rs:22-34`).  Two printed paths are
equal iff the paths are, because `plainPath` has neither generic arguments nor a leading `::`. -/
def collectBounds (args : List Path) : List (Option Path) → List Path
  | [] => []
  | none :: bs => collectBounds args bs
  | some p :: bs =>
    let q := plainPath p
    if TRAITS.contains (trimmed q) && !args.contains q then q :: collectBounds args bs
    else collectBounds args bs

mutual
/-- `CollectImplTrait` (`type_analysis.rs:18-36`): the traits pushed by visiting a type, in order. -/
def collectTy (args : List Path) : Ty → List Path
  | .mk (.implTrait bs) kids => collectTyL args kids ++ collectBounds args bs
  | .mk _ kids => collectTyL args kids
def collectTyL (args : List Path) : List Ty → List Path
  | [] => []
  | t :: ts => collectTy args t ++ collectTyL args ts
end

/-- `collect_impl_trait` (`type_analysis.rs:11-41`, `context.rs:279-281`): returns the context with
the traits appended and `has_impl_trait`. -/
def Cx.collectImplTrait (cx : Cx) (ty : Ty) : Cx × Bool :=
  let new := collectTy cx.args ty
  ({ cx with traits := cx.traits ++ new }, !new.isEmpty)

end AutoEnums
