import Verif.Spec.Args
import Verif.Derive.Table

/-!
# Specification vocabulary: `#[enum_derive]`

Taken from the documentation of the crate and of the traits.  From the model only the names of the
features and the records describing implementations are used.
-/

namespace AutoEnums.Spec

open Derive (Feature Impl Recv)

/-- The supported traits as documented in `lib.rs:599-745`: every accepted spelling and the feature
it requires. -/
def documented : List (String × Option Feature) := [
  -- iter
  ("Iterator", none), ("DoubleEndedIterator", none), ("ExactSizeIterator", none),
  ("FusedIterator", none), ("Extend", none), ("TrustedLen", some .trustedLen),
  -- future
  ("Future", none),
  -- io
  ("Read", some .std), ("io::Read", some .std), ("BufRead", some .std), ("io::BufRead", some .std),
  ("Write", some .std), ("io::Write", some .std), ("Seek", some .std), ("io::Seek", some .std),
  -- ops
  ("Deref", some .ops), ("DerefMut", some .ops), ("Index", some .ops), ("IndexMut", some .ops),
  ("RangeBounds", some .ops), ("Fn", some .fnTraits), ("FnMut", some .fnTraits),
  ("FnOnce", some .fnTraits), ("Coroutine", some .coroutineTrait),
  -- convert
  ("AsRef", some .convert), ("AsMut", some .convert),
  -- fmt
  ("Debug", none), ("fmt::Debug", none), ("Display", none), ("fmt::Display", none),
  ("fmt::Binary", some .fmt), ("fmt::LowerExp", some .fmt), ("fmt::LowerHex", some .fmt),
  ("fmt::Octal", some .fmt), ("fmt::Pointer", some .fmt), ("fmt::UpperExp", some .fmt),
  ("fmt::UpperHex", some .fmt), ("fmt::Write", none),
  -- error
  ("Error", some .std),
  -- external libraries
  ("futures03::Stream", some .futures03), ("futures03::Sink", some .futures03),
  ("futures03::AsyncRead", some .futures03), ("futures03::AsyncWrite", some .futures03),
  ("futures03::AsyncSeek", some .futures03), ("futures03::AsyncBufRead", some .futures03),
  ("futures01::Future", some .futures01), ("futures01::Stream", some .futures01),
  ("futures01::Sink", some .futures01),
  ("rayon::ParallelIterator", some .rayon), ("rayon::IndexedParallelIterator", some .rayon),
  ("rayon::ParallelExtend", some .rayon),
  ("serde::Serialize", some .serde),
  ("tokio1::AsyncRead", some .tokio1), ("tokio1::AsyncWrite", some .tokio1),
  ("tokio1::AsyncSeek", some .tokio1), ("tokio1::AsyncBufRead", some .tokio1),
  ("tokio03::AsyncRead", some .tokio03), ("tokio03::AsyncWrite", some .tokio03),
  ("tokio03::AsyncSeek", some .tokio03), ("tokio03::AsyncBufRead", some .tokio03),
  ("tokio02::AsyncRead", some .tokio02), ("tokio02::AsyncWrite", some .tokio02),
  ("tokio02::AsyncSeek", some .tokio02), ("tokio02::AsyncBufRead", some .tokio02),
  ("tokio01::AsyncRead", some .tokio01), ("tokio01::AsyncWrite", some .tokio01),
  ("http_body1::Body", some .httpBody1),
  -- inherent methods
  ("Transpose", some .transposeMethods)]

/-- `s` names a supported trait under the features `fs`. -/
def Supported (fs : Feature → Bool) (s : String) : Prop :=
  (s, none) ∈ documented ∨ ∃ f, (s, some f) ∈ documented ∧ fs f = true

instance (fs : Feature → Bool) (s : String) : Decidable (Supported fs s) :=
  decidable_of_iff (documented.any fun e => e.1 == s &&
    (match e.2 with | none => true | some f => fs f)) (by
  simp only [List.any_eq_true, Prod.exists, Bool.and_eq_true, beq_iff_eq, Supported]
  constructor
  · rintro ⟨a, o, h, rfl, h2⟩
    cases o with
    | none => exact .inl h
    | some f => exact .inr ⟨f, h, h2⟩
  · rintro (h | ⟨f, h, h2⟩)
    · exact ⟨s, none, h, rfl, rfl⟩
    · exact ⟨s, some f, h, rfl, h2⟩)

/-- The pairs of spellings of one trait (`lib.rs:599-745`, "alias"). -/
def aliases : List (String × String) := [
  ("Debug", "fmt::Debug"), ("Display", "fmt::Display"), ("Read", "io::Read"),
  ("BufRead", "io::BufRead"), ("Seek", "io::Seek"), ("Write", "io::Write")]

/-- `a` and `b` are the two spellings of one trait. -/
def Alias (a b : String) : Prop := (a, b) ∈ aliases ∨ (b, a) ∈ aliases

instance (a b : String) : Decidable (Alias a b) := inferInstanceAs (Decidable (_ ∨ _))

/-- How a path is written, without white space. -/
def spelling (p : Path) : String :=
  (if p.lead then "::" else "") ++
    "::".intercalate (p.segs.map fun s => s.ident ++ s.args.getD "")

/-- The supertraits (transitively) that the declarations of the supported traits and of the traits
with a standard `#[derive]` demand, in the libraries the implementations are for. -/
def supertraits : List (String × List String) := [
  ("Copy", ["Clone"]), ("Eq", ["PartialEq"]), ("PartialOrd", ["PartialEq"]),
  ("Ord", ["PartialOrd", "Eq", "PartialEq"]),
  ("DerefMut", ["Deref"]), ("IndexMut", ["Index"]), ("Fn", ["FnMut", "FnOnce"]),
  ("FnMut", ["FnOnce"]), ("DoubleEndedIterator", ["Iterator"]), ("ExactSizeIterator", ["Iterator"]),
  ("FusedIterator", ["Iterator"]), ("TrustedLen", ["Iterator"]), ("BufRead", ["Read"]),
  ("io::BufRead", ["Read"]), ("Error", ["Display", "Debug"]),
  ("rayon::IndexedParallelIterator", ["rayon::ParallelIterator"]),
  ("futures03::AsyncBufRead", ["futures03::AsyncRead"]),
  ("tokio1::AsyncBufRead", ["tokio1::AsyncRead"]), ("tokio03::AsyncBufRead", ["tokio03::AsyncRead"]),
  ("tokio02::AsyncBufRead", ["tokio02::AsyncRead"]), ("tokio01::AsyncRead", ["Read"]),
  ("tokio01::AsyncWrite", ["Write"])]

/-- `s` has the supertrait `d`. -/
def Needs (s d : String) : Prop := ∃ l, (s, l) ∈ supertraits ∧ d ∈ l

instance (s d : String) : Decidable (Needs s d) :=
  decidable_of_iff (supertraits.any fun e => e.1 == s && e.2.contains d) (by
  simp only [List.any_eq_true, Prod.exists, Bool.and_eq_true, beq_iff_eq, List.contains_iff_mem, Needs]
  constructor
  · rintro ⟨a, l, h, rfl, h2⟩; exact ⟨l, h, h2⟩
  · rintro ⟨l, h, h2⟩; exact ⟨s, l, h, rfl, h2⟩)

/-- Some method of the implementation has the receiver `Pin<&mut Self>`. -/
def usesPin (i : Impl) : Prop :=
  (∃ m ∈ i.forwarded, m.recv = .pin) ∨ ∃ m ∈ i.manual, m.sig.recv = .pin

/-- The argument list of `#[enum_derive(..)]` consisting of the given traits. -/
def IsTraits (toks : List Tok) (ps : List Path) : Prop :=
  ∃ trailing, (∀ p ∈ ps, p.segs ≠ []) ∧ toks = printEntries trailing (ps.map .trait)

/-- The traits with a `#[derive]` macro in the standard library that are not in `documented`. -/
def stdDerives : List String := ["Clone", "Copy", "PartialEq", "Eq", "PartialOrd", "Ord", "Hash"]

end AutoEnums.Spec
